import Verif.Model.Assembler
import Verif.Spec.Decodes
import Verif.Proofs.Chunk

/-! Helper lemmas about the assembler: every emitter writes a fixed byte string at the current index. -/

namespace BurnFm

/-- Write `e` at the current index and skip `g` bytes after it. -/
def Asm.write (s : Asm) (e : Bytes) (g : Nat) : Res Asm :=
  if s.idx + e.length ≤ s.buf.length then
    .ok { idx := s.idx + e.length + g, buf := s.buf.take s.idx ++ e ++ s.buf.drop (s.idx + e.length) }
  else .error .index

theorem put_eq (s : Asm) (b : UInt8) : s.put b = s.write [b] 0 := by
  unfold Asm.put Asm.write
  by_cases h : s.idx < s.buf.length
  · rw [if_pos h, if_pos (by simp; omega), List.set_eq_take_append_cons_drop, if_pos h]
    simp
  · rw [if_neg h, if_neg (by simp; omega)]

theorem splice_eq (s : Asm) (d : Bytes) : s.splice d = s.write d 0 := rfl

theorem write_length {s t : Asm} {e : Bytes} {g : Nat} (h : s.write e g = .ok t) :
    t.buf.length = s.buf.length ∧ t.idx = s.idx + e.length + g ∧ s.idx + e.length ≤ s.buf.length := by
  unfold Asm.write at h
  split at h
  · cases h; simp; omega
  · cases h

theorem write_bind (s : Asm) (a b : Bytes) (g : Nat) :
    (s.write a 0 >>= fun t => t.write b g) = s.write (a ++ b) g := by
  by_cases h : s.idx + a.length ≤ s.buf.length
  · unfold Asm.write
    rw [if_pos h, ok_bind]
    have hl : (s.buf.take s.idx ++ a ++ s.buf.drop (s.idx + a.length)).length = s.buf.length := by
      simp; omega
    have ht : (s.buf.take s.idx ++ a).length = s.idx + a.length := by simp; omega
    dsimp only
    rw [hl]
    by_cases h2 : s.idx + a.length + 0 + b.length ≤ s.buf.length
    · rw [if_pos h2, if_pos (by simp; omega)]
      congr 2
      · simp; omega
      · rw [List.take_append_of_le_length (by omega), List.drop_append, ht]
        rw [List.take_of_length_le (by omega), List.drop_eq_nil_of_le (by omega)]
        simp only [List.nil_append, List.append_assoc, List.append_cancel_left_eq, List.drop_drop,
          List.length_append]
        congr 1; omega
    · rw [if_neg h2, if_neg (by simp; omega)]
  · have : s.write a 0 = .error .index := by unfold Asm.write; rw [if_neg h]
    rw [this, error_bind]
    unfold Asm.write
    rw [if_neg]; simp; omega

/-- The byte string each emitter writes. -/
def encKv (key : UInt8) (val : Bytes) : Bytes :=
  let ins := if key = 16 then 0x6 else if key = 216 then 0x6 else calcSmallKvIns val
  if 0x01 ≤ ins ∧ ins ≤ 0x05 then [ins, key] ++ val
  else if ins = 0x6 then [ins, key, lenByte val] ++ val
  else [ins]

def encKvE (key : UInt32) (val : Bytes) : Bytes := [0x0e] ++ putPathInt key ++ [lenByte val] ++ val

def encLongKv (key val : Bytes) : Bytes := [0x1e, lenByte key] ++ key ++ [lenByte val] ++ val

def encData1B (d : Bytes) : Bytes := [0x1b, lenByte d] ++ d

def encPush (dir : UInt32) : Bytes :=
  let d := putPathInt dir
  [if d.length = 1 then 0x20 else if d.length = 2 then 0x28 else 0x48] ++ d ++ [0x80]

theorem write_ok_then {s : Asm} {a b : Bytes} {g : Nat} {f : Asm → Res Asm} (h : ∀ t, f t = t.write b g) :
    (s.write a 0 >>= f) = s.write (a ++ b) g := by
  rw [← write_bind]; congr 1; funext t; exact h t

theorem emitKv_eq (s : Asm) (key : UInt8) (val : Bytes) : emitKv s key val = s.write (encKv key val) 0 := by
  unfold emitKv encKv
  dsimp only
  generalize (if key = 16 then (0x6 : UInt8) else if key = 216 then 0x6 else calcSmallKvIns val) = ins
  simp only [put_eq, splice_eq]
  by_cases h1 : 0x01 ≤ ins ∧ ins ≤ 0x05
  · simp only [if_pos h1]
    rw [write_ok_then (b := [key] ++ val) (g := 0)]; rfl
    intro t; rw [write_ok_then]; intro t; rfl
  · simp only [if_neg h1]
    by_cases h2 : ins = 0x6
    · simp only [if_pos h2]
      rw [write_ok_then (b := [key] ++ ([lenByte val] ++ val)) (g := 0)]; rfl
      intro t; rw [write_ok_then]; intro t; rw [write_ok_then]; intro t; rfl
    · simp only [if_neg h2]
      cases s.write [ins] 0 <;> rfl

theorem emitKvE_eq (s : Asm) (key : UInt32) (val : Bytes) : emitKvE s key val = s.write (encKvE key val) 0 := by
  unfold emitKvE encKvE
  simp only [put_eq, splice_eq, List.append_assoc]
  rw [write_ok_then]; intro t; rw [write_ok_then]; intro t; rw [write_ok_then]; intro t; rfl

theorem emitLongKv_eq (s : Asm) (key val : Bytes) : emitLongKv s key val = s.write (encLongKv key val) 0 := by
  unfold emitLongKv encLongKv
  simp only [put_eq, splice_eq]
  rw [show [0x1e, lenByte key] ++ key ++ [lenByte val] ++ val
    = [0x1e] ++ ([lenByte key] ++ (key ++ ([lenByte val] ++ val))) by simp]
  rw [write_ok_then]; intro t; rw [write_ok_then]; intro t; rw [write_ok_then]; intro t
  rw [write_ok_then]; intro t; rfl

theorem write_gap (s : Asm) (e : Bytes) (g : Nat) :
    (s.write e 0 >>= fun t => (return { t with idx := t.idx + g } : Res Asm)) = s.write e g := by
  unfold Asm.write
  split <;> rfl

theorem emitData1B_eq (s : Asm) (d : Bytes) : emitData1B s d = s.write (encData1B d) 4 := by
  unfold emitData1B encData1B
  simp only [put_eq, splice_eq]
  rw [show [0x1b, lenByte d] ++ d = [0x1b] ++ ([lenByte d] ++ d) by simp]
  rw [write_ok_then]; intro t; rw [write_ok_then]; intro t; exact write_gap t d 4

theorem emitPush_eq (s : Asm) (dir : UInt32) : emitPush s dir = s.write (encPush dir) 0 := by
  unfold emitPush encPush emitNoop
  simp only [put_eq, splice_eq, List.append_assoc]
  rw [write_ok_then]; intro t; rw [write_ok_then]; intro t; rfl

theorem emitPop_eq (s : Asm) : emitPop s = s.write [0x40] 0 := put_eq s 0x40
theorem emitNoop_eq (s : Asm) : emitNoop s = s.write [0x80] 0 := put_eq s 0x80

theorem lenByte_toNat {d : Bytes} (h : d.length ≤ 255) : (lenByte d).toNat = d.length := by
  unfold lenByte; rw [UInt8.toNat_ofNat']; omega

theorem getElem?_at (pre rest : Bytes) (x : UInt8) : (pre ++ x :: rest)[pre.length]? = some x := by simp

theorem decode_of {p : Profile} {pre rest : Bytes} {x : UInt8} {path : DirPath} {loc : Nat} {body : Body}
    (h : chunkBody (pre ++ x :: rest) pre.length (stripDelay x) = .ok (some body)) (hd : delayBits x = false) :
    getChunk p (pre ++ x :: rest) pre.length path loc = .ok (.ok
      { ctype := body.ctype, code := stripDelay x, data := body.data, refData := body.refData,
        path := body.pathOp.apply path, segmentIdx := body.segidx, refSimple := body.refSimple } body.off
      (body.pathOp.apply path)) := by
  rw [getChunk_of_body (getElem?_at pre rest x) h, hd]; rfl

theorem decode_ex {p : Profile} {pre rest rest' : Bytes} {x : UInt8} {path path' : DirPath} {loc off' : Nat} {body : Body}
    {w : Option Spec.What}
    (h : chunkBody (pre ++ x :: rest) pre.length (stripDelay x) = .ok (some body)) (hd : delayBits x = false)
    (hr : rest' = x :: rest) (ho : body.off = off') (hp : body.pathOp.apply path = path')
    (hm : meaning ⟨body.ctype, 0, body.data, body.refData, [], body.segidx, body.refSimple⟩ = w) :
    ∃ ch, getChunk p (pre ++ rest') pre.length path loc = .ok (.ok ch off' path') ∧ meaning ch = w ∧
      ch.path = path' := by
  subst hr
  refine ⟨_, by rw [decode_of h hd, ho, hp], ?_, rfl⟩
  exact hm

theorem idx_at (pre : Bytes) (l : Bytes) (k : Nat) : idx (pre ++ l) (pre.length + k) = idx l k := idx_append pre l k

theorem armSmallKv_enc (pre post val : Bytes) (c key : UInt8)
    (hl : val.length = (if c = 0x01 then 1 else 0) + 2 * (c.toNat - 1)) :
    armSmallKv (pre ++ c :: (key :: val ++ post)) pre.length c = .ok
      { ctype := .refSimple, data := some val, refSimple := some key.toNat, off := pre.length + (2 + val.length) } := by
  unfold armSmallKv
  rw [idx_append, idx_cons, List.cons_append, idx_zero, ok_bind]
  dsimp only
  rw [← hl, slice_append, show 2 + val.length = val.length + 1 + 1 by omega, slice_cons, slice_cons, slice_prefix]
  rfl

theorem armKv_enc (pre post val : Bytes) (c key : UInt8) (hl : val.length ≤ 255) :
    armKv (pre ++ c :: (key :: lenByte val :: val ++ post)) pre.length = .ok
      { ctype := .refSimple, data := some val, refSimple := some key.toNat, off := pre.length + (3 + val.length) } := by
  unfold armKv
  rw [idx_append, idx_cons, List.cons_append, idx_zero, ok_bind, idx_append, idx_cons, idx_cons, List.cons_append,
    idx_zero, ok_bind, lenByte_toNat hl, slice_append, show 3 + val.length = val.length + 1 + 1 + 1 by omega,
    slice_cons, slice_cons, slice_cons, slice_prefix]
  rfl

theorem calc_le {val : Bytes} (h : val.length < 10) : calcSmallKvIns val = UInt8.ofNat ((val.length + 2) / 2) := by
  unfold calcSmallKvIns
  have : val.length = 0 ∨ val.length = 1 ∨ val.length = 2 ∨ val.length = 3 ∨ val.length = 4 ∨ val.length = 5 ∨
    val.length = 6 ∨ val.length = 7 ∨ val.length = 8 ∨ val.length = 9 := by omega
  rcases this with h | h | h | h | h | h | h | h | h | h <;> rw [h] <;> rfl

theorem calc_ge {val : Bytes} (h : 10 ≤ val.length) (h2 : val.length ≤ 255) : calcSmallKvIns val = 6 := by
  unfold calcSmallKvIns
  dsimp only
  rw [if_pos]
  show (5 : UInt8) < _
  rw [UInt8.lt_iff_toNat_lt, UInt8.toNat_ofNat']
  simp only [UInt8.reduceToNat]; omega

theorem decode_kv (p : Profile) (pre post val : Bytes) (key : UInt8) (path : DirPath) (loc : Nat)
    (h : Spec.KvLen key val.length) :
    ∃ ch, getChunk p (pre ++ (encKv key val ++ post)) pre.length path loc =
        .ok (.ok ch (pre.length + (encKv key val).length) path) ∧
      meaning ch = some (.kv key.toNat val) ∧ ch.path = path := by
  have big : val.length ≤ 255 → encKv key val = [6, key, lenByte val] ++ val → ∃ ch, getChunk p (pre ++ (encKv key val ++ post)) pre.length path loc =
        .ok (.ok ch (pre.length + (encKv key val).length) path) ∧
      meaning ch = some (.kv key.toNat val) ∧ ch.path = path := by
    intro hl he
    rw [he]
    have hb : chunkBody (pre ++ (6 : UInt8) :: (key :: lenByte val :: val ++ post)) pre.length (stripDelay 6) = _ :=
      some_map_ok.mpr (armKv_enc pre post val 6 key hl)
    exact decode_ex hb rfl (by simp) (by simp; omega) rfl rfl
  unfold Spec.KvLen at h
  by_cases hk : key = 16 ∨ key = 216
  · rw [if_pos hk] at h
    apply big h
    rcases hk with rfl | rfl <;> rfl
  · rw [if_neg hk] at h
    have hk1 : key ≠ 16 := fun e => hk (.inl e)
    have hk2 : key ≠ 216 := fun e => hk (.inr e)
    by_cases h10 : 10 ≤ val.length
    · apply big (by omega)
      unfold encKv
      rw [if_neg hk1, if_neg hk2, calc_ge h10 (by omega)]; rfl
    · have hc := calc_le (by omega : val.length < 10)
      have small : ∀ c : UInt8, calcSmallKvIns val = c → c = 1 ∨ c = 2 ∨ c = 3 ∨ c = 4 ∨ c = 5 →
          val.length = (if c = 0x01 then 1 else 0) + 2 * (c.toNat - 1) →
          ∃ ch, getChunk p (pre ++ (encKv key val ++ post)) pre.length path loc =
            .ok (.ok ch (pre.length + (encKv key val).length) path) ∧
          meaning ch = some (.kv key.toNat val) ∧ ch.path = path := by
        intro c e hcc hl
        have he : encKv key val = [c, key] ++ val := by
          unfold encKv
          rw [if_neg hk1, if_neg hk2, e]
          rcases hcc with rfl | rfl | rfl | rfl | rfl <;> rfl
        have hs : stripDelay c = c := by rcases hcc with rfl | rfl | rfl | rfl | rfl <;> rfl
        have hd : delayBits c = false := by rcases hcc with rfl | rfl | rfl | rfl | rfl <;> rfl
        have hcb : ∀ code o, chunkBody code o c = some <$> armSmallKv code o c := by
          intro code o
          rcases hcc with rfl | rfl | rfl | rfl | rfl <;> rfl
        have hb := some_map_ok.mpr (armSmallKv_enc pre post val c key hl)
        rw [← hcb] at hb
        have hb : chunkBody (pre ++ c :: (key :: val ++ post)) pre.length (stripDelay c) = .ok (some
          { ctype := .refSimple, data := some val, refSimple := some key.toNat, off := pre.length + (2 + val.length) }) := by
          rw [hs]; exact hb
        rw [he]
        exact decode_ex hb hd (by simp) (by simp; omega) rfl rfl
      have hn : val.length = 1 ∨ val.length = 2 ∨ val.length = 4 ∨ val.length = 6 ∨ val.length = 8 := by omega
      rcases hn with h | h | h | h | h <;> rw [h] at hc
      · exact small 1 hc (by simp) (by rw [h]; rfl)
      · exact small 2 hc (by simp) (by rw [h]; rfl)
      · exact small 3 hc (by simp) (by rw [h]; rfl)
      · exact small 4 hc (by simp) (by rw [h]; rfl)
      · exact small 5 hc (by simp) (by rw [h]; rfl)

theorem putPathInt_small {d : Nat} (h : d < 128) : putPathInt (UInt32.ofNat d) = [UInt8.ofNat d] := by
  unfold putPathInt
  have hd : (UInt32.ofNat d).toNat = d := by rw [UInt32.toNat_ofNat']; omega
  rw [if_neg]
  · congr 1
    apply UInt8.toNat_inj.mp
    rw [UInt32.toNat_toUInt8, hd, UInt8.toNat_ofNat']
  · show ¬ ((128 : UInt32) ≤ _)
    rw [UInt32.le_iff_toNat_le, hd]; simp only [UInt32.reduceToNat]; omega

theorem putPathInt_two {d : Nat} (h : 128 ≤ d) (h2 : d < 2 ^ 32) : ∃ a, putPathInt (UInt32.ofNat d) = [a, UInt8.ofNat (d - 128)] := by
  unfold putPathInt
  have hd : (UInt32.ofNat d).toNat = d := by rw [UInt32.toNat_ofNat']; omega
  rw [if_pos]
  · refine ⟨((((UInt32.ofNat d - 128) >>> 8) &&& 0x7f) ||| 0x80).toUInt8 ||| 0x7c, ?_⟩
    dsimp only
    rw [List.cons.injEq, List.cons.injEq]
    refine ⟨rfl, ?_, rfl⟩
    apply UInt8.toNat_inj.mp
    rw [UInt32.toNat_toUInt8, UInt32.toNat_and, UInt32.toNat_sub_of_le _ _ (by rw [UInt32.le_iff_toNat_le, hd]; exact h), hd, UInt8.toNat_ofNat']
    have e : (0xFF : UInt32).toNat = 2 ^ 8 - 1 := rfl
    have e2 : (128 : UInt32).toNat = 128 := rfl
    rw [e, Nat.and_two_pow_sub_one_eq_mod, e2]; omega
  · show ((128 : UInt32) ≤ _)
    rw [UInt32.le_iff_toNat_le, hd]; exact h

theorem putPathInt_mid {d : Nat} (h : 128 ≤ d) (h2 : d < 384) : putPathInt (UInt32.ofNat d) = [0xFC, UInt8.ofNat (d - 128)] := by
  have hd : (UInt32.ofNat d).toNat = d := by rw [UInt32.toNat_ofNat']; omega
  have hsub : (UInt32.ofNat d - 128).toNat = d - 128 := by
    rw [UInt32.toNat_sub_of_le _ _ (by rw [UInt32.le_iff_toNat_le, hd]; exact h), hd]; rfl
  obtain ⟨a, ha⟩ := putPathInt_two h (by omega)
  rw [ha]
  unfold putPathInt at ha
  rw [if_pos (by show ((128 : UInt32) ≤ _); rw [UInt32.le_iff_toNat_le, hd]; exact h)] at ha
  dsimp only at ha
  have hz : (UInt32.ofNat d - 128) >>> 8 = 0 := by
    apply UInt32.toNat_inj.mp
    rw [UInt32.toNat_shiftRight, hsub]
    show (d - 128) >>> 8 = 0
    rw [Nat.shiftRight_eq_div_pow]; omega
  rw [hz] at ha
  simp only [List.cons.injEq] at ha
  rw [← ha.1]; rfl

def kvIns (key : UInt8) (val : Bytes) : UInt8 :=
  if key = 16 then 0x6 else if key = 216 then 0x6 else calcSmallKvIns val

theorem encKv_head (key : UInt8) (val : Bytes) : ∃ rest, encKv key val = kvIns key val :: rest := by
  unfold encKv
  show ∃ rest, (if 0x01 ≤ kvIns key val ∧ kvIns key val ≤ 0x05 then [kvIns key val, key] ++ val
    else if kvIns key val = 0x6 then [kvIns key val, key, lenByte val] ++ val else [kvIns key val]) = _
  split
  · exact ⟨_, rfl⟩
  · split
    · exact ⟨_, rfl⟩
    · exact ⟨_, rfl⟩

theorem kvIns_cases (key : UInt8) (val : Bytes) :
    kvIns key val = 0 ∨ kvIns key val = 1 ∨ kvIns key val = 2 ∨ kvIns key val = 3 ∨ kvIns key val = 4 ∨
    kvIns key val = 5 ∨ kvIns key val = 6 := by
  unfold kvIns calcSmallKvIns
  dsimp only
  split
  · simp
  · split
    · simp
    · split
      · simp
      · rename_i h
        generalize UInt8.ofNat _ = c at h ⊢
        replace h : ¬ ((5 : UInt8) < c) := h
        rw [UInt8.lt_iff_toNat_lt] at h
        simp only [← UInt8.toNat_inj, UInt8.reduceToNat] at *
        omega

theorem armKvE_enc (pre post val : Bytes) (a b : UInt8) (ha : a ≠ 0xFF) (hl : val.length ≤ 255) :
    armKvE (pre ++ (0x0e : UInt8) :: (a :: b :: lenByte val :: val ++ post)) pre.length = .ok
      { ctype := .refSimple, data := some val, refSimple := some (128 + b.toNat), off := pre.length + (4 + val.length) } := by
  unfold armKvE
  rw [idx_append, idx_cons, List.cons_append, idx_zero, ok_bind, if_pos ha, slice_append, slice_cons]
  rw [show slice (a :: (b :: lenByte val :: val ++ post)) 0 2 = .ok [a, b] by rw [slice_ok]; simp, ok_bind]
  rw [idx_append, idx_cons, idx_cons, List.cons_append, idx_cons, List.cons_append, idx_zero, ok_bind, lenByte_toNat hl,
    slice_append, show 4 + val.length = val.length + 1 + 1 + 1 + 1 by omega,
    slice_cons, slice_cons, slice_cons, slice_cons, slice_prefix, ok_bind]
  simp only [getPathInt, byte_and_high]
  rfl

theorem decode_kvE (p : Profile) (pre post val : Bytes) (key : Nat) (path : DirPath) (loc : Nat)
    (h1 : 128 ≤ key) (h2 : key < 384) (hl : val.length ≤ 255) :
    ∃ ch, getChunk p (pre ++ (encKvE (UInt32.ofNat key) val ++ post)) pre.length path loc =
        .ok (.ok ch (pre.length + (encKvE (UInt32.ofNat key) val).length) path) ∧
      meaning ch = some (.kv key val) ∧ ch.path = path := by
  unfold encKvE
  rw [putPathInt_mid h1 h2]
  have hb : chunkBody (pre ++ (0x0e : UInt8) :: (0xFC :: UInt8.ofNat (key - 128) :: lenByte val :: val ++ post)) pre.length (stripDelay 0x0e) = _ :=
    some_map_ok.mpr (armKvE_enc pre post val 0xFC (UInt8.ofNat (key - 128)) (by decide) hl)
  have hk : 128 + (UInt8.ofNat (key - 128)).toNat = key := by rw [UInt8.toNat_ofNat']; omega
  rw [hk] at hb
  exact decode_ex hb rfl (by simp) (by simp; omega) rfl rfl

theorem decode_longKv (p : Profile) (pre post key val : Bytes) (path : DirPath) (loc : Nat)
    (hk : key.length ≤ 255) (hl : val.length ≤ 255) :
    ∃ ch, getChunk p (pre ++ (encLongKv key val ++ post)) pre.length path loc =
        .ok (.ok ch (pre.length + (encLongKv key val).length) path) ∧
      meaning ch = some (.longKv key val) ∧ ch.path = path := by
  have e : encLongKv key val ++ post = (0x1e : UInt8) :: (lenByte key :: (key ++ (lenByte val :: (val ++ post)))) := by
    simp [encLongKv]
  have hb : armLongKv (pre ++ (0x1e : UInt8) :: (lenByte key :: (key ++ (lenByte val :: (val ++ post))))) pre.length = .ok
      { ctype := .refLong, data := some val, refData := some key, off := pre.length + (3 + key.length + val.length) } := by
    unfold armLongKv
    rw [idx_append, idx_cons, idx_zero, ok_bind, lenByte_toNat hk, slice_append,
      show 2 + key.length = key.length + 1 + 1 by omega, slice_cons, slice_cons, slice_prefix, ok_bind,
      idx_append, idx_cons, idx_cons]
    have hi := idx_append key (lenByte val :: (val ++ post)) 0
    rw [Nat.add_zero] at hi
    rw [hi, idx_zero, ok_bind, lenByte_toNat hl, slice_append,
      show 3 + key.length = (key.length + 1) + 1 + 1 by omega,
      show key.length + 1 + 1 + 1 + val.length = (key.length + (1 + val.length)) + 1 + 1 by omega, slice_cons, slice_cons,
      slice_append]
    rw [show 1 + val.length = val.length + 1 by omega, slice_cons, slice_prefix, ok_bind]
    simp only [pure_ok]
  have hb' : chunkBody (pre ++ (0x1e : UInt8) :: (lenByte key :: (key ++ (lenByte val :: (val ++ post))))) pre.length (stripDelay 0x1e) = _ :=
    some_map_ok.mpr hb
  exact decode_ex hb' rfl e (by simp [encLongKv]; omega) rfl rfl

theorem decode_data1B (p : Profile) (pre post val : Bytes) (path : DirPath) (loc : Nat)
    (h1 : 1 ≤ val.length) (hl : val.length ≤ 255) :
    ∃ ch, getChunk p (pre ++ (encData1B val ++ post)) pre.length path loc =
        .ok (.ok ch (pre.length + (encData1B val).length + 4) path) ∧
      meaning ch = some (.data val) ∧ ch.path = path := by
  have e : encData1B val ++ post = (0x1b : UInt8) :: (lenByte val :: (val ++ post)) := by simp [encData1B]
  have hne : lenByte val ≠ 0 := by
    intro h
    have := congrArg UInt8.toNat h
    rw [lenByte_toNat hl] at this
    simp only [UInt8.reduceToNat] at this
    omega
  have hb : armData1B (pre ++ (0x1b : UInt8) :: (lenByte val :: (val ++ post))) pre.length = .ok
      { ctype := .dataSimple, data := some val, off := pre.length + (2 + val.length + 4) } := by
    unfold armData1B
    rw [idx_append, idx_cons, idx_zero, ok_bind, if_neg hne, lenByte_toNat hl, slice_append,
      show 2 + val.length = val.length + 1 + 1 by omega, slice_cons, slice_cons, slice_prefix, ok_bind]
    rfl
  have hb' : chunkBody (pre ++ (0x1b : UInt8) :: (lenByte val :: (val ++ post))) pre.length (stripDelay 0x1b) = _ :=
    some_map_ok.mpr hb
  exact decode_ex hb' rfl e (by simp [encData1B]; omega) rfl rfl

theorem decode_pop (p : Profile) (pre post : Bytes) (path : DirPath) (loc : Nat) :
    ∃ ch, getChunk p (pre ++ (0x40 :: post)) pre.length path loc =
        .ok (.ok ch (pre.length + 1) path.dropLast) ∧
      meaning ch = some .pop ∧ ch.path = path.dropLast := by
  have hb' : chunkBody (pre ++ (0x40 : UInt8) :: post) pre.length (stripDelay 0x40) = .ok (some _) := rfl
  exact decode_ex hb' rfl rfl rfl rfl rfl

theorem decode_noop (p : Profile) (pre post : Bytes) (path : DirPath) (loc : Nat) :
    ∃ ch, getChunk p (pre ++ (0x80 :: post)) pre.length path loc = .ok (.ok ch (pre.length + 1) path) ∧
      meaning ch = none ∧ ch.path = path ∧ ch.ctype = .noop := by
  have hb' : chunkBody (pre ++ (0x80 : UInt8) :: post) pre.length (stripDelay 0x80) =
    .ok (some { ctype := .noop, off := pre.length + 1 }) := rfl
  refine ⟨_, by rw [decode_of hb' rfl]; rfl, rfl, rfl, rfl⟩

/-- The push chunk itself, without the no-op written after it. -/
theorem decode_push (p : Profile) (pre post : Bytes) (d : Nat) (path : DirPath) (loc : Nat) (h : d < 384) :
    ∃ e, encPush (UInt32.ofNat d) = e ++ [0x80] ∧ ∃ ch,
      getChunk p (pre ++ (e ++ post)) pre.length path loc = .ok (.ok ch (pre.length + e.length) (path ++ [d])) ∧
      meaning ch = some .push ∧ ch.path = path ++ [d] := by
  by_cases hd : d < 128
  · refine ⟨[0x20, UInt8.ofNat d], by unfold encPush; rw [putPathInt_small hd]; rfl, ?_⟩
    have hdn : (UInt8.ofNat d).toNat = d := by rw [UInt8.toNat_ofNat']; omega
    have hne : UInt8.ofNat d ≠ 0xFE := by
      intro h; have := congrArg UInt8.toNat h; rw [hdn] at this; simp only [UInt8.reduceToNat] at this; omega
    have hb : armPush1 (pre ++ (0x20 : UInt8) :: (UInt8.ofNat d :: post)) pre.length = .ok
      { ctype := .pathPush, data := some [UInt8.ofNat d], off := pre.length + 2, pathOp := .push d } := by
      unfold armPush1
      rw [idx_append, idx_cons, idx_zero, ok_bind, if_neg hne, slice_append, slice_cons]
      rw [show slice (UInt8.ofNat d :: post) 0 1 = .ok [UInt8.ofNat d] by rw [slice_ok]; simp, ok_bind]
      simp only [getPathInt, hdn]; rfl
    have hb' : chunkBody (pre ++ (0x20 : UInt8) :: (UInt8.ofNat d :: post)) pre.length (stripDelay 0x20) = _ :=
      some_map_ok.mpr hb
    exact decode_ex hb' rfl rfl rfl rfl rfl
  · refine ⟨[0x28, 0xFC, UInt8.ofNat (d - 128)], by unfold encPush; rw [putPathInt_mid (by omega) h]; rfl, ?_⟩
    have hdn : 128 + (UInt8.ofNat (d - 128)).toNat = d := by rw [UInt8.toNat_ofNat']; omega
    have hb : armPush2 (pre ++ (0x28 : UInt8) :: (0xFC :: UInt8.ofNat (d - 128) :: post)) pre.length = .ok
      { ctype := .pathPush, data := some [0xFC, UInt8.ofNat (d - 128)], off := pre.length + 3, pathOp := .push d } := by
      unfold armPush2
      rw [slice_append, slice_cons]
      rw [show slice ((0xFC : UInt8) :: UInt8.ofNat (d - 128) :: post) 0 2 = .ok [0xFC, UInt8.ofNat (d - 128)] by rw [slice_ok]; simp, ok_bind]
      simp only [getPathInt, byte_and_high, Nat.add_zero, hdn]; rfl
    have hb' : chunkBody (pre ++ (0x28 : UInt8) :: (0xFC :: UInt8.ofNat (d - 128) :: post)) pre.length (stripDelay 0x28) = _ :=
      some_map_ok.mpr hb
    exact decode_ex hb' rfl rfl rfl rfl rfl

theorem write_spec {s t : Asm} {e : Bytes} {g : Nat} (h : s.write e g = .ok t) :
    ∃ pre post, pre.length = s.idx ∧ t.buf = pre ++ (e ++ post) ∧ t.idx = s.idx + e.length + g ∧
      pre = s.buf.take s.idx ∧ post = s.buf.drop (s.idx + e.length) := by
  have h2 := write_length h
  unfold Asm.write at h
  rw [if_pos h2.2.2] at h
  cases h
  exact ⟨_, _, by simp; omega, List.append_assoc _ _ _, rfl, rfl, rfl⟩

def encRecord : Spec.Record → Bytes
  | .kv key val => encKv key val
  | .kvE key val => encKvE (UInt32.ofNat key) val
  | .longKv key val => encLongKv key val
  | .data val => encData1B val
  | .push dir => encPush (UInt32.ofNat dir)
  | .pop => [0x40]

def gapRecord : Spec.Record → Nat
  | .data _ => 4
  | _ => 0

theorem emitRecord_eq (s : Asm) (r : Spec.Record) : emitRecord s r = s.write (encRecord r) (gapRecord r) := by
  cases r <;> simp only [emitRecord, encRecord, gapRecord]
  · exact emitKv_eq _ _ _
  · exact emitKvE_eq _ _ _
  · exact emitLongKv_eq _ _ _
  · exact emitData1B_eq _ _
  · exact emitPush_eq _ _
  · exact emitPop_eq _

/-- Nothing before the starting index changes, nor does the size of the buffer. -/
theorem emitRecords_frame {rs : List Spec.Record} : ∀ {s t : Asm}, emitRecords s rs = .ok t →
    t.buf.take s.idx = s.buf.take s.idx ∧ t.buf.length = s.buf.length ∧ s.idx ≤ t.idx := by
  induction rs with
  | nil => intro s t h; cases h; exact ⟨rfl, rfl, Nat.le_refl _⟩
  | cons r rs ih =>
    intro s t h
    unfold emitRecords at h
    rw [List.foldlM_cons, bind_ok] at h
    obtain ⟨s1, h1, h2⟩ := h
    obtain ⟨i1, i2, i3⟩ := ih h2
    rw [emitRecord_eq] at h1
    have hl := write_length h1
    obtain ⟨pre, post, hp, hb, hi, hpre, hpost⟩ := write_spec h1
    refine ⟨?_, by omega, by omega⟩
    have : (t.buf.take s1.idx).take s.idx = (s1.buf.take s1.idx).take s.idx := by rw [i1]
    rw [List.take_take, List.take_take, Nat.min_eq_left (by omega)] at this
    rw [this, hb, List.take_append_of_le_length (by omega), List.take_of_length_le (by omega), hpre]

/-- Nothing after the final index changes. -/
theorem emitRecords_after {rs : List Spec.Record} : ∀ {s t : Asm}, emitRecords s rs = .ok t →
    ∀ i : Nat, t.idx ≤ i → t.buf[i]? = s.buf[i]? := by
  induction rs with
  | nil => intro s t h i _; cases h; rfl
  | cons r rs ih =>
    intro s t h i hi
    unfold emitRecords at h
    rw [List.foldlM_cons, bind_ok] at h
    obtain ⟨s1, h1, h2⟩ := h
    rw [emitRecord_eq] at h1
    have hl := write_length h1
    have hm : s1.idx ≤ t.idx := (emitRecords_frame h2).2.2
    rw [ih h2 i hi]
    unfold Asm.write at h1
    rw [if_pos hl.2.2] at h1
    cases h1
    dsimp only at hl hm ⊢
    have hk : (s.buf.take s.idx ++ encRecord r).length = s.idx + (encRecord r).length := by
      rw [List.length_append, List.length_take]; omega
    rw [List.getElem?_append_right (by omega), List.getElem?_drop, hk]
    congr 1; omega

theorem decode_record (p : Profile) (pre post : Bytes) (r : Spec.Record) (path : DirPath) (loc : Nat)
    (h : Spec.Representable r) :
    ∃ chs, Decodes p (pre ++ (encRecord r ++ post)) loc pre.length path chs
        (pre.length + (encRecord r).length + gapRecord r) (Spec.finalPath path [r]) ∧
      eventsOf chs = Spec.events path [r] ∧
      ∀ ch ∈ chs, (∃ e ∈ Spec.events path [r], e.path = ch.path) ∧ (meaning ch = none → ch.ctype = .noop) := by
  have fin : ∀ {e : Bytes} {g : Nat} {path' : DirPath} {w : Spec.What} {ch : Chunk}, 0 < e.length →
      getChunk p (pre ++ (e ++ post)) pre.length path loc = .ok (.ok ch (pre.length + e.length + g) path') →
      meaning ch = some w → ch.path = path' →
      ∃ chs, Decodes p (pre ++ (e ++ post)) loc pre.length path chs (pre.length + e.length + g) path' ∧
      eventsOf chs = [⟨path', w⟩] ∧
      ∀ ch ∈ chs, (∃ e ∈ [(⟨path', w⟩ : Spec.Event)], e.path = ch.path) ∧ (meaning ch = none → ch.ctype = .noop) := by
    intro e g path' w ch he h1 h2 h3
    refine ⟨[ch], .cons h1 (by omega) (.nil _ _), by simp [eventsOf, h2, h3], by simp [h2, h3]⟩
  cases r with
  | kv key val =>
    obtain ⟨ch, h1, h2, h3⟩ := decode_kv p pre post val key path loc h
    refine fin (g := 0) ?_ h1 h2 h3
    obtain ⟨rest, he⟩ := encKv_head key val
    simp only [encRecord]; rw [he]; exact Nat.succ_pos _
  | kvE key val =>
    obtain ⟨ch, h1, h2, h3⟩ := decode_kvE p pre post val key path loc h.1 h.2.1 h.2.2
    exact fin (g := 0) (by simp [encRecord, encKvE]) h1 h2 h3
  | longKv key val =>
    obtain ⟨ch, h1, h2, h3⟩ := decode_longKv p pre post key val path loc h.1 h.2
    exact fin (g := 0) (by simp [encRecord, encLongKv]) h1 h2 h3
  | data val =>
    obtain ⟨ch, h1, h2, h3⟩ := decode_data1B p pre post val path loc h.1 h.2
    exact fin (g := 4) (by simp [encRecord, encData1B]) h1 h2 h3
  | pop =>
    obtain ⟨ch, h1, h2, h3⟩ := decode_pop p pre post path loc
    exact fin (e := [0x40]) (g := 0) (by simp) h1 h2 h3
  | push dir =>
    obtain ⟨e, he, ch, h1, h2, h3⟩ := decode_push p pre ([0x80] ++ post) dir path loc h
    obtain ⟨ch', g1, g2, g3, g4⟩ := decode_noop p (pre ++ e) post (path ++ [dir]) loc
    have hle : 0 < e.length := by
      have h2 := congrArg List.length he
      rw [List.length_append] at h2
      unfold encPush at h2
      dsimp only at h2
      rw [List.length_append, List.length_append] at h2
      simp at h2
      rcases Nat.eq_zero_or_pos e.length with h0 | h0
      · omega
      · exact h0
    refine ⟨[ch, ch'], ?_, by simp [eventsOf, h2, h3, g2, Spec.events], by simp [Spec.events, h2, h3, g3, g4]⟩
    have eq1 : pre ++ (encRecord (.push dir) ++ post) = pre ++ (e ++ ([0x80] ++ post)) := by
      simp only [encRecord]; rw [he, List.append_assoc]
    have eq2 : pre ++ e ++ (0x80 :: post) = pre ++ (e ++ ([0x80] ++ post)) := by simp
    have eq3 : pre.length + (encRecord (.push dir)).length + gapRecord (.push dir) = (pre ++ e).length + 1 := by
      simp only [encRecord, gapRecord]; rw [he]; simp; omega
    rw [eq1, eq3]
    rw [eq2] at g1
    have eq4 : pre.length + e.length = (pre ++ e).length := by simp
    rw [eq4] at h1
    exact .cons h1 (by simp; omega) (.cons g1 (by omega) (.nil _ _))

theorem Decodes.append {p : Profile} {code : Bytes} {loc : Nat} {o o' o'' : Nat} {path path' path'' : DirPath}
    {a b : List Chunk} (h1 : Decodes p code loc o path a o' path') (h2 : Decodes p code loc o' path' b o'' path'') :
    Decodes p code loc o path (a ++ b) o'' path'' := by
  induction h1 with
  | nil => exact h2
  | cons g1 g2 _ ih => exact .cons g1 g2 (ih h2)

theorem events_append (path : List Nat) (r : Spec.Record) (rs : List Spec.Record) :
    Spec.events path (r :: rs) = Spec.events path [r] ++ Spec.events (Spec.finalPath path [r]) rs := by
  cases r <;> rfl

theorem finalPath_append (path : List Nat) (r : Spec.Record) (rs : List Spec.Record) :
    Spec.finalPath path (r :: rs) = Spec.finalPath (Spec.finalPath path [r]) rs := by
  cases r <;> rfl

theorem eventsOf_append (a b : List Chunk) : eventsOf (a ++ b) = eventsOf a ++ eventsOf b := by
  simp [eventsOf]

/-- Whatever happens to the buffer after the last record is written, the records can still be read. -/
theorem emitRecords_decodes (p : Profile) (loc : Nat) {rs : List Spec.Record} (hr : ∀ r ∈ rs, Spec.Representable r) :
    ∀ {s t : Asm} (path : DirPath) (code : Bytes), emitRecords s rs = .ok t → code.take t.idx = t.buf.take t.idx →
      ∃ chs, Decodes p code loc s.idx path chs t.idx (Spec.finalPath path rs) ∧ eventsOf chs = Spec.events path rs ∧
      ∀ ch ∈ chs, (∃ e ∈ Spec.events path rs, e.path = ch.path) ∧ (meaning ch = none → ch.ctype = .noop) := by
  induction rs with
  | nil => intro s t path code h _; cases h; exact ⟨[], .nil _ _, rfl, by simp⟩
  | cons r rs ih =>
    intro s t path code h hc
    unfold emitRecords at h
    rw [List.foldlM_cons, bind_ok] at h
    obtain ⟨s1, h1, h2⟩ := h
    obtain ⟨f1, f2, f3⟩ := emitRecords_frame (rs := rs) h2
    obtain ⟨chs, d1, d2, d3⟩ := ih (fun r hr' => hr r (by simp [hr'])) (Spec.finalPath path [r]) code h2 hc
    rw [emitRecord_eq] at h1
    have hl := write_length h1
    obtain ⟨pre, post, hp, hb, hi, hpre, hpost⟩ := write_spec h1
    obtain ⟨chs', e1, e2, e3⟩ := decode_record p pre (code.drop (s.idx + (encRecord r).length)) r path loc (hr r (by simp))
    have hcode : pre ++ (encRecord r ++ code.drop (s.idx + (encRecord r).length)) = code := by
      have hk : code.take (s.idx + (encRecord r).length) = pre ++ encRecord r := by
        have a1 : (code.take t.idx).take (s.idx + (encRecord r).length) = (t.buf.take t.idx).take (s.idx + (encRecord r).length) := by
          rw [hc]
        rw [List.take_take, List.take_take, Nat.min_eq_left (by omega)] at a1
        have a2 : (t.buf.take s1.idx).take (s.idx + (encRecord r).length) = (s1.buf.take s1.idx).take (s.idx + (encRecord r).length) := by
          rw [f1]
        rw [List.take_take, List.take_take, Nat.min_eq_left (by omega)] at a2
        rw [a1, a2, hb, ← List.append_assoc]
        rw [List.take_append_of_le_length (by simp; omega), List.take_of_length_le (by simp; omega)]
      rw [← List.append_assoc, ← hk, List.take_append_drop]
    rw [hcode, hp, ← hi] at e1
    refine ⟨chs' ++ chs, ?_, ?_, ?_⟩
    · rw [finalPath_append]; exact e1.append d1
    · rw [eventsOf_append, e2, d2, ← events_append]
    · intro ch hch
      rw [events_append]
      rcases List.mem_append.mp hch with hch | hch
      · obtain ⟨⟨e, g1, g2⟩, g3⟩ := e3 ch hch
        exact ⟨⟨e, List.mem_append_left _ g1, g2⟩, g3⟩
      · obtain ⟨⟨e, g1, g2⟩, g3⟩ := d3 ch hch
        exact ⟨⟨e, List.mem_append_right _ g1, g2⟩, g3⟩

end BurnFm
