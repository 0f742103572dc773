import Verif.Spec.ChunkFormat
import Verif.Spec.Decodes
import Verif.Proofs.Assembler

/-! The decoder on chunks written in the format. -/

namespace BurnFm
open Spec

theorem slice_mid {l h d post : Bytes} {i j : Nat} (hl : l = h ++ (d ++ post)) (hi : h.length = i)
    (hj : i + d.length = j) : slice l i j = .ok d := by
  subst hl; subst hi; subst hj
  have := slice_append h (d ++ post) 0 d.length
  rw [Nat.add_zero] at this
  rw [this, slice_prefix]

theorem getPathInt_two (a b : UInt8) : getPathInt [a, b] = 128 + b.toNat := by
  show 128 + (a.toNat &&& (0x7f <<< 8)) + b.toNat = _
  have : a.toNat &&& (0x7f <<< 8) = 0 := by
    have h : ∀ n : Fin 256, n.val &&& (0x7f <<< 8) = 0 := by decide +kernel
    have hlt : a.toNat < 256 := a.toNat_lt
    exact h ⟨a.toNat, hlt⟩
  rw [this]

theorem getInt_two (a b : UInt8) : getInt [a, b] = 256 * a.toNat + b.toNat := by
  show (a.toNat <<< 8) + b.toNat = _
  rw [Nat.shiftLeft_eq]; omega

/-- What the format theorem says about the body of a chunk. -/
def BodyOk (pre : Bytes) (b : UInt8) (bytes post : Bytes) (w : Option What) (n : Nat) : Prop :=
  ∃ body, chunkBody (pre ++ b :: (bytes ++ post)) pre.length (stripDelay b) = .ok (some body) ∧
    body.off = pre.length + (1 + bytes.length) ∧
    meaning ⟨body.ctype, 0, body.data, body.refData, [], body.segidx, body.refSimple⟩ = w ∧
    body.pathOp = if isPush b then .push n else if isPop b then .pop else .keep

theorem strip_eq {b : UInt8} {c : Nat} (h : opcode b = c) (hc : c < 256) : stripDelay b = UInt8.ofNat c := by
  rw [← UInt8.toNat_inj, opcode_strip, h, UInt8.toNat_ofNat']
  omega

theorem format_kv {pre post d : Bytes} {b k len : UInt8} (hop : opcode b = 0x06) (hl : d.length = len.toNat) :
    BodyOk pre b (k :: len :: d) post (some (.kv k.toNat d)) 0 := by
  refine ⟨⟨.refSimple, some d, none, none, some k.toNat, pre.length + (3 + d.length), .keep⟩, ?_, by simp; omega, rfl,
    by simp [isPush, isPop, hop]⟩
  rw [strip_eq hop (by decide)]
  show some <$> armKv _ _ = _
  unfold armKv
  rw [idx_append, idx_append, hl]
  simp only [List.cons_append, idx_cons, idx_zero, ok_bind]
  rw [slice_mid (h := pre ++ [b, k, len]) (d := d) (post := post) (by simp) (by simp) (by omega)]
  rfl

theorem format_segment {pre post : Bytes} {b : UInt8} {s l1 l2 : UInt8} {d : Bytes} (hop : opcode b = 0x07) (hl : d.length = 256 * l1.toNat + l2.toNat) :
    BodyOk pre b (s :: l1 :: l2 :: d) post (some (.segment s d)) 0 := by
  refine ⟨⟨.dataSegment, some d, none, some s, none, pre.length + (4 + d.length), .keep⟩, ?_, by simp; try omega, rfl, by simp [isPush, isPop, hop]⟩
  rw [strip_eq hop (by decide)]
  show some <$> armSegment _ _ = _
  unfold armSegment
  rw [idx_append, slice_mid (h := pre ++ [b, s]) (d := [l1, l2]) (post := d ++ post) (by simp) (by simp) (by simp)]
  simp only [List.cons_append, idx_cons, idx_zero, ok_bind]
  rw [getInt_two, ← hl, slice_mid (h := pre ++ [b, s, l1, l2]) (d := d) (post := post) (by simp) (by simp) (by omega)]
  rfl

theorem format_data2 {pre post : Bytes} {b : UInt8} {d : Bytes} (hop : opcode b = 0x08) (hl : d.length = 2) :
    BodyOk pre b (d) post (some (.data d)) 0 := by
  refine ⟨⟨.dataSimple, some d, none, none, none, pre.length + 3, .keep⟩, ?_, by simp [hl], rfl, by simp [isPush, isPop, hop]⟩
  rw [strip_eq hop (by decide)]
  show some <$> armData2 _ _ = _
  unfold armData2
  rw [slice_mid (h := pre ++ [b]) (d := d) (post := post) (by simp) (by simp) (by omega)]
  rfl

theorem format_data3 {pre post : Bytes} {b : UInt8} {d : Bytes} (hop : opcode b = 0x10) (hl : d.length = 3) :
    BodyOk pre b (d) post (some (.data d)) 0 := by
  refine ⟨⟨.dataSimple, some d, none, none, none, pre.length + 4, .keep⟩, ?_, by simp [hl], rfl, by simp [isPush, isPop, hop]⟩
  rw [strip_eq hop (by decide)]
  show some <$> armData3 _ _ = _
  unfold armData3
  rw [slice_mid (h := pre ++ [b]) (d := d) (post := post) (by simp) (by simp) (by omega)]
  rfl

theorem format_kvE {pre post : Bytes} {b : UInt8} {k1 k2 len : UInt8} {d : Bytes} (hop : opcode b = 0x0E) (h1 : k1 ≠ 0xFF) (hl : d.length = len.toNat) :
    BodyOk pre b (k1 :: k2 :: len :: d) post (some (.kv (128 + k2.toNat) d)) 0 := by
  refine ⟨⟨.refSimple, some d, none, none, some (128 + k2.toNat), pre.length + (4 + d.length), .keep⟩, ?_, by simp; try omega, rfl, by simp [isPush, isPop, hop]⟩
  rw [strip_eq hop (by decide)]
  show some <$> armKvE _ _ = _
  unfold armKvE
  rw [idx_append, idx_append, hl]
  simp only [List.cons_append, idx_cons, idx_zero, ok_bind]
  rw [if_pos h1, slice_mid (h := pre ++ [b]) (d := [k1, k2]) (post := len :: d ++ post) (by simp) (by simp) (by simp), ok_bind,
    slice_mid (h := pre ++ [b, k1, k2, len]) (d := d) (post := post) (by simp) (by simp) (by omega), getPathInt_two]
  rfl

theorem format_dataFF {pre post : Bytes} {b : UInt8} {d : Bytes} (hop : opcode b = 0x0E) (hl : d.length = 5) :
    BodyOk pre b (0xFF :: d) post (some (.data (0xFF :: d))) 0 := by
  refine ⟨⟨.dataSimple, some (0xFF :: d), none, none, none, pre.length + 7, .keep⟩, ?_, by simp [hl], rfl, by simp [isPush, isPop, hop]⟩
  rw [strip_eq hop (by decide)]
  show some <$> armKvE _ _ = _
  unfold armKvE
  rw [idx_append]
  simp only [List.cons_append, idx_cons, idx_zero, ok_bind]
  rw [if_neg (by simp), slice_mid (h := pre ++ [b]) (d := 0xFF :: d) (post := post) (by simp) (by simp) (by simp [hl]), ok_bind]
  rfl

theorem format_segmentE {pre post : Bytes} {b : UInt8} {s l1 l2 : UInt8} {d : Bytes} (hop : opcode b = 0x0F) (hl : d.length = 256 * l1.toNat + l2.toNat) :
    BodyOk pre b (0x80 :: s :: l1 :: l2 :: d) post (some (.segment s d)) 0 := by
  refine ⟨⟨.dataSegment, some d, none, some s, none, pre.length + (5 + d.length), .keep⟩, ?_, by simp; try omega, rfl, by simp [isPush, isPop, hop]⟩
  rw [strip_eq hop (by decide)]
  show some <$> armSegmentE _ _ = _
  unfold armSegmentE
  rw [idx_append, idx_append]
  simp only [List.cons_append, idx_cons, idx_zero, ok_bind]
  rw [if_pos trivial, slice_mid (h := pre ++ [b, 0x80, s]) (d := [l1, l2]) (post := d ++ post) (by simp) (by simp) (by simp), ok_bind,
    getInt_two, ← hl]
  rw [slice_mid (h := pre ++ [b, 0x80, s, l1, l2]) (d := d) (post := post) (by simp) (by simp) (by omega)]
  rfl

theorem format_ref3 {pre post : Bytes} {b : UInt8} {k1 k2 k3 len : UInt8} {d : Bytes} (hop : opcode b = 0x16) (hl : d.length = len.toNat) :
    BodyOk pre b (k1 :: k2 :: k3 :: len :: d) post (some (.longKv [k1, k2, k3] d)) 0 := by
  refine ⟨⟨.refLong, some d, some [k1, k2, k3], none, none, pre.length + (5 + d.length), .keep⟩, ?_, by simp; try omega, rfl, by simp [isPush, isPop, hop]⟩
  rw [strip_eq hop (by decide)]
  show some <$> armRef3 _ _ = _
  unfold armRef3
  rw [slice_mid (h := pre ++ [b]) (d := [k1, k2, k3]) (post := len :: d ++ post) (by simp) (by simp) (by simp), ok_bind,
    idx_append, hl]
  simp only [List.cons_append, idx_cons, idx_zero, ok_bind]
  rw [slice_mid (h := pre ++ [b, k1, k2, k3, len]) (d := d) (post := post) (by simp) (by simp) (by omega)]
  rfl

theorem format_ref3Long {pre post : Bytes} {b : UInt8} {k1 k2 k3 l1 l2 : UInt8} {d : Bytes} (hop : opcode b = 0x17) (hl : d.length = 128 + l2.toNat) :
    BodyOk pre b (k1 :: k2 :: k3 :: l1 :: l2 :: d) post (some (.longKv [k1, k2, k3] d)) 0 := by
  refine ⟨⟨.refLong, some d, some [k1, k2, k3], none, none, pre.length + (6 + d.length), .keep⟩, ?_, by simp; try omega, rfl, by simp [isPush, isPop, hop]⟩
  rw [strip_eq hop (by decide)]
  show some <$> armRef3Long _ _ = _
  unfold armRef3Long
  rw [slice_mid (h := pre ++ [b]) (d := [k1, k2, k3]) (post := l1 :: l2 :: d ++ post) (by simp) (by simp) (by simp), ok_bind,
    slice_mid (h := pre ++ [b, k1, k2, k3]) (d := [l1, l2]) (post := d ++ post) (by simp) (by simp) (by simp), ok_bind,
    getPathInt_two, ← hl]
  dsimp only
  rw [slice_mid (h := pre ++ [b, k1, k2, k3, l1, l2]) (d := d) (post := post) (by simp) (by simp) (by omega)]
  rfl

theorem format_data1B {pre post : Bytes} {b : UInt8} {len : UInt8} {d slack : Bytes} (hop : opcode b = 0x1B) (h0 : len ≠ 0) (hl : d.length = len.toNat) (hs : slack.length = 4) :
    BodyOk pre b (len :: d ++ slack) post (some (.data d)) 0 := by
  refine ⟨⟨.dataSimple, some d, none, none, none, pre.length + (2 + d.length + 4), .keep⟩, ?_, by simp [hs]; omega, rfl, by simp [isPush, isPop, hop]⟩
  rw [strip_eq hop (by decide)]
  show some <$> armData1B _ _ = _
  unfold armData1B
  rw [idx_append]
  simp only [List.cons_append, idx_cons, idx_zero, ok_bind]
  rw [if_neg h0, ← hl, slice_mid (h := pre ++ [b, len]) (d := d) (post := slack ++ post) (by simp) (by simp) (by omega), ok_bind]
  rfl

theorem format_kv1B {pre post : Bytes} {b : UInt8} {k : UInt8} {d : Bytes} (hop : opcode b = 0x1B) (hl : d.length = 4) :
    BodyOk pre b (0 :: k :: d) post (some (.kv k.toNat d)) 0 := by
  refine ⟨⟨.refSimple, some d, none, none, some k.toNat, pre.length + 7, .keep⟩, ?_, by simp [hl], rfl, by simp [isPush, isPop, hop]⟩
  rw [strip_eq hop (by decide)]
  show some <$> armData1B _ _ = _
  unfold armData1B
  rw [idx_append, idx_append]
  simp only [List.cons_append, idx_cons, idx_zero, ok_bind]
  rw [if_pos trivial, slice_mid (h := pre ++ [b, 0, k]) (d := d) (post := post) (by simp) (by simp) (by omega), ok_bind]
  rfl

theorem format_longKv {pre post : Bytes} {b : UInt8} {klen len : UInt8} {k d : Bytes} (hop : opcode b = 0x1E) (hk : k.length = klen.toNat) (hl : d.length = len.toNat) :
    BodyOk pre b (klen :: k ++ len :: d) post (some (.longKv k d)) 0 := by
  refine ⟨⟨.refLong, some d, some k, none, none, pre.length + (3 + k.length + d.length), .keep⟩, ?_, by simp; try omega, rfl, by simp [isPush, isPop, hop]⟩
  rw [strip_eq hop (by decide)]
  show some <$> armLongKv _ _ = _
  unfold armLongKv
  rw [idx_append]
  simp only [List.cons_append, idx_cons, idx_zero, ok_bind]
  rw [← hk, slice_mid (h := pre ++ [b, klen]) (d := k) (post := len :: d ++ post) (by simp) (by simp) (by omega), ok_bind,
    idx_of (a := len) (by
      rw [List.getElem?_append_right (by omega), Nat.add_sub_cancel_left, Nat.add_comm 2]
      simp), ok_bind, ← hl,
    slice_mid (h := pre ++ b :: klen :: k ++ [len]) (d := d) (post := post) (by simp) (by simp; omega) (by omega), ok_bind]
  rfl

theorem format_push1 {pre post : Bytes} {b : UInt8} {n : UInt8} (hop : opcode b = 0x20) (hn : n ≠ 0xFE) :
    BodyOk pre b ([n]) post (some .push) n.toNat := by
  refine ⟨⟨.pathPush, some [n], none, none, none, pre.length + 2, .push n.toNat⟩, ?_, by simp; try omega, rfl, by simp [isPush, isPop, hop]⟩
  rw [strip_eq hop (by decide)]
  show some <$> armPush1 _ _ = _
  unfold armPush1
  rw [idx_append]
  simp only [List.cons_append, idx_cons, idx_zero, ok_bind]
  rw [if_neg hn, slice_mid (h := pre ++ [b]) (d := [n]) (post := post) (by simp) (by simp) (by simp), ok_bind]
  rfl

theorem format_pushFE {pre post : Bytes} {b : UInt8} {n : UInt8} {d : Bytes} (hop : opcode b = 0x20) (hl : d.length = 7) :
    BodyOk pre b (0xFE :: n :: d) post (some .push) n.toNat := by
  refine ⟨⟨.pathPush, some (n :: d), none, none, none, pre.length + 10, .push n.toNat⟩, ?_, by simp [hl], rfl, by simp [isPush, isPop, hop]⟩
  rw [strip_eq hop (by decide)]
  show some <$> armPush1 _ _ = _
  unfold armPush1
  rw [idx_append]
  simp only [List.cons_append, idx_cons, idx_zero, ok_bind]
  rw [if_pos trivial, slice_mid (h := pre ++ [b, 0xFE]) (d := n :: d) (post := post) (by simp) (by simp) (by simp [hl]), ok_bind,
    slice_mid (h := pre ++ [b, 0xFE]) (d := [n]) (post := d ++ post) (by simp) (by simp) (by simp), ok_bind]
  rfl

theorem format_data23 {pre post : Bytes} {b : UInt8} {len : UInt8} {d : Bytes} (hop : opcode b = 0x23) (hl : d.length = len.toNat) :
    BodyOk pre b (len :: d) post (some (.data d)) 0 := by
  refine ⟨⟨.dataSimple, some d, none, none, none, pre.length + (2 + d.length), .keep⟩, ?_, by simp; try omega, rfl, by simp [isPush, isPop, hop]⟩
  rw [strip_eq hop (by decide)]
  show some <$> armData23 _ _ = _
  unfold armData23
  rw [idx_append]
  simp only [List.cons_append, idx_cons, idx_zero, ok_bind]
  rw [← hl, slice_mid (h := pre ++ [b, len]) (d := d) (post := post) (by simp) (by simp) (by omega), ok_bind]
  rfl

theorem format_push2 {pre post : Bytes} {b : UInt8} {n1 n2 : UInt8} (hop : opcode b = 0x28)  :
    BodyOk pre b ([n1, n2]) post (some .push) (128 + n2.toNat) := by
  refine ⟨⟨.pathPush, some [n1, n2], none, none, none, pre.length + 3, .push (128 + n2.toNat)⟩, ?_, by simp; try omega, rfl, by simp [isPush, isPop, hop]⟩
  rw [strip_eq hop (by decide)]
  show some <$> armPush2 _ _ = _
  unfold armPush2
  rw [slice_mid (h := pre ++ [b]) (d := [n1, n2]) (post := post) (by simp) (by simp) (by simp), ok_bind, getPathInt_two]
  rfl

theorem getPathInt_three (a b c : UInt8) : getPathInt [a, b, c] = 0 := rfl

theorem format_push3 {pre post : Bytes} {b : UInt8} {n1 n2 n3 : UInt8} (hop : opcode b = 0x30) :
    BodyOk pre b ([n1, n2, n3]) post (some .push) 0 := by
  refine ⟨⟨.pathPush, some [n1, n2, n3], none, none, none, pre.length + 4, .push 0⟩, ?_, by simp, rfl, by simp [isPush, isPop, hop]⟩
  rw [strip_eq hop (by decide)]
  show some <$> armPush3 _ _ = _
  unfold armPush3
  rw [slice_mid (h := pre ++ [b]) (d := [n1, n2, n3]) (post := post) (by simp) (by simp) (by simp), ok_bind, getPathInt_three]
  rfl

theorem format_pushN {pre post d : Bytes} {b : UInt8} {len n1 n2 : UInt8} (hop : opcode b = 0x38) (hl : d.length + 2 = len.toNat) :
    BodyOk pre b (len :: n1 :: n2 :: d) post (some .push) (128 + n2.toNat) := by
  refine ⟨⟨.pathPush, some [n1, n2], none, none, none, pre.length + (2 + len.toNat), .push (128 + n2.toNat)⟩, ?_, by simp; omega, rfl,
    by simp [isPush, isPop, hop]⟩
  rw [strip_eq hop (by decide)]
  show some <$> armPushN _ _ = _
  unfold armPushN
  rw [idx_append]
  simp only [List.cons_append, idx_cons, idx_zero, ok_bind]
  rw [slice_mid (h := pre ++ [b, len]) (d := [n1, n2]) (post := d ++ post) (by simp) (by simp) (by simp), ok_bind, getPathInt_two]
  rfl

theorem format_empty {pre post : Bytes} {b : UInt8} {x : UInt8} (hop : opcode b = 0x00) :
    BodyOk pre b [x] post (some (.data [])) 0 := by
  refine ⟨⟨.dataSimple, some [], none, none, none, pre.length + 2, .keep⟩, ?_, by simp, rfl, by simp [isPush, isPop, hop]⟩
  rw [strip_eq hop (by decide)]
  show some <$> armEmpty _ _ = _
  unfold armEmpty
  rw [slice_mid (h := pre ++ [b]) (d := []) (post := x :: post) (by simp) (by simp) (by simp), ok_bind]
  obtain ⟨y, hy⟩ : ∃ y, idx (pre ++ b :: ([x] ++ post)) 1 = .ok y := by
    have : 1 < (pre ++ b :: ([x] ++ post)).length := by simp; omega
    exact ⟨_, idx_of (List.getElem?_eq_getElem this)⟩
  rw [hy]
  rfl

theorem format_noop {pre post : Bytes} {b : UInt8}  (hop : opcode b = 0x80)  :
    BodyOk pre b ([]) post (none) 0 := by
  refine ⟨⟨.noop, none, none, none, none, pre.length + 1, .keep⟩, ?_, by simp; try omega, rfl, by simp [isPush, isPop, hop]⟩
  rw [strip_eq hop (by decide)]
  show some <$> armNoop _ = _
  rfl

theorem format_pop {pre post : Bytes} {b : UInt8} {c : Nat} (hop : opcode b = c) (hc : c = 0x3D ∨ c = 0x40) :
    BodyOk pre b [] post (some .pop) 0 := by
  refine ⟨⟨.pathPop, none, none, none, none, pre.length + 1, .pop⟩, ?_, by simp, rfl, ?_⟩
  · rcases hc with rfl | rfl <;> rw [strip_eq hop (by decide)] <;> rfl
  · rcases hc with rfl | rfl <;> simp [isPush, isPop, hop]

theorem five {i : Nat} (h : i < 5) : i = 0 ∨ i = 1 ∨ i = 2 ∨ i = 3 ∨ i = 4 := by omega

theorem format_shortKv {pre post d : Bytes} {b k : UInt8} {i : Nat} (hop : opcode b = 0x01 + i) (hi : i < 5)
    (hl : d.length = shortLen i) : BodyOk pre b (k :: d) post (some (.kv k.toNat d)) 0 := by
  refine ⟨⟨.refSimple, some d, none, none, some k.toNat, pre.length + (2 + d.length), .keep⟩, ?_, by simp; omega, rfl, ?_⟩
  · have h : ∀ c : UInt8, (if c = 0x01 then 1 else 0) + 2 * (c.toNat - 1) = d.length →
        armSmallKv (pre ++ b :: (k :: d ++ post)) pre.length c =
          .ok ⟨.refSimple, some d, none, none, some k.toNat, pre.length + (2 + d.length), .keep⟩ := by
      intro c hc
      unfold armSmallKv
      rw [idx_append]
      simp only [List.cons_append, idx_cons, idx_zero, ok_bind]
      rw [hc, slice_mid (h := pre ++ [b, k]) (d := d) (post := post) (by simp) (by simp) (by omega), ok_bind]
      rfl
    rcases five hi with rfl | rfl | rfl | rfl | rfl <;> rw [strip_eq hop (by decide)] <;>
      · show some <$> armSmallKv _ _ _ = _
        rw [h _ (by rw [hl]; decide)]; rfl
  · rw [if_neg (by unfold isPush; omega), if_neg (by unfold isPop; omega)]

theorem format_shortKvE {pre post d : Bytes} {b k1 k2 : UInt8} {i : Nat} (hop : opcode b = 0x09 + i) (hi : i < 5)
    (hl : d.length = shortLen i) : BodyOk pre b (k1 :: k2 :: d) post (some (.kv (128 + k2.toNat) d)) 0 := by
  refine ⟨⟨.refSimple, some d, none, none, some (128 + k2.toNat), pre.length + (3 + d.length), .keep⟩, ?_, by simp; omega,
    rfl, ?_⟩
  · have h : ∀ c : UInt8, (if c = 0x09 then 1 else 0) + 2 * (c.toNat - 9) = d.length →
        armSmallKvE (pre ++ b :: (k1 :: k2 :: d ++ post)) pre.length c =
          .ok ⟨.refSimple, some d, none, none, some (128 + k2.toNat), pre.length + (3 + d.length), .keep⟩ := by
      intro c hc
      unfold armSmallKvE
      rw [slice_mid (h := pre ++ [b]) (d := [k1, k2]) (post := d ++ post) (by simp) (by simp) (by simp), ok_bind]
      dsimp only
      rw [hc, slice_mid (h := pre ++ [b, k1, k2]) (d := d) (post := post) (by simp) (by simp) (by omega), ok_bind,
        getPathInt_two]
      rfl
    rcases five hi with rfl | rfl | rfl | rfl | rfl <;> rw [strip_eq hop (by decide)] <;>
      · show some <$> armSmallKvE _ _ _ = _
        rw [h _ (by rw [hl]; decide)]; rfl
  · rw [if_neg (by unfold isPush; omega), if_neg (by unfold isPop; omega)]

theorem format_dataN {pre post d : Bytes} {b : UInt8} {i : Nat} (hop : opcode b = 0x11 + i) (hi : i < 5)
    (hl : d.length = 3 + shortLen i) : BodyOk pre b d post (some (.data d)) 0 := by
  refine ⟨⟨.dataSimple, some d, none, none, none, pre.length + (1 + d.length), .keep⟩, ?_, rfl, rfl, ?_⟩
  · have h : ∀ c : UInt8, 3 + (if c = 0x11 then 1 else 0) + 2 * (c.toNat - 0x11) = d.length →
        armDataN (pre ++ b :: (d ++ post)) pre.length c =
          .ok ⟨.dataSimple, some d, none, none, none, pre.length + (1 + d.length), .keep⟩ := by
      intro c hc
      unfold armDataN
      dsimp only
      rw [hc, slice_mid (h := pre ++ [b]) (d := d) (post := post) (by simp) (by simp) (by omega), ok_bind]
      rfl
    rcases five hi with rfl | rfl | rfl | rfl | rfl <;> rw [strip_eq hop (by decide)] <;>
      · show some <$> armDataN _ _ _ = _
        rw [h _ (by rw [hl]; decide)]; rfl
  · rw [if_neg (by unfold isPush; omega), if_neg (by unfold isPop; omega)]

theorem format_dataSlack {pre post d slack : Bytes} {b len : UInt8} {i : Nat} (hop : opcode b = 0x19 + i) (hi : i < 5)
    (h2 : i ≠ 2) (hl : d.length = len.toNat) (hs : slack.length = shortLen i) :
    BodyOk pre b (len :: d ++ slack) post (some (.data d)) 0 := by
  refine ⟨⟨.dataSimple, some d, none, none, none, pre.length + (2 + d.length + slack.length), .keep⟩, ?_,
    by simp; omega, rfl, ?_⟩
  · have h : ∀ c : UInt8, (if c = 0x19 then 1 else 0) + 2 * (c.toNat - 0x19) = slack.length →
        armDataSlack (pre ++ b :: (len :: d ++ slack ++ post)) pre.length c =
          .ok ⟨.dataSimple, some d, none, none, none, pre.length + (2 + d.length + slack.length), .keep⟩ := by
      intro c hc
      unfold armDataSlack
      rw [idx_append]
      simp only [List.cons_append, idx_cons, idx_zero, ok_bind]
      rw [← hl, slice_mid (h := pre ++ [b, len]) (d := d) (post := slack ++ post) (by simp) (by simp) (by omega), ok_bind,
        Nat.add_assoc (2 + d.length), hc]
      rfl
    rcases five hi with rfl | rfl | rfl | rfl | rfl
    all_goals first
      | exact absurd rfl h2
      | rw [strip_eq hop (by decide)]
        show some <$> armDataSlack _ _ _ = _
        rw [h _ (by rw [hs]; decide)]; rfl
  · rw [if_neg (by unfold isPush; omega), if_neg (by unfold isPop; omega)]

theorem format_body {b : UInt8} {c : Nat} {bytes : Bytes} {w : Option What} {n : Nat} (h : ChunkFormat c bytes w n)
    (hop : opcode b = c) (pre post : Bytes) : BodyOk pre b bytes post w n := by
  cases h with
  | empty x => exact format_empty hop
  | shortKv i k d h1 h2 => exact format_shortKv hop h1 h2
  | kv k len d h1 => exact format_kv hop h1
  | segment s l1 l2 d h1 => exact format_segment hop h1
  | data2 d h1 => exact format_data2 hop h1
  | shortKvE i k1 k2 d h1 h2 => exact format_shortKvE hop h1 h2
  | kvE k1 k2 len d h1 h2 => exact format_kvE hop h1 h2
  | dataFF d h1 => exact format_dataFF hop h1
  | segmentE s l1 l2 d h1 => exact format_segmentE hop h1
  | data3 d h1 => exact format_data3 hop h1
  | dataN i d h1 h2 => exact format_dataN hop h1 h2
  | ref3 k1 k2 k3 len d h1 => exact format_ref3 hop h1
  | ref3Long k1 k2 k3 l1 l2 d h1 => exact format_ref3Long hop h1
  | dataSlack i len d slack h1 h2 h3 h4 => exact format_dataSlack hop h1 h2 h3 h4
  | data1B len d slack h1 h2 h3 => exact format_data1B hop h1 h2 h3
  | kv1B k d h1 => exact format_kv1B hop h1
  | longKv klen len k d h1 h2 => exact format_longKv hop h1 h2
  | push1 n h1 => exact format_push1 hop h1
  | pushFE n d h1 => exact format_pushFE hop h1
  | data23 len d h1 => exact format_data23 hop h1
  | push2 n1 n2 => exact format_push2 hop
  | push3 n1 n2 n3 => exact format_push3 hop
  | pushN len n1 n2 d h1 => exact format_pushN hop h1
  | pop c h1 => exact format_pop hop h1
  | noop => exact format_noop hop

/-- A chunk in the format is decoded to what it means. -/
theorem format_decodes {b : UInt8} {bytes : Bytes} {w : Option What} {n : Nat} (h : ChunkFormat (opcode b) bytes w n)
    (p : Profile) (pre post : Bytes) (path : DirPath) (loc : Nat) :
    ∃ ch, getChunk p (pre ++ b :: (bytes ++ post)) pre.length path loc =
        .ok (.ok ch (pre.length + (1 + bytes.length)) (pathAfter b n path)) ∧
      meaning ch = w ∧ ch.path = pathAfter b n path := by
  obtain ⟨body, h1, h2, h3, h4⟩ := format_body h rfl pre post
  have hp : (if delayBits b then (body.pathOp.apply path).dropLast else body.pathOp.apply path) = pathAfter b n path := by
    rw [h4]
    unfold pathAfter
    dsimp only
    by_cases hd : delayed b
    · rw [if_pos hd, if_pos ((delayed_iff b).mp hd)]
      split
      · rfl
      · split <;> rfl
    · rw [if_neg hd, if_neg (fun hh => hd ((delayed_iff b).mpr hh))]
      split
      · rfl
      · split <;> rfl
  exact ⟨⟨body.ctype, stripDelay b, body.data, body.refData, pathAfter b n path, body.segidx, body.refSimple⟩,
    by rw [getChunk_of_body (getElem?_at pre (bytes ++ post) b) h1, hp, h2], h3, rfl⟩

end BurnFm
