import Verif.Proofs.FormatComplete
import Verif.Proofs.Unknown
import Verif.Spec.Tidy

/-! Files that the decompiler accepts are in the format. -/

namespace BurnFm
open Spec (Raw RawRun)

theorem split_at {code : Bytes} {o : Nat} {b : UInt8} (h : code[o]? = some b) :
    code = code.take o ++ b :: code.drop (o + 1) ∧ (code.take o).length = o := by
  have hlt : o < code.length := by
    rcases Nat.lt_or_ge o code.length with h1 | h1
    · exact h1
    · rw [List.getElem?_eq_none h1] at h; cases h
  refine ⟨?_, by rw [List.length_take]; omega⟩
  have e : code.drop o = b :: code.drop (o + 1) := by
    rw [List.drop_eq_getElem_cons hlt]
    rw [List.getElem?_eq_getElem hlt] at h
    cases h
    rfl
  rw [← e, List.take_append_drop]

/-- A chunk that was accepted, with its layout. -/
theorem accepted_chunk {p : Profile} {code : Bytes} {o loc o' : Nat} {path path' : DirPath} {ch : Chunk} {b : UInt8}
    (hb : code[o]? = some b) (h : getChunk p code o path loc = .ok (.ok ch o' path')) (he : o' ≤ code.length)
    (h1F : Spec.opcode b ≠ 0x1F) (h0F : Spec.opcode b = 0x0F → code[o + 1]? = some 0x80)
    (h38 : Spec.opcode b = 0x38 → ∀ len, code[o + 1]? = some len → 2 ≤ len.toNat) :
    ∃ bytes w n, Spec.ChunkFormat (Spec.opcode b) bytes w n ∧ o' = o + (1 + bytes.length) ∧ path' = Spec.pathAfter b n path ∧
      code.drop (o + 1) = bytes ++ code.drop o' ∧ meaning ch = w := by
  obtain ⟨s1, s2⟩ := split_at hb
  obtain ⟨b', body, hb', hbody, hoff, _, _⟩ := getChunk_ok h
  rw [hb] at hb'
  cases hb'
  have e : code.take o ++ b :: code.drop (o + 1) = code := s1.symm
  obtain ⟨k, hk, bytes, post, w, n, h1, h2, h3⟩ := format_complete (pre := code.take o) (b := b) (rest := code.drop (o + 1)) (body := body)
    (by rw [e, s2]; exact hbody) (by rw [e, ← hoff]; exact he) h1F (by rw [e, s2]; exact h0F) (by rw [e, s2]; exact h38)
  obtain ⟨ch', g1, g2, g3⟩ := format_decodes h3 p (code.take o) post path loc
  rw [← h1, e, s2, h] at g1
  cases g1
  refine ⟨bytes, w, n, h3, rfl, rfl, ?_, g2⟩
  rw [h1]
  congr 1
  have : code.drop (o + (1 + bytes.length)) = (code.drop (o + 1)).drop bytes.length := by rw [List.drop_drop]; congr 1; omega
  rw [this, h1, List.drop_left]

theorem bare_stuck {p : Profile} {code : Bytes} {loc bound o : Nat} {path : DirPath} {chs : List Chunk}
    (h : ReadsTo p code loc bound o path chs) (hlt : o < bound) {b : UInt8} (hb : code[o]? = some b) (hop : Spec.opcode b = 0x0F) :
    code[o + 1]? = some 0x80 := by
  induction h with
  | done hh => omega
  | @cons o o₁ path path₁ ch chs _ hg _ ih =>
    obtain ⟨b', body, hb', hbody, hoff, _, _⟩ := getChunk_ok hg
    rw [hb] at hb'
    cases hb'
    rw [strip_eq hop (by decide)] at hbody
    change some <$> armSegmentE _ _ = _ at hbody
    rw [some_map_ok] at hbody
    unfold armSegmentE at hbody
    obtain ⟨n, hn, hbody⟩ := bind_ok.mp hbody
    by_cases h80 : n = 0x80
    · rw [h80] at hn; exact idx_ok.mp hn
    · rw [if_neg h80] at hbody
      cases hbody
      subst hoff
      exact ih hlt hb

/-- One sector. -/
theorem tidy_sector {p : Profile} {buf : Bytes} {i : Nat} (ht : Spec.Tidy p buf) (hi : Spec.InUse buf i) {o : Nat} {path : DirPath}
    {chs : List Chunk} (h : ReadsTo p buf (i * 4096) (i * 4096 + 4096) o path chs)
    (hr : Reaches p buf (i * 4096) (i * 4096 + 4096) (i * 4096 + 20) o path) (hle : o ≤ i * 4096 + 4096) :
    ∃ bytes n raws path', (buf.drop o).take (i * 4096 + 4096 - o) = bytes ++ Spec.zeros n ∧ RawRun path bytes raws path' := by
  have hw := ht.whole i hi
  induction h with
  | @done o path hb =>
    refine ⟨[], 0, [], path, ?_, .nil path⟩
    rw [show i * 4096 + 4096 - o = 0 by omega]
    rfl
  | @cons o o₁ path path₁ ch chs hlt hg hrest ih =>
    obtain ⟨b, body, hb, _⟩ := getChunk_ok hg
    obtain ⟨d1, d2⟩ := ht.defined i o path b hi hr hlt hb
    have s1 : buf.drop o = b :: buf.drop (o + 1) := by
      obtain ⟨e1, e2⟩ := split_at hb
      have := congrArg (List.drop o) e1
      rwa [List.drop_left' e2] at this
    rcases ht.inside i o path b ch o₁ path₁ hi hr hlt hb hg with h1 | ⟨rfl, h1⟩
    · obtain ⟨cb, w, n, c1, rfl, rfl, c4, _⟩ := accepted_chunk hb hg (by omega) d1 (bare_stuck (.cons hlt hg hrest) hlt hb) d2
      obtain ⟨bytes, m, raws, path', r1, r2⟩ := ih (.step hr hlt hg) h1
      refine ⟨b :: cb ++ bytes, m, _, path', ?_, .cons c1 r2⟩
      have e1 : i * 4096 + 4096 - o = (b :: cb).length + (i * 4096 + 4096 - (o + (1 + cb.length))) := by simp; omega
      rw [s1, c4, ← List.cons_append, e1, List.take_length_add_append, r1, List.append_assoc]
    · refine ⟨[], 1, [], path, ?_, .nil path⟩
      rw [s1, show i * 4096 + 4096 - o = 1 by omega]
      rfl

theorem tidy_sectors {p : Profile} {buf : Bytes} (ht : Spec.Tidy p buf) {i : Nat} {chs : List Chunk}
    (h : FileReads p buf (Spec.nextSector buf 1) i chs) (hi : i ≠ 0 → Spec.InUse buf i) : ∃ raws, Spec.RawSectors buf i raws := by
  induction h with
  | done => exact ⟨[], .last⟩
  | @sector i chs rest h0 hn hl hr _ ih =>
    have hu := hi h0
    have hw := ht.whole i hu
    obtain ⟨raws, h1⟩ := ih (fun hne => .next hu hne)
    obtain ⟨bytes, n, raws0, path, h2, h3⟩ := tidy_sector ht hu hr .start (by omega)
    rw [show i * 4096 + 4096 - (i * 4096 + 20) = 4076 by omega] at h2
    exact ⟨_, .openSector h0 hn (by omega) h2 h3 h1⟩

theorem decompile_reads {p : Profile} {buf : Bytes} {fuel : Nat} {f : FmpFile} (h : decompile p buf fuel = .ok (some f)) :
    4116 ≤ buf.length ∧ ∃ chs, FileReads p buf (Spec.nextSector buf 1) 2 chs := by
  unfold decompile at h
  obtain ⟨first, h1, h⟩ := bind_ok.mp h
  obtain ⟨r, h2, h⟩ := bind_ok.mp h
  cases r with
  | none => cases h
  | some st =>
    obtain ⟨chs, h3, _⟩ := fileLoop_reads _ _ _ _ h2
    rw [getSector_next h1] at h3
    exact ⟨getSector_length (s := 4096) ⟨_, h1⟩, chs, h3⟩

/-! The converse: files in the format are tidy. -/

/-- The rest of the sector from `o` on is in the format, or the sector is over. -/
def Pos (buf : Bytes) (bound o : Nat) (path : DirPath) : Prop :=
  bound < o ∨ (o ≤ bound ∧ ∃ bytes n raws path', (buf.drop o).take (bound - o) = bytes ++ Spec.zeros n ∧ RawRun path bytes raws path')

theorem format_defined {b : UInt8} {bytes : Bytes} {w : Option Spec.What} {n : Nat} (h : Spec.ChunkFormat (Spec.opcode b) bytes w n) :
    Spec.opcode b ≠ 0x1F := by
  generalize Spec.opcode b = c at h
  cases h <;> omega

theorem format_38 {c : Nat} {bytes : Bytes} {w : Option Spec.What} {n : Nat} (h : Spec.ChunkFormat c bytes w n) (hc : c = 0x38) :
    ∃ len d, bytes = len :: d ∧ 2 ≤ len.toNat := by
  cases h with
  | pushN len n1 n2 d hd => exact ⟨len, _, rfl, by omega⟩
  | _ => omega

theorem tidy_here {p : Profile} {buf : Bytes} {bound o loc : Nat} {path : DirPath} (hl : bound ≤ buf.length) (h2 : 2 ≤ buf.length) (hlt : o < bound)
    (h : Pos buf bound o path) {b : UInt8} (hb : buf[o]? = some b) :
    (Spec.opcode b ≠ 0x1F ∧ (Spec.opcode b = 0x38 → ∀ len, buf[o + 1]? = some len → 2 ≤ len.toNat)) ∧
    ∀ ch o' path', getChunk p buf o path loc = .ok (.ok ch o' path') →
      (o' ≤ bound ∨ (b = 0 ∧ o + 1 = bound)) ∧ Pos buf bound o' path' := by
  rcases h with h | ⟨hle, bytes, n, raws, path', h, hr⟩
  · omega
  have hlen : ((buf.drop o).take (bound - o)).length = bound - o := by rw [List.length_take, List.length_drop]; omega
  cases hr with
  | nil =>
    rw [h] at hlen
    have hn : n = bound - o := by simpa [Spec.zeros] using hlen
    have s1 : buf.drop o = b :: buf.drop (o + 1) := by
      obtain ⟨e1, e2⟩ := split_at hb
      have := congrArg (List.drop o) e1
      rwa [List.drop_left' e2] at this
    have hb0 : b = 0 := by
      rw [s1, show bound - o = (bound - o - 1) + 1 by omega, List.take_succ_cons] at h
      have e : ([] : Bytes) ++ Spec.zeros n = 0 :: Spec.zeros (n - 1) := by
        unfold Spec.zeros
        rw [List.nil_append, ← List.replicate_succ]
        congr 1
        omega
      rw [e] at h
      exact (List.cons.inj h).1
    subst hb0
    refine ⟨⟨by decide, fun hh => by cases hh⟩, fun ch o' path' hg => ?_⟩
    rw [getChunk_zero hb h2] at hg
    cases hg
    by_cases h3 : o + 2 ≤ bound
    · refine ⟨.inl h3, .inr ⟨h3, [], n - 2, [], path, ?_, .nil path⟩⟩
      have e : (buf.drop (o + 2)).take (bound - (o + 2)) = ((buf.drop o).take (bound - o)).drop 2 := by
        rw [List.drop_take, List.drop_drop]
        congr 1
      rw [e, h]
      simp [Spec.zeros]
    · exact ⟨.inr ⟨rfl, by omega⟩, .inl (by omega)⟩
  | @cons _ _ b' cb rest w m raws hc hr' =>
    have e1 : buf = buf.take o ++ (b' :: (cb ++ ((rest ++ Spec.zeros n) ++ buf.drop bound))) := by
      have : buf.drop o = (buf.drop o).take (bound - o) ++ buf.drop bound := by
        conv => lhs; rw [← List.take_append_drop (bound - o) (buf.drop o)]
        rw [List.drop_drop]
        congr 2
        omega
      rw [h] at this
      conv => lhs; rw [← List.take_append_drop o buf]
      rw [this]
      simp
    have e2 : (buf.take o).length = o := by rw [List.length_take]; omega
    have hb' : b' = b := by
      rw [e1, List.getElem?_append_right (by omega), e2, Nat.sub_self] at hb
      exact Option.some.inj hb
    subst hb'
    have hle2 : o + (1 + cb.length) ≤ bound := by
      rw [h] at hlen
      simp at hlen
      omega
    refine ⟨⟨format_defined hc, fun h38 len hlen2 => ?_⟩, fun ch o' path' hg => ?_⟩
    · obtain ⟨len', d, rfl, hd⟩ := format_38 hc h38
      rw [e1, List.getElem?_append_right (by omega), e2, show o + 1 - o = 0 + 1 by omega, List.getElem?_cons_succ] at hlen2
      cases hlen2
      exact hd
    · obtain ⟨ch', g1, _⟩ := format_decodes hc p (buf.take o) ((rest ++ Spec.zeros n) ++ buf.drop bound) path loc
      rw [← e1, e2, hg] at g1
      cases g1
      refine ⟨.inl hle2, .inr ⟨hle2, rest, n, raws, _, ?_, hr'⟩⟩
      have e : (buf.drop (o + (1 + cb.length))).take (bound - (o + (1 + cb.length))) = ((buf.drop o).take (bound - o)).drop (b' :: cb).length := by
        rw [List.drop_take, List.drop_drop]
        simp only [List.length_cons]
        congr 1
        · omega
        · congr 1; omega
      rw [e, h, List.append_assoc, List.drop_left]

theorem reaches_pos {p : Profile} {buf : Bytes} {loc bound s₀ : Nat} (hl : bound ≤ buf.length) (h2 : 2 ≤ buf.length)
    (h0 : Pos buf bound s₀ []) {o : Nat} {path : DirPath} (h : Reaches p buf loc bound s₀ o path) : Pos buf bound o path := by
  induction h with
  | start => exact h0
  | step _ hlt hg ih =>
    obtain ⟨b, _, hb, _⟩ := getChunk_ok hg
    exact ((tidy_here hl h2 hlt ih hb).2 _ _ _ hg).2

theorem rawSectors_use {buf : Bytes} {raws : List Raw} (h : Spec.RawSectors buf 2 raws) {i : Nat} (hi : Spec.InUse buf i) :
    i ≠ 0 ∧ ∃ raws, Spec.RawSectors buf i raws := by
  induction hi with
  | first => exact ⟨by omega, raws, h⟩
  | next _ hne ih =>
    obtain ⟨h0, raws, h⟩ := ih
    refine ⟨hne, ?_⟩
    cases h with
    | last => exact absurd rfl h0
    | sector _ _ _ _ _ h => exact ⟨_, h⟩
    | openSector _ _ _ _ _ h => exact ⟨_, h⟩

theorem rawSectors_pos {buf : Bytes} {i : Nat} {raws : List Raw} (h : Spec.RawSectors buf i raws) (h0 : i ≠ 0) :
    (i + 1) * 4096 ≤ buf.length ∧ Pos buf (i * 4096 + 4096) (i * 4096 + 20) [] := by
  have e : i * 4096 + 4096 - (i * 4096 + 20) = 4076 := by omega
  cases h with
  | last => exact absurd rfl h0
  | sector _ _ h1 h2 h3 _ => exact ⟨h1, .inr ⟨by omega, _, _, _, _, by rw [e]; exact h2, h3⟩⟩
  | openSector _ _ h1 h2 h3 _ => exact ⟨h1, .inr ⟨by omega, _, _, _, _, by rw [e]; exact h2, h3⟩⟩

theorem rawFile_tidy {buf : Bytes} {raws : List Raw} (h : Spec.RawFileOf buf raws) (p : Profile) : Spec.Tidy p buf := by
  have key : ∀ i, Spec.InUse buf i → (i + 1) * 4096 ≤ buf.length ∧ Pos buf (i * 4096 + 4096) (i * 4096 + 20) [] := by
    intro i hi
    obtain ⟨h0, raws', h'⟩ := rawSectors_use h.2 hi
    exact rawSectors_pos h' h0
  refine ⟨fun i hi => (key i hi).1, fun i o path b hi hr hlt hb => ?_, fun i o path b ch o' path' hi hr hlt hb hg => ?_⟩
  · obtain ⟨k1, k2⟩ := key i hi
    exact (tidy_here (p := p) (loc := i * 4096) (by omega) (by omega) hlt (reaches_pos (by omega) (by omega) k2 hr) hb).1
  · obtain ⟨k1, k2⟩ := key i hi
    exact ((tidy_here (by omega) (by omega) hlt (reaches_pos (by omega) (by omega) k2 hr) hb).2 _ _ _ hg).1

end BurnFm
