import Verif.Proofs.Truncate
import Verif.Props.FileContents
import Verif.Spec.DamagedFile

/-! Properties C93 and C94: incomplete files and foreign files. -/

namespace BurnFm.Props
open Spec

/-- C93: if the beginning of a file decompiles to some result, the whole file decompiles to the same result; more bytes at
the end of a file never change what it says. -/
theorem longer_file_same (p : Profile) (whole part : Bytes) (hc : CutOff whole part) (fuel : Nat) (r : Option FmpFile)
    (h : decompile p part fuel = .ok r) : decompile p whole fuel = .ok r := by
  obtain ⟨lost, rfl⟩ := hc
  have hl := decompile_length h
  have e : part = part.take 4096 ++ part.drop 4096 := (List.take_append_drop 4096 part).symm
  rw [e] at h
  have := decompile_agree (a' := part.take 4096) (d := lost) rfl (by rw [List.length_take]; omega) h
  rw [← List.append_assoc, List.take_append_drop] at this
  exact this

/-- C93: a file that was cut off anywhere decompiles to the same result as the whole file, or not at all. -/
theorem cut_off_file (p : Profile) (whole part : Bytes) (hc : CutOff whole part) (fuel : Nat) (f : FmpFile)
    (h : decompile p whole fuel = .ok (some f)) :
    decompile p part fuel = .ok (some f) ∨ ∃ e, decompile p part fuel = .error e := by
  cases hp : decompile p part fuel with
  | error e => exact .inr ⟨e, rfl⟩
  | ok r =>
    rw [longer_file_same p whole part hc fuel r hp] at h
    exact .inl h

/-- C93: nothing is read from a file shorter than sector 1 and its header. -/
theorem short_file_rejected (p : Profile) (buf : Bytes) (hl : buf.length < 4116) (fuel : Nat) :
    ∃ e, decompile p buf fuel = .error e := by
  cases hd : decompile p buf fuel with
  | error e => exact ⟨e, rfl⟩
  | ok r =>
    exfalso
    have h20 := getSector_length (decompile_first hd)
    omega

/-! The hypotheses are met by the example file of C78, cut off after any number of bytes. -/

example (n : Nat) : ∃ fuel f, decompile .debug (itemFile exampleItems) fuel = .ok (some f) ∧ f.tables ≠ [] ∧
    CutOff (itemFile exampleItems) ((itemFile exampleItems).take n) := by
  obtain ⟨fuel, h⟩ := exampleFile_decompiles .debug
  exact ⟨fuel, exampleFile.file, h, by decide, _, (List.take_append_drop n _).symm⟩

/-- C94, the code ignores the signature: a file decompiles to the same result if its first sector is replaced by any 4096
bytes. -/
theorem signature_ignored (p : Profile) (a b : Bytes) (h : SameAfterFirstSector a b) (fuel : Nat) (r : Option FmpFile) :
    decompile p a fuel = .ok r ↔ decompile p b fuel = .ok r := by
  obtain ⟨ha, hb, he⟩ := h
  have key : ∀ x y : Bytes, 4096 ≤ x.length → 4096 ≤ y.length → x.drop 4096 = y.drop 4096 →
      decompile p x fuel = .ok r → decompile p y fuel = .ok r := by
    intro x y hx hy hxy h
    rw [(List.take_append_drop 4096 x).symm] at h
    have := decompile_agree (a' := y.take 4096) (d := []) (by rw [List.length_take, List.length_take]; omega)
      (by rw [List.length_take]; omega) h
    rw [List.append_nil, hxy, List.take_append_drop] at this
    exact this
  exact ⟨key a b ha hb he, key b a hb ha he.symm⟩

set_option maxRecDepth 20000 in
/-- C94 is false: the example file has no signature, and is decompiled. -/
theorem foreign_file_refuted : ¬∀ (p : Profile) (buf : Bytes), ¬HasSignature buf → ∀ fuel, ∃ e, decompile p buf fuel = .error e := by
  intro h
  obtain ⟨fuel, hf⟩ := exampleFile_decompiles .debug
  obtain ⟨e, he⟩ := h .debug (itemFile exampleItems) (by unfold HasSignature; decide +kernel) fuel
  rw [hf] at he
  cases he

/-- Files that differ in their first sector. -/
example (x y : UInt8) (rest : Bytes) : SameAfterFirstSector (List.replicate 4096 x ++ rest) (List.replicate 4096 y ++ rest) := by
  have h : ∀ z : UInt8, 4096 ≤ (List.replicate 4096 z ++ rest).length ∧ (List.replicate 4096 z ++ rest).drop 4096 = rest := by
    intro z
    have hl : (List.replicate 4096 z).length = 4096 := List.length_replicate
    exact ⟨by rw [List.length_append, hl]; omega, by rw [List.drop_left' hl]⟩
  exact ⟨(h x).1, (h y).1, (h x).2.trans (h y).2.symm⟩

end BurnFm.Props
