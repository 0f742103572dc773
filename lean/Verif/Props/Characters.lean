import Verif.Spec.Characters

/-! Properties C108 and C142: which characters are white space and which are digits. -/

namespace BurnFm.Props
open Spec

theorem char_eq_iff (c d : Char) : c = d ↔ c.toNat = d.toNat :=
  ⟨fun h => by rw [h], fun h => Char.ext (UInt32.toNat_inj.mp h)⟩

/-- C108: white space is exactly the white space of Unicode. -/
theorem white_space_exact (c : Char) : isSpace c = true ↔ c ∈ whiteSpace := by
  simp only [isSpace, whiteSpace, List.mem_cons, List.not_mem_nil, or_false, char_eq_iff, Char.reduceToNat, Bool.or_eq_true,
    Bool.and_eq_true, decide_eq_true_eq, beq_iff_eq]
  omega

/-- C142: the digits of a number are exactly the decimal digits, and none of them is white space. -/
theorem digits_exact (c : Char) : (isDigit c = true ↔ c ∈ decimalDigits) ∧ (isDigit c = true → isSpace c = false) := by
  constructor
  · simp only [isDigit, decimalDigits, List.mem_cons, List.not_mem_nil, or_false, char_eq_iff, Char.reduceToNat,
      Bool.and_eq_true, decide_eq_true_eq]
    omega
  · intro h
    rw [Bool.eq_false_iff]
    intro h'
    simp only [isDigit, isSpace, Bool.or_eq_true, Bool.and_eq_true, decide_eq_true_eq, beq_iff_eq] at h h'
    omega

example : isSpace '\u2003' = true ∧ isSpace '\u200b' = false ∧ isSpace '_' = false := by
  refine ⟨(white_space_exact _).mpr (by decide), ?_, ?_⟩ <;>
    exact Bool.eq_false_iff.mpr fun h => absurd ((white_space_exact _).mp h) (by decide)

example : isDigit '7' = true ∧ isDigit '٣' = false := by decide

end BurnFm.Props
