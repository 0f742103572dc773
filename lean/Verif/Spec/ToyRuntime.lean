import Verif.Spec.CalcGrammar
import Verif.Proofs.Digits

/-! A runtime that satisfies the assumptions on `f64` and computes, to run examples in the model: its numbers
are their texts, and arithmetic is exact on natural numbers and NaN otherwise. -/

namespace BurnFm.Spec

/-- A text accepted as a number. -/
abbrev ToyF := { s : Str // isFloatText s = true }

def toyOfText (s : Str) : ToyF := if h : isFloatText s = true then ⟨s, h⟩ else ⟨t!"NaN", by decide⟩

/-- The natural number a text denotes. -/
def toyNat (x : ToyF) : Option Nat := if !x.1.isEmpty && x.1.all isDigit then some (digitsVal x.1) else none

def toyOp (f : Nat → Nat → Option Nat) (x y : ToyF) : ToyF :=
  match toyNat x, toyNat y with
  | some a, some b => match f a b with
    | some c => toyOfText (Nat.toDigits 10 c)
    | none => toyOfText t!"NaN"
  | _, _ => toyOfText t!"NaN"

theorem toyNat_digits (k : Nat) : toyNat (toyOfText (Nat.toDigits 10 k)) = some k := by
  unfold toyNat toyOfText
  rw [dif_pos (isFloatText_nat k)]
  rw [if_pos]
  · simp [digitsVal_toDigits]
  · simp only [Bool.and_eq_true, List.all_eq_true]
    refine ⟨?_, fun c hc => toDigits_digits hc⟩
    cases hh : Nat.toDigits 10 k with
    | nil => exact absurd hh Nat.toDigits_ne_nil
    | cons a b => rfl

@[reducible] def toyRt : LawfulRt where
  F := ToyF
  ofText := toyOfText
  toText := fun x => x.1
  add := toyOp (fun a b => some (a + b))
  sub := toyOp (fun a b => if b ≤ a then some (a - b) else none)
  mul := toyOp (fun a b => some (a * b))
  div := toyOp (fun a b => if b ≠ 0 ∧ a % b = 0 then some (a / b) else none)
  cmp := fun x y => match toyNat x, toyNat y with
    | some a, some b => some (compare a b)
    | _, _ => none
  absText := id
  acosText := id
  alnumHigh := fun _ => false
  text_isFloat := fun x => x.2
  parse_text := fun x => by unfold toyOfText; rw [dif_pos x.2]
  nat_text := fun n _ => by unfold toyOfText; rw [dif_pos (isFloatText_nat n)]
  nat_cmp := fun n m _ _ => by simp only [toyNat_digits]
  nat_add := fun n m _ => by unfold toyOp; simp only [toyNat_digits]

end BurnFm.Spec
