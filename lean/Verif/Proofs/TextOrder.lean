import Verif.Proofs.Digits
import Verif.Spec.CalcValue

namespace BurnFm
open Spec

/-- Texts of digits are ordered like decimal fractions. -/
theorem strLe_fraction {s t : Str} (hs : ∀ c ∈ s, isDigit c = true) (ht : ∀ c ∈ t, isDigit c = true) (a : Nat) :
    strLe s t = true ↔
      s.foldl (fun n c => 10 * n + (c.toNat - 48)) a * 10 ^ t.length < t.foldl (fun n c => 10 * n + (c.toNat - 48)) a * 10 ^ s.length ∨
      s.foldl (fun n c => 10 * n + (c.toNat - 48)) a * 10 ^ t.length = t.foldl (fun n c => 10 * n + (c.toNat - 48)) a * 10 ^ s.length ∧
        s.length ≤ t.length := by
  induction s generalizing t a with
  | nil =>
    have := ofDigits_ge (s := t) a
    simp only [strLe, List.foldl_nil, List.length_nil, Nat.pow_zero, Nat.mul_one, Nat.zero_le, and_true, true_iff]
    omega
  | cons c s ih =>
    cases t with
    | nil =>
      have := ofDigits_ge (s := c :: s) a
      simp only [strLe, List.foldl_nil, List.length_nil, Nat.pow_zero, Nat.mul_one, List.length_cons, Nat.le_zero, Nat.add_eq_zero_iff,
        Nat.one_ne_zero, and_false, or_false]
      simp only [List.length_cons] at this
      exact iff_of_false (by simp) (by omega)
    | cons d t =>
      have hc := hs c (by simp)
      have hd := ht d (by simp)
      have hs' : ∀ c ∈ s, isDigit c = true := fun x hx => hs x (by simp [hx])
      have ht' : ∀ c ∈ t, isDigit c = true := fun x hx => ht x (by simp [hx])
      have c1 : 48 ≤ c.toNat ∧ c.toNat ≤ 57 := by unfold isDigit at hc; simpa using hc
      have d1 : 48 ≤ d.toNat ∧ d.toNat ≤ 57 := by unfold isDigit at hd; simpa using hd
      have hcv : c.val.toNat = c.toNat := rfl
      have hdv : d.val.toNat = d.toNat := rfl
      have ten : ∀ x n : Nat, x * 10 ^ (n + 1) = 10 * (x * 10 ^ n) := fun x n => by rw [Nat.pow_succ]; ac_rfl
      have swap : ∀ x y z : Nat, x * y * z = x * z * y := fun x y z => by ac_rfl
      have ps : 0 < 10 ^ s.length := Nat.pow_pos (by omega)
      have pt : 0 < 10 ^ t.length := Nat.pow_pos (by omega)
      rw [strLe, List.foldl_cons, List.foldl_cons, List.length_cons, List.length_cons, ten, ten]
      have hA := ofDigits_lt hs' (10 * a + (c.toNat - 48))
      have hB := ofDigits_ge (s := t) (10 * a + (d.toNat - 48))
      have hC := ofDigits_lt ht' (10 * a + (d.toNat - 48))
      have hD := ofDigits_ge (s := s) (10 * a + (c.toNat - 48))
      by_cases h1 : c.val < d.val
      · rw [if_pos h1]
        have hlt : c.toNat < d.toNat := UInt32.lt_iff_toNat_lt.mp h1
        refine iff_of_true rfl (.inl ?_)
        have e1 := Nat.mul_lt_mul_of_pos_right hA pt
        have e2 := Nat.mul_le_mul_right (10 ^ s.length) hB
        rw [swap] at e2
        have e3 : (10 * a + (c.toNat - 48) + 1) * 10 ^ s.length * 10 ^ t.length ≤
            (10 * a + (d.toNat - 48)) * 10 ^ s.length * 10 ^ t.length :=
          Nat.mul_le_mul_right _ (Nat.mul_le_mul_right _ (by omega))
        omega
      · rw [if_neg h1]
        by_cases h2 : d.val < c.val
        · rw [if_pos h2]
          have hlt : d.toNat < c.toNat := UInt32.lt_iff_toNat_lt.mp h2
          refine iff_of_false (by simp) ?_
          have e1 := Nat.mul_lt_mul_of_pos_right hC ps
          have e2 := Nat.mul_le_mul_right (10 ^ t.length) hD
          rw [swap] at e2
          have e3 : (10 * a + (d.toNat - 48) + 1) * 10 ^ t.length * 10 ^ s.length ≤
              (10 * a + (c.toNat - 48)) * 10 ^ t.length * 10 ^ s.length :=
            Nat.mul_le_mul_right _ (Nat.mul_le_mul_right _ (by omega))
          omega
        · rw [if_neg h2]
          have : c.toNat = d.toNat := by
            have h1' : ¬ c.val.toNat < d.val.toNat := fun h => h1 (UInt32.lt_iff_toNat_lt.mpr h)
            have h2' : ¬ d.val.toNat < c.val.toNat := fun h => h2 (UInt32.lt_iff_toNat_lt.mpr h)
            omega
          rw [this, ih hs' ht' (10 * a + (d.toNat - 48))]
          omega

theorem strLe_nat_fraction (n m : Nat) : strLe (Nat.toDigits 10 n) (Nat.toDigits 10 m) = decide (FractionLe n m) := by
  rw [Bool.eq_iff_iff, decide_eq_true_iff,
    strLe_fraction (fun _ h => toDigits_digits h) (fun _ h => toDigits_digits h) 0]
  have h1 := digitsVal_toDigits n
  have h2 := digitsVal_toDigits m
  unfold digitsVal at h1 h2
  rw [h1, h2]
  rfl

end BurnFm
