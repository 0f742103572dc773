import Verif.Proofs.CalcEval
import Verif.Proofs.Utf8Order
import Verif.Proofs.Related
import Verif.Spec.TextOrder

/-! The built-in functions of calculations. -/

namespace BurnFm
open Spec

theorem evalArgs_map [Rt] (env : CalcEnv) (fuel : Nat) (args : List (Node Rt.F)) :
    evalArgs env fuel args = args.map (evalNode env fuel) := by
  induction args with
  | nil => rfl
  | cons a as ih => rw [evalArgs, ih]; rfl

/-- `Min` keeps a least value, for any order that `minOrder` follows on the values. -/
theorem min_fold [Rt] {env : CalcEnv} {fuel : Nat} {S : Str → Prop} {le : Str → Str → Prop}
    (hrefl : ∀ x, le x x) (htrans : ∀ x y z, le x y → le y z → le x z)
    (hord : ∀ x y, S x → S y → ∃ o, minOrder env fuel x y = .ok o ∧ (o = .gt → le y x) ∧ (o ≠ .gt → le x y))
    (vs : List Str) : ∀ v, S v → (∀ w ∈ vs, S w) →
    ∃ m, (vs.map Except.ok : List (Ev Str)).foldlM (fun best b => do
        let w ← b
        let o ← minOrder env fuel best w
        pure (if o = Ordering.gt then w else best)) v = .ok m ∧ m ∈ v :: vs ∧ ∀ k ∈ v :: vs, le m k := by
  induction vs with
  | nil =>
    intro v _ _
    exact ⟨v, rfl, by simp, by simp [hrefl]⟩
  | cons w vs ih =>
    intro v hv hvs
    have hw := hvs w (by simp)
    obtain ⟨o, ho, h1, h2⟩ := hord v w hv hw
    simp only [List.map_cons, List.foldlM_cons, ev_ok_bind, ho]
    by_cases hgt : o = .gt
    · obtain ⟨m, hm, hmem, hle⟩ := ih w hw (fun x hx => hvs x (by simp [hx]))
      refine ⟨m, ?_, by simp only [List.mem_cons] at hmem ⊢; tauto, ?_⟩
      · simp only [hgt, if_true]; exact hm
      · intro k hk
        simp only [List.mem_cons] at hk
        rcases hk with rfl | hk
        · exact htrans _ _ _ (hle w (by simp)) (h1 hgt)
        · exact hle k (by simpa using hk)
    · obtain ⟨m, hm, hmem, hle⟩ := ih v hv (fun x hx => hvs x (by simp [hx]))
      refine ⟨m, ?_, by simp only [List.mem_cons] at hmem ⊢; tauto, ?_⟩
      · simp only [hgt, if_false]; exact hm
      · intro k hk
        simp only [List.mem_cons] at hk
        rcases hk with rfl | rfl | hk
        · exact hle _ (by simp)
        · exact htrans _ _ _ (hle v (by simp)) (h2 hgt)
        · exact hle k (by simp [hk])

theorem call_min [Rt] {env : CalcEnv} {fuel : Nat} {args : List (Node Rt.F)} {v : Str} {vs : List Str}
    (h : args.map (evalNode env fuel) = (v :: vs).map .ok) :
    evalNode env fuel (.call t!"Min" args) = (vs.map Except.ok : List (Ev Str)).foldlM (fun best b => do
        let w ← b
        let o ← minOrder env fuel best w
        pure (if o = Ordering.gt then w else best)) v := by
  rw [evalNode, evalArgs_map, h]
  rfl

theorem minOrder_nat [LawfulRt] (env : CalcEnv) (f : Nat) {n m : Nat} (hn : n ≤ 2 ^ 53) (hm : m ≤ 2 ^ 53) :
    minOrder env (f + 1) (Nat.toDigits 10 n) (Nat.toDigits 10 m) = .ok (compare n m) := by
  unfold minOrder
  rw [operand_number env (isFloatText_nat n), ev_ok_bind, operand_number env (isFloatText_nat m), ev_ok_bind]
  simp only [Bool.and_self, if_true, parseF64, isFloatText_nat, unwrap, liftR, ev_ok_bind,
    LawfulRt.nat_cmp n m hn hm]

theorem minOrder_quoted [Rt] (env : CalcEnv) (f : Nat) {x y : Str} (hx : isQuoted x = true) (hy : isQuoted y = true) :
    minOrder env (f + 1) x y = .ok (if strLe x y then (if strLe y x then .eq else .lt) else .gt) := by
  unfold minOrder
  rw [operand_quoted env hx, ev_ok_bind, operand_quoted env hy, ev_ok_bind]
  rfl

/-- A string is before every number. -/
theorem strLe_quoted_nat {x : Str} (hx : isQuoted x = true) (n : Nat) :
    strLe x (Nat.toDigits 10 n) = true ∧ strLe (Nat.toDigits 10 n) x = false := by
  unfold isQuoted at hx
  simp only [Bool.and_eq_true, beq_iff_eq] at hx
  obtain ⟨c, x, rfl⟩ : ∃ c t, x = c :: t := by
    cases x with
    | nil => simp at hx
    | cons c t => exact ⟨c, t, rfl⟩
  obtain ⟨d, s, hs⟩ := List.exists_cons_of_ne_nil (Nat.toDigits_ne_nil (b := 10) (n := n))
  have hd := toDigits_digits (n := n) (c := d) (by rw [hs]; simp)
  have hc : c = '"' := by simpa using hx.1
  subst hc
  have hlt : '"' :: x < Nat.toDigits 10 n := by
    rw [hs]
    refine List.Lex.rel ?_
    unfold isDigit at hd
    simp only [Bool.and_eq_true, decide_eq_true_eq] at hd
    show ('"').toNat < d.toNat
    exact Nat.lt_of_lt_of_le (by decide) hd.1
  refine ⟨(strLe_iff _ _).mpr (.inl hlt), ?_⟩
  rw [← Bool.not_eq_true, strLe_iff]
  rintro (h | h)
  · exact List.lt_asymm hlt h
  · rw [h] at hlt; exact List.lt_irrefl _ hlt

theorem not_quoted_nat (n : Nat) : isQuoted (Nat.toDigits 10 n) = false := by
  unfold isQuoted
  rw [Bool.and_eq_false_iff]
  refine .inl ?_
  rw [beq_eq_false_iff_ne]
  intro h
  exact absurd (toDigits_digits (List.mem_of_mem_head? h)) (by decide)

theorem minOrder_mixed [Rt] (env : CalcEnv) (f : Nat) {x : Str} (hx : isQuoted x = true) (n : Nat) :
    minOrder env (f + 1) x (Nat.toDigits 10 n) = .ok .lt ∧ minOrder env (f + 1) (Nat.toDigits 10 n) x = .ok .gt := by
  obtain ⟨h1, h2⟩ := strLe_quoted_nat hx n
  constructor
  · unfold minOrder
    rw [operand_quoted env hx, ev_ok_bind, operand_number env (isFloatText_nat n), ev_ok_bind]
    simp only [Bool.false_and, h1, h2, if_true, Bool.false_eq_true, if_false]
    rfl
  · unfold minOrder
    rw [operand_number env (isFloatText_nat n), ev_ok_bind, operand_quoted env hx, ev_ok_bind]
    simp only [Bool.and_false, h2, Bool.false_eq_true, if_false]
    rfl

theorem parseUnsigned_plain (b : Nat) {s : Str} (h : '+' ∉ s) : parseUnsigned b s =
    if !s.isEmpty && s.all isDigit && decide (digitsVal s < b) then some (digitsVal s) else none := by
  unfold parseUnsigned
  dsimp only
  split
  · exact absurd (by simp) h
  · rfl

theorem plus_toDigits (n : Nat) : '+' ∉ Nat.toDigits 10 n := fun h => absurd (toDigits_digits h) (by decide)

theorem parseUnsigned_nat {b n : Nat} (h : n < b) : parseUnsigned b (Nat.toDigits 10 n) = some n := by
  rw [parseUnsigned_plain b (plus_toDigits n), digitsVal_toDigits, if_pos]
  simp only [Bool.and_eq_true, Bool.not_eq_true', List.isEmpty_eq_false_iff, List.all_eq_true, decide_eq_true_eq]
  exact ⟨⟨Nat.toDigits_ne_nil, fun c hc => toDigits_digits hc⟩, h⟩

theorem parseUnsigned_large {b n : Nat} (h : b ≤ n) : parseUnsigned b (Nat.toDigits 10 n) = none := by
  rw [parseUnsigned_plain b (plus_toDigits n), digitsVal_toDigits, if_neg]
  simp only [Bool.and_eq_true, decide_eq_true_eq]
  omega

end BurnFm
