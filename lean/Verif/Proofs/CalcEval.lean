import Verif.Proofs.CalcGrammar
import Verif.Proofs.Digits
import Verif.Proofs.Base
import Verif.Spec.CalcValue

/-! Evaluation of calculations. -/

namespace BurnFm
open Spec

theorem operand_number (env : CalcEnv) {v : Str} (h : isFloatText v = true) (f : Nat) :
    operandVal env (f + 1) v = .ok ⟨v, true⟩ := by
  rw [operandVal, if_pos h]; rfl

theorem operand_quoted (env : CalcEnv) {v : Str} (h : isQuoted v = true) (f : Nat) :
    operandVal env (f + 1) v = .ok ⟨v, false⟩ := by
  rw [operandVal, if_neg (by simp [not_float_quoted h]), if_pos h]; rfl

theorem operand_lookup {env : CalcEnv} {name : Str} (hn : VarName name) {d : Nat} {m : SMap Str}
    (hd : env.depth = d + 1) (hm : env.vars[d]? = some m) (f : Nat) :
    operandVal env (f + 1) name =
      match SMap.get m name with
      | none => .ok ⟨[], false⟩
      | some v => operandVal env f v := by
  rw [operandVal, if_neg (by simp [hn.notNumber]), if_neg (by simp [hn.notQuoted]), splitCC_plain hn.plain]
  simp only [hd]
  rw [idx_of hm]
  simp only [liftR, ev_ok_bind]
  rfl

theorem operand_var {env : CalcEnv} {name v : Str} (hn : VarName name) (hv : varValue env name = some v) (f : Nat) :
    operandVal env (f + 1) name = operandVal env f v := by
  unfold varValue at hv
  split at hv
  · cases hv
  · rename_i d hd
    cases hm : env.vars[d]? with
    | none => rw [hm] at hv; cases hv
    | some m =>
      rw [hm] at hv
      simp only [Option.bind_some] at hv
      rw [operand_lookup hn hd hm, hv]

theorem operand_unset {env : CalcEnv} {name : Str} (hn : VarName name) (ha : Active env)
    (hv : varValue env name = none) (f : Nat) : operandVal env (f + 1) name = .ok ⟨[], false⟩ := by
  obtain ⟨d, m, hd, hm⟩ := ha
  unfold varValue at hv
  rw [hd] at hv
  simp only [hm, Option.bind_some] at hv
  rw [operand_lookup hn hd hm, hv]

theorem foundSet_value {db : Database} {f v : Str} (h : ValueAt db db.handle f v) :
    db.foundSetRecordField f = .ok v := by
  obtain ⟨o, t, r, fld, h1, h2, h3, h4, h5⟩ := h
  unfold Database.foundSetRecordField Database.currentTable Database.currentOcc
  rw [idx_of h1]
  simp only [ok_bind]
  rw [idx_of h2]
  simp only [ok_bind]
  rw [idx_of h3]
  simp only [ok_bind]
  rw [h4]
  exact idx_of h5

theorem operand_field {env : CalcEnv} {t f : Str} (ht : PlainName t) (hf : PlainName f)
    (hq : isQuoted (t ++ t!"::" ++ f) = false) (fuel : Nat) :
    operandVal env (fuel + 1) (t ++ t!"::" ++ f) =
      (liftR (env.db.foundSetRecordField f) >>= fun v => operandVal env fuel v) := by
  have hnf : isFloatText (t ++ t!"::" ++ f) = false := not_float_of_char (c := ':') (by simp) (by decide)
  rw [operandVal, if_neg (by rw [hnf]; simp), if_neg (by rw [hq]; simp), splitCC_field ht hf]

variable [LawfulRt]

theorem parseF64_toText (x : Rt.F) : parseF64 (Rt.toText x) = some x := by
  unfold parseF64
  rw [if_pos (LawfulRt.text_isFloat x), LawfulRt.parse_text]

theorem toText_inj {x y : Rt.F} (h : Rt.toText x = Rt.toText y) : x = y := by
  have := parseF64_toText x
  rw [h, parseF64_toText] at this
  exact (Option.some.inj this).symm

theorem parseF64_isFloat {s : Str} {x : Rt.F} (h : parseF64 s = some x) : isFloatText s = true := by
  unfold parseF64 at h
  split at h
  · rename_i h'; exact h'
  · cases h

theorem arith_ok {op : TokenType} (hop : op ∈ [TokenType.plus, .minus, .multiply, .divide]) {a b : Str} {x y : Rt.F}
    (ha : parseF64 a = some x) (hb : parseF64 b = some y) :
    arith op ⟨a, true⟩ ⟨b, true⟩ = .ok (Rt.toText (applyOp op x y)) := by
  simp only [List.mem_cons, List.not_mem_nil, or_false] at hop
  unfold arith
  rcases hop with rfl | rfl | rfl | rfl <;>
    simp [isAdditive, isMultiplicative, ha, hb, unwrap, liftR, bind, Except.bind, applyOp, pure, Except.pure]

/-- The text an arithmetic expression evaluates to, with the value it denotes. -/
theorem eval_arith {env : CalcEnv} {e : Node Rt.F} {x : Rt.F} (h : Arith env e x) (fuel : Nat) :
    ∃ s, evalNode env (fuel + 2) e = .ok s ∧ parseF64 s = some x ∧
      ((∀ n, e ≠ .variable n) → (∀ n, e ≠ .field n) → s = Rt.toText x) := by
  induction h with
  | @number x => exact ⟨_, by rw [evalNode]; rfl, parseF64_toText x, fun _ _ => rfl⟩
  | @«variable» name v x hn hv hx =>
    refine ⟨v, ?_, hx, fun h => absurd rfl (h name)⟩
    rw [evalNode, operand_var hn hv, operand_number env (parseF64_isFloat hx), ev_ok_bind]
    rfl
  | @field t f v x ht hf hq hval hx =>
    refine ⟨v, ?_, hx, fun _ h => absurd rfl (h _)⟩
    rw [evalNode, operand_field ht hf hq, foundSet_value hval]
    simp only [liftR, ev_ok_bind]
    rw [operand_number env (parseF64_isFloat hx), ev_ok_bind]
    rfl
  | @op l r op x y hop hl hr ihl ihr =>
    obtain ⟨a, ha, hxa, _⟩ := ihl
    obtain ⟨b, hb, hyb, _⟩ := ihr
    refine ⟨_, ?_, parseF64_toText _, fun _ _ => rfl⟩
    rw [evalNode, ha, ev_ok_bind, hb, ev_ok_bind, operand_number env (parseF64_isFloat hxa), ev_ok_bind,
      operand_number env (parseF64_isFloat hyb), ev_ok_bind, arith_ok hop hxa hyb]

theorem boolText_inj {a b : Bool} : boolText a = boolText b ↔ a = b := by cases a <;> cases b <;> simp [boolText]

theorem eval_numeral (env : CalcEnv) (fuel : Nat) {n : Nat} (hn : n ≤ 2 ^ 53) :
    evalNode env fuel (numeral n) = .ok (Nat.toDigits 10 n) := by
  unfold numeral
  rw [evalNode, LawfulRt.nat_text n hn]; rfl

theorem eval_compare_numerals (env : CalcEnv) (fuel : Nat) {n m : Nat} (hn : n ≤ 2 ^ 53) (hm : m ≤ 2 ^ 53)
    {op : TokenType} (hop : isComparison op = true) :
    evalNode env fuel (.comparison (numeral n) op (numeral m)) =
      compareTexts op (Nat.toDigits 10 n) (Nat.toDigits 10 m) := by
  rw [evalNode, if_pos hop, eval_numeral env fuel hn, ev_ok_bind, eval_numeral env fuel hm, ev_ok_bind]

theorem toDigits_inj {n m : Nat} (h : Nat.toDigits 10 n = Nat.toDigits 10 m) : n = m := by
  rw [← digitsVal_toDigits n, h, digitsVal_toDigits]

end BurnFm
