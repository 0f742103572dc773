import Verif.Spec.Vm
import Verif.Proofs.CalcEval
import Verif.Props.CalcLex

/-! Calculations as the interpreter uses them. -/

namespace BurnFm
open Spec

theorem operandVal_own {env env' : CalcEnv} (hdb : env.db = env'.db) (hd : env.depth = env'.depth)
    (hv : ∀ d, env.depth = d + 1 → env.vars[d]? = env'.vars[d]?) (fuel : Nat) :
    ∀ s, operandVal env fuel s = operandVal env' fuel s := by
  induction fuel with
  | zero => intro s; rfl
  | succ n ih =>
    intro s
    have hi : operandVal env n = operandVal env' n := funext ih
    unfold operandVal
    rw [hdb, hi]
    split
    · rfl
    · split
      · rfl
      · split
        · rfl
        · rw [← hd]
          split
          · rfl
          · rename_i d hdd
            unfold idx
            rw [hv d hdd]

section
variable [Rt]

theorem callFunction_own {env env' : CalcEnv} {fuel : Nat} (h : operandVal env fuel = operandVal env' fuel)
    (name : Str) (args : List (Ev Str)) : callFunction env fuel name args = callFunction env' fuel name args := by
  unfold callFunction
  have : minOrder env fuel = minOrder env' fuel := by
    funext x y
    unfold minOrder
    rw [h]
  rw [this]

mutual

theorem evalNode_own {env env' : CalcEnv} {fuel : Nat} (h : operandVal env fuel = operandVal env' fuel) :
    ∀ e : Node Rt.F, evalNode env fuel e = evalNode env' fuel e
  | .binary l op r => by rw [evalNode, evalNode, evalNode_own h l, evalNode_own h r, h]
  | .concatenation l r => by rw [evalNode, evalNode, evalNode_own h l, evalNode_own h r]
  | .comparison l op r => by rw [evalNode, evalNode, evalNode_own h l, evalNode_own h r]
  | .call name args => by rw [evalNode, evalNode, evalArgs_own h args, callFunction_own h]
  | .number x => by rw [evalNode, evalNode]
  | .variable name => by rw [evalNode, evalNode, h]
  | .field name => by rw [evalNode, evalNode, h]
  | .stringLiteral s => by rw [evalNode, evalNode]

theorem evalArgs_own {env env' : CalcEnv} {fuel : Nat} (h : operandVal env fuel = operandVal env' fuel) :
    ∀ es : List (Node Rt.F), evalArgs env fuel es = evalArgs env' fuel es
  | [] => by rw [evalArgs, evalArgs]
  | e :: es => by rw [evalArgs, evalArgs, evalNode_own h e, evalArgs_own h es]

end

theorem evalCalc_own (fuel : Nat) : OwnVariables (fun env => evalCalc env fuel) := by
  intro db d vars vars' c h
  show evalCalc _ fuel c = evalCalc _ fuel c
  unfold evalCalc
  have : operandVal ⟨db, d + 1, vars⟩ fuel = operandVal ⟨db, d + 1, vars'⟩ fuel :=
    funext (operandVal_own (env := ⟨db, d + 1, vars⟩) (env' := ⟨db, d + 1, vars'⟩) rfl rfl
      (fun k hk => by injection hk with hk; subst hk; exact h) fuel)
  simp only [evalNode_own this]

/-- A text in quotes with a letter or digit in it evaluates to itself. -/
theorem evalCalc_string {s : Str} (hq : '"' ∉ s) (ha : ∃ c ∈ s, Alnum c) (env : CalcEnv) {fuel : Nat}
    (hf : 20 ≤ fuel) : evalCalc env fuel ('"' :: s ++ ['"']) = .ok ('"' :: s ++ ['"']) := by
  have := Props.calc_text_evaluates [('"' :: s ++ ['"'], ⟨.string, '"' :: s ++ ['"']⟩)]
    (by intro w hw; rw [List.mem_singleton] at hw; subst hw; exact .string hq ha) (.stringLiteral ('"' :: s ++ ['"']))
    (.ofConcat (.ofExpr (.ofTerm (.ofFactor .string)))) env fuel (by simpa using hf)
  simpa [spaced, evalNode, ev_pure] using this

end

/-- Two numerals compared. -/
theorem evalCalc_numerals [LawfulRt] {n m : Nat} (hn : n ≤ 2 ^ 53) (hm : m ≤ 2 ^ 53) (env : CalcEnv) {fuel : Nat}
    (hf : 40 ≤ fuel) : evalCalc env fuel (Nat.toDigits 10 n ++ t!" == " ++ Nat.toDigits 10 m) =
      .ok (boolText (n == m)) := by
  have hw : ∀ k, k ≤ 2 ^ 53 → Word (Nat.toDigits 10 k) ⟨.numericLiteral, Nat.toDigits 10 k⟩ := by
    intro k hk
    have h1 : ∀ c ∈ Nat.toDigits 10 k, isDigit c = true := fun c hc => toDigits_digits hc
    have := Word.number (s := Nat.toDigits 10 k) (x := Rt.ofText (Nat.toDigits 10 k))
      (by unfold parseF64; rw [if_pos (isFloatText_nat k)])
      (fun h => absurd (h1 _ h) (by decide)) (fun h => absurd (h1 _ h) (by decide))
    rwa [LawfulRt.nat_text k hk] at this
  have hs : ∀ k : Nat, Spells .factor [⟨.numericLiteral, Nat.toDigits 10 k⟩] (numeral k) := by
    intro k
    exact .number (by unfold parseF64; rw [if_pos (isFloatText_nat k)])
  have := Props.calc_text_evaluates
    [(Nat.toDigits 10 n, ⟨.numericLiteral, Nat.toDigits 10 n⟩), (t!"==", sym .eq),
     (Nat.toDigits 10 m, ⟨.numericLiteral, Nat.toDigits 10 m⟩)]
    (by
      intro w h
      simp only [List.mem_cons, List.not_mem_nil, or_false] at h
      rcases h with rfl | rfl | rfl
      · exact hw n hn
      · exact .operator (by decide)
      · exact hw m hm)
    (.comparison (numeral n) .eq (numeral m))
    (Spells.compare (a := [_]) (b := [_]) (by decide) (.ofConcat (.ofExpr (.ofTerm (.ofFactor (hs n)))))
      (.ofExpr (.ofTerm (.ofFactor (hs m))))) env fuel (by simpa using hf)
  rw [eval_compare_numerals env fuel hn hm rfl] at this
  simp only [List.map_cons, List.map_nil, spaced] at this
  rw [List.append_assoc]
  refine this.trans ?_
  show Except.ok (boolText (Nat.toDigits 10 n == Nat.toDigits 10 m)) = _
  by_cases e : n = m
  · subst e; simp
  · have : Nat.toDigits 10 n ≠ Nat.toDigits 10 m := fun h => e (toDigits_inj h)
    rw [beq_eq_false_iff_ne.mpr this, beq_eq_false_iff_ne.mpr e]

theorem evalCalc_true [LawfulRt] (env : CalcEnv) {fuel : Nat} (hf : 40 ≤ fuel) :
    evalCalc env fuel t!"1 == 1" = .ok t!"true" := evalCalc_numerals (n := 1) (m := 1) (by decide) (by decide) env hf

theorem evalCalc_false [LawfulRt] (env : CalcEnv) {fuel : Nat} (hf : 40 ≤ fuel) :
    evalCalc env fuel t!"1 == 2" = .ok t!"false" := evalCalc_numerals (n := 1) (m := 2) (by decide) (by decide) env hf

/-- `x != 5` -/
theorem evalCalc_x_ne_five [LawfulRt] (env : CalcEnv) {fuel : Nat} (hf : 40 ≤ fuel) :
    (varValue env t!"x" = some t!"5" → evalCalc env fuel t!"x != 5" = .ok t!"false") ∧
    (Active env → varValue env t!"x" = none → evalCalc env fuel t!"x != 5" = .ok t!"true") := by
  have hx : parseF64 t!"x" = none := by
    unfold parseF64; rw [if_neg (by decide)]
  have h5 : Word t!"5" ⟨.numericLiteral, t!"5"⟩ := by
    have := Word.number (s := t!"5") (x := Rt.ofText t!"5") (by unfold parseF64; rw [if_pos (by decide)]) (by decide) (by decide)
    rwa [show t!"5" = Nat.toDigits 10 5 from rfl, LawfulRt.nat_text 5 (by decide)] at this
  have key := Props.calc_text_evaluates
    [(t!"x", ⟨.identifier, t!"x"⟩), (t!"!=", sym .neq), (t!"5", ⟨.numericLiteral, t!"5"⟩)]
    (by
      intro w h
      simp only [List.mem_cons, List.not_mem_nil, or_false] at h
      rcases h with rfl | rfl | rfl
      · exact .name (by decide) (by decide) hx
      · exact .operator (by decide)
      · exact h5)
    (.comparison (.variable t!"x") .neq (numeral 5))
    (Spells.compare (a := [_]) (b := [_]) (by decide) (.ofConcat (.ofExpr (.ofTerm (.ofFactor (.variable (by decide))))))
      (.ofExpr (.ofTerm (.ofFactor (.number (by unfold parseF64; rw [if_pos (by decide)]; rfl)))))) env fuel (by simpa using hf)
  have hvn : VarName t!"x" := ⟨by decide, by decide, by decide⟩
  obtain ⟨g, rfl⟩ : ∃ g, fuel = g + 2 := ⟨fuel - 2, by omega⟩
  have key' : evalCalc env (g + 2) t!"x != 5" =
      (do let o ← operandVal env (g + 2) t!"x"; compareTexts .neq o.value t!"5") := by
    refine key.trans ?_
    rw [evalNode, if_pos (show isComparison TokenType.neq = true from rfl), eval_numeral env _ (by decide), evalNode]
    cases operandVal env (g + 2) t!"x" <;> rfl
  rw [key']
  constructor
  · intro hv
    rw [operand_var hvn hv, operand_number env (by decide)]
    rfl
  · intro ha hv
    rw [operand_unset hvn ha hv]
    rfl

/-- `5` -/
theorem evalCalc_five [LawfulRt] (env : CalcEnv) {fuel : Nat} (hf : 40 ≤ fuel) : evalCalc env fuel t!"5" = .ok t!"5" := by
  have h5 : Word t!"5" ⟨.numericLiteral, t!"5"⟩ := by
    have := Word.number (s := t!"5") (x := Rt.ofText t!"5") (by unfold parseF64; rw [if_pos (by decide)]) (by decide) (by decide)
    rwa [show t!"5" = Nat.toDigits 10 5 from rfl, LawfulRt.nat_text 5 (by decide)] at this
  have key := Props.calc_text_evaluates [(t!"5", ⟨.numericLiteral, t!"5"⟩)]
    (by
      intro w h
      simp only [List.mem_cons, List.not_mem_nil, or_false] at h
      subst h
      exact h5)
    (numeral 5)
    (.ofConcat (.ofExpr (.ofTerm (.ofFactor (.number (by unfold parseF64; rw [if_pos (by decide)]; rfl)))))) env fuel
    (by simp; omega)
  refine key.trans ?_
  rw [eval_numeral env _ (by decide)]
  rfl

end BurnFm
