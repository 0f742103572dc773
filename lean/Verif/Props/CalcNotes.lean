import Verif.Proofs.CalcNotes
import Verif.Spec.ToyRuntime

/-! C126 to C129: the warnings of calculations. -/

namespace BurnFm.Props
open Spec

/-- Collecting the warnings changes no result: `evalCalcN` is `evalCalc` with output. -/
theorem notes_change_nothing [Rt] (env : CalcEnv) (fuel : Nat) (s : Str) : (evalCalcN env fuel s).result = evalCalc env fuel s :=
  evalCalcN_snd env fuel s

/-! ### C126 -/

/-- C126: a calculation, whether it ends or panics, depends on no variable other than those that have a value and those it
names in its warnings. In any state with more variables, as long as the variables named stay without a value, the result and the
warnings are the same. -/
theorem only_named_variables_matter [Rt] (env env' : CalcEnv) (hm : MoreVariables env env') (fuel : Nat) (s : Str)
    (hu : ∀ x, Note.unknownVariable x ∈ (evalCalcN env fuel s).notes → varValue env' x = none) :
    evalCalcN env' fuel s = evalCalcN env fuel s :=
  evalCalcN_same hm fuel s hu

/-- C126: a calculation without warnings used defined variables only: no additional variable changes its result. -/
theorem silent_uses_defined_only [Rt] (env env' : CalcEnv) (hm : MoreVariables env env') (fuel : Nat) (s : Str)
    (hq : (evalCalcN env fuel s).notes = []) : evalCalc env' fuel s = evalCalc env fuel s := by
  rw [← evalCalcN_snd, ← evalCalcN_snd, evalCalcN_same hm fuel s (by rw [hq]; exact nofun)]

/-- C126: only names without a value are reported. -/
theorem named_are_undefined [Rt] (env : CalcEnv) (fuel : Nat) (s x : Str)
    (h : Note.unknownVariable x ∈ (evalCalcN env fuel s).notes) : varValue env x = none := by
  have : AllNotes (fun n => ∀ x, n = .unknownVariable x → varValue env x = none) (evalCalcN env fuel s) := by
    unfold evalCalcN
    refine .bind (calcLexN_all _ s _ _ _ (fun _ _ h => nomatch h)) fun _ _ => .bind (.quiet _) fun _ _ => ?_
    refine evalNodeN_all (fun v => operandValN_all _ env (fun y _ hy x hx => ?_) fuel v) (fun _ h => nomatch h) _
    injection hx with hx
    exact hx ▸ hy
  exact this _ h x rfl

/-- C126: reading a variable without a value gives the empty text, and exactly one warning with its name. -/
theorem undefined_variable_named [Rt] (env : CalcEnv) (ha : Active env) (x : Str) (hx : VarName x) (hu : varValue env x = none)
    (fuel : Nat) (hf : 1 ≤ fuel) : evalNodeN env fuel (.variable x) = ⟨[.unknownVariable x], .ok []⟩ := by
  obtain ⟨g, rfl⟩ : ∃ g, fuel = g + 1 := ⟨fuel - 1, by omega⟩
  rw [evalNodeN, operandN_unset hx ha hu]
  rfl

/-! A script with the variables `n` (7) and `flag` (the result of a comparison). -/

/-- The state of the examples. -/
def notesEnv : CalcEnv := ⟨{}, 1, [[(t!"flag", t!"true"), (t!"n", t!"7")]]⟩

/-- The same state after `set_variable(m, 3)`. -/
def notesEnv' : CalcEnv := ⟨{}, 1, [[(t!"flag", t!"true"), (t!"n", t!"7"), (t!"m", t!"3")]]⟩

theorem notesEnv_active : Active notesEnv := ⟨0, _, rfl, rfl⟩

theorem notesEnv_more : MoreVariables notesEnv notesEnv' := by
  refine ⟨rfl, rfl, ⟨fun _ => notesEnv_active, fun _ => ⟨0, _, rfl, rfl⟩⟩, fun x v h => ?_⟩
  have h1 : SMap.get [(t!"flag", t!"true"), (t!"n", t!"7")] x = some v := h
  show SMap.get [(t!"flag", t!"true"), (t!"n", t!"7"), (t!"m", t!"3")] x = some v
  unfold SMap.get at h1 ⊢
  rw [show [(t!"flag", t!"true"), (t!"n", t!"7"), (t!"m", t!"3")] = [(t!"flag", t!"true"), (t!"n", t!"7")] ++ [(t!"m", t!"3")]
    from rfl, List.find?_append]
  cases hf : List.find? (fun e : Str × Str => e.1 == x) [(t!"flag", t!"true"), (t!"n", t!"7")] with
  | none => rw [hf] at h1; exact nomatch h1
  | some e => rw [hf] at h1; exact h1

/-- `n + 1` prints nothing, so the new variable `m` does not matter; `n & k` names `k`, and `m` does not matter either; `m & n`
names `m`, which matters. -/
example : letI := toyRt.toRt
    (evalCalcN notesEnv 20 t!"n + 1").notes = [] ∧
    evalCalc notesEnv 20 t!"n + 1" = .ok t!"8" ∧ evalCalc notesEnv' 20 t!"n + 1" = .ok t!"8" ∧
    (evalCalcN notesEnv 20 t!"n & k").notes = [.unknownVariable t!"k"] ∧
    evalCalcN notesEnv' 20 t!"n & k" = evalCalcN notesEnv 20 t!"n & k" ∧
    (evalCalcN notesEnv 20 t!"m & n").notes = [.unknownVariable t!"m"] ∧
    evalCalc notesEnv 20 t!"m & n" = .ok t!"\"7\"" ∧ evalCalc notesEnv' 20 t!"m & n" = .ok t!"\"37\"" := by
  let := toyRt.toRt
  have h : (evalCalcN notesEnv 20 t!"n & k").notes = [.unknownVariable t!"k"] := by decide +kernel
  refine ⟨by decide +kernel, by decide +kernel, by decide +kernel, h,
    only_named_variables_matter notesEnv notesEnv' notesEnv_more 20 _ (fun x hx => ?_), by decide +kernel, by decide +kernel,
    by decide +kernel⟩
  rw [h] at hx
  obtain rfl : x = t!"k" := by simpa using hx
  rfl

/-! ### C127 -/

/-- C127 for expressions without arithmetic and without function calls, over variables and fields that hold numbers and texts in
quotes: a name reported is the name of a variable of the expression. Missing: arithmetic, and other values, see the next two
theorems. -/
theorem reported_is_mentioned_partial [Rt] (env : CalcEnv) (fuel : Nat) (e : Node Rt.F) (he : Expression e)
    (hna : ∀ l op r, ¬ Occurs (.binary l op r) e) (hs : SettledIn env e) (x : Str)
    (h : Note.unknownVariable x ∈ (evalNodeN env fuel e).notes) : Occurs (.variable x) e :=
  names_occur he hna hs x h

/-- The expression `k & "a"` meets the hypotheses, and `k` is reported. -/
example : letI := toyRt.toRt
    Expression (.concatenation (.variable t!"k") (.stringLiteral t!"\"a\"") : Node Rt.F) ∧
    (∀ l op r, ¬ Occurs (.binary l op r) (.concatenation (.variable t!"k") (.stringLiteral t!"\"a\"") : Node Rt.F)) ∧
    SettledIn notesEnv (.concatenation (.variable t!"k") (.stringLiteral t!"\"a\"") : Node Rt.F) ∧
    Note.unknownVariable t!"k" ∈
      (evalNodeN notesEnv 5 (.concatenation (.variable t!"k") (.stringLiteral t!"\"a\"") : Node Rt.F)).notes := by
  let := toyRt.toRt
  refine ⟨.concatenate (.variable (by decide)) .string, fun l op r h => ?_, ⟨fun x v h hv => ?_, fun t f v h => ?_⟩,
    by decide +kernel⟩
  · cases h with
    | concatLeft h => cases h
    | concatRight h => cases h
  · cases h with
    | concatLeft h => cases h; exact nomatch hv
    | concatRight h => cases h
  · generalize hn : t ++ t!"::" ++ f = name at h
    cases h with
    | concatLeft h => cases h
    | concatRight h => cases h

/-- C127 is false: a variable that has a value other than a number or a text in quotes, such as the result `true` of a comparison,
makes a warning about a variable of that name. -/
theorem boolean_variable_false_alarm [Rt] (env : CalcEnv) (ha : Active env) (x v : Str) (hx : VarName x)
    (hv : varValue env x = some v) (hn : VarName v) (hu : varValue env v = none) (fuel : Nat) (hf : 2 ≤ fuel) :
    evalNodeN env fuel (.variable x) = ⟨[.unknownVariable v], .ok []⟩ := by
  obtain ⟨g, rfl⟩ : ∃ g, fuel = g + 2 := ⟨fuel - 2, by omega⟩
  rw [evalNodeN, operandN_var hx hv, operandN_unset hn ha hu]
  rfl

example : letI := toyRt.toRt
    (evalCalcN notesEnv 20 t!"flag").notes = [.unknownVariable t!"true"] := by
  let := toyRt.toRt
  decide +kernel

theorem varName_nil : VarName [] := ⟨by decide, by decide, by decide⟩

/-- C127 is false: a variable without a value, as the left operand of arithmetic with a number, is reported, then a variable with
an empty name is reported, and then the operation. -/
theorem undefined_operand_reported_twice [Rt] (env : CalcEnv) (ha : Active env) (x : Str) (hx : VarName x)
    (hu : varValue env x = none) (he : varValue env [] = none) (n : Rt.F) (hn : isFloatText (Rt.toText n) = true) (op : TokenType)
    (hop : op ∈ [TokenType.plus, .minus, .multiply, .divide]) (fuel : Nat) (hf : 1 ≤ fuel) :
    evalNodeN env fuel (.binary (.variable x) op (.number n)) =
      ⟨[.unknownVariable x, .unknownVariable [], .notNumbers], .ok t!"undefined"⟩ := by
  have h1 := undefined_variable_named env ha x hx hu fuel hf
  obtain ⟨g, rfl⟩ : ∃ g, fuel = g + 1 := ⟨fuel - 1, by omega⟩
  have h2 : operandValN env (g + 1) (Rt.toText n) = ⟨[], .ok ⟨Rt.toText n, true⟩⟩ := by rw [operandValN, if_pos hn]; rfl
  have hop' : (!isAdditive op && !isMultiplicative op) = false := by
    simp only [List.mem_cons, List.not_mem_nil, or_false] at hop
    rcases hop with rfl | rfl | rfl | rfl <;> rfl
  rw [evalNodeN, h1, noted_ok_bind, evalNodeN]
  rw [noted_pure, noted_ok_bind, operandN_unset varName_nil ha he, noted_ok_bind, h2, noted_ok_bind, arithN, hop']
  rfl

example : letI := toyRt.toRt
    (evalCalcN notesEnv 20 t!"k + 1").notes = [.unknownVariable t!"k", .unknownVariable [], .notNumbers] ∧
    evalCalc notesEnv 20 t!"k + 1" = .ok t!"undefined" := by
  let := toyRt.toRt
  exact ⟨by decide +kernel, by decide +kernel⟩

/-! ### C128 -/

/-- C128: a calculation without function calls that ends warns of operands that are no numbers exactly if some arithmetic
operation in it has one. -/
theorem not_numbers_reported_iff [Rt] (env : CalcEnv) (fuel : Nat) (e : Node Rt.F) (he : Expression e) (v : Str)
    (hv : evalNode env fuel e = .ok v) :
    Note.notNumbers ∈ (evalNodeN env fuel e).notes ↔
      ∃ l op r, Occurs (.binary l op r) e ∧ ¬ (IsNumber env fuel l ∧ IsNumber env fuel r) :=
  notNumbers_iff he hv

/-- C128: an operation reported gives the text `undefined`; one that is not reported is the operation on the two numbers. -/
theorem operation_reported_or_done [Rt] (op : TokenType) (hop : op ∈ [TokenType.plus, .minus, .multiply, .divide]) (a b : Operand)
    (ha : a.number = true → isFloatText a.value = true) (hb : b.number = true → isFloatText b.value = true) :
    arithN op a b = ⟨[.notNumbers], .ok t!"undefined"⟩ ∧ ¬ (a.number = true ∧ b.number = true) ∨
    ∃ x y : Rt.F, parseF64 a.value = some x ∧ parseF64 b.value = some y ∧
      arithN op a b = ⟨[], .ok (Rt.toText (applyOp op x y))⟩ := by
  have hop' : (!isAdditive op && !isMultiplicative op) = false := by
    simp only [List.mem_cons, List.not_mem_nil, or_false] at hop
    rcases hop with rfl | rfl | rfl | rfl <;> rfl
  cases h1 : a.number with
  | false => exact .inl ⟨by unfold arithN; rw [hop', h1]; rfl, by simp⟩
  | true =>
    cases h2 : b.number with
    | false => exact .inl ⟨by unfold arithN; rw [hop', h1, h2]; rfl, by simp⟩
    | true =>
      have e1 : parseF64 a.value = some (Rt.ofText a.value) := by unfold parseF64; rw [if_pos (ha h1)]
      have e2 : parseF64 b.value = some (Rt.ofText b.value) := by unfold parseF64; rw [if_pos (hb h2)]
      refine .inr ⟨_, _, e1, e2, ?_⟩
      unfold arithN
      rw [hop', h1, h2]
      simp only [Bool.false_eq_true, if_false, Bool.not_true, Bool.or_self]
      unfold arith
      rw [hop', h1, h2, e1, e2]
      simp only [List.mem_cons, List.not_mem_nil, or_false] at hop
      rcases hop with rfl | rfl | rfl | rfl <;> rfl

/-- `n * 2` and `"a" * 2`. -/
example : letI := toyRt.toRt
    (evalCalcN notesEnv 20 t!"n * 2 & 1").notes = [] ∧ evalCalc notesEnv 20 t!"n * 2 & 1" = .ok t!"\"141\"" ∧
    (evalCalcN notesEnv 20 t!"\"a\" * 2 & 1").notes = [.notNumbers] ∧
    evalCalc notesEnv 20 t!"\"a\" * 2 & 1" = .ok t!"\"undefined1\"" := by
  let := toyRt.toRt
  exact ⟨by decide +kernel, by decide +kernel, by decide +kernel, by decide +kernel⟩

/-! ### C129 -/

/-- C129: a calculation without colons is never reported for one. -/
theorem no_colon_not_reported [Rt] (env : CalcEnv) (fuel : Nat) (s : Str) (hs : ':' ∉ s) :
    Note.invalidColon ∉ (evalCalcN env fuel s).notes := by
  have : AllNotes (· ≠ .invalidColon) (evalCalcN env fuel s) := by
    unfold evalCalcN
    refine .bind (calcLexN_all _ s _ _ _ (fun h => absurd h hs)) fun _ _ => .bind (.quiet _) fun _ _ => ?_
    exact evalNodeN_all (fun v => operandValN_all _ env (fun _ _ _ h => nomatch h) fuel v) (fun h => nomatch h) _
  exact fun h => this _ h rfl

/-- C129 for the first colon of a calculation, outside of quotes: if it is not followed by another colon, it is reported. Missing:
later colons, see the next theorem. -/
theorem single_colon_reported_partial [Rt] (env : CalcEnv) (fuel : Nat) (before after : Str) (hb : ':' ∉ before)
    (hq : '"' ∉ before) (ha : after.head? ≠ some ':') (ts : List Tok) (hts : lexCalc (before ++ ':' :: after) = .ok ts) :
    Note.invalidColon ∈ (evalCalcN env fuel (before ++ ':' :: after)).notes := by
  unfold evalCalcN
  exact noted_mem_bind.mpr (.inl (colon_reported after ha before .normal [] [] ts hb hq (.inl rfl) hts))

/-- The calculation `n + a:bc` crashes, after the report. -/
example : letI := toyRt.toRt
    lexCalc t!"n + a:bc" = .ok [⟨.identifier, t!"n"⟩, ⟨.plus, []⟩, ⟨.identifier, t!"a:::c"⟩] ∧
    (evalCalcN notesEnv 20 t!"n + a:bc").notes = [.invalidColon] ∧
    evalCalc notesEnv 20 t!"n + a:bc" = .error (.panic .index) := by
  let := toyRt.toRt
  exact ⟨by decide +kernel, by decide +kernel, by decide +kernel⟩

/-- C129 is false: the third of three colons is taken for a part of the name of the field, without a report. -/
theorem third_colon_not_reported (rt : Rt) : ∃ ts, calcLexN .normal [] [] t!"a:::b" = ⟨[], .ok ts⟩ := ⟨_, rfl⟩

end BurnFm.Props
