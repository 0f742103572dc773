import Verif.Proofs.CalcEval
import Verif.Proofs.TextOrder
import Verif.Props.CalcLex
import Verif.Props.Database

/-! Properties C42-C46: what calculations evaluate to. -/

namespace BurnFm.Props
open Spec

/-! ### C42 -/

/-- C42: an arithmetic expression evaluates to the text of the number it denotes. -/
theorem arithmetic_value [LawfulRt] (env : CalcEnv) (l r : Node Rt.F) (op : TokenType) (x : Rt.F)
    (h : Arith env (.binary l op r) x) (fuel : Nat) (hf : 2 ≤ fuel) :
    evalNode env fuel (.binary l op r) = .ok (Rt.toText x) := by
  obtain ⟨g, rfl⟩ : ∃ g, fuel = g + 2 := ⟨fuel - 2, by omega⟩
  obtain ⟨s, h1, _, h3⟩ := eval_arith h g
  rw [h1, h3 (by simp) (by simp)]

/-- C42, from the text: an arithmetic expression written with single spaces evaluates to the text of the number
it denotes. -/
theorem arithmetic_text_value [LawfulRt] (env : CalcEnv) (l r : Node Rt.F) (op : TokenType) (x : Rt.F)
    (h : Arith env (.binary l op r) x) (ws : List (Str × Tok)) (hw : ∀ w ∈ ws, Word w.1 w.2)
    (hs : Spells .cmp (ws.map (·.2)) (.binary l op r)) (fuel : Nat) (hf : 10 * ws.length + 10 ≤ fuel) :
    evalCalc env fuel (spaced (ws.map (·.1))) = .ok (Rt.toText x) := by
  rw [calc_text_evaluates ws hw _ hs env fuel hf, arithmetic_value env l r op x h fuel (by omega)]

/-- The operand `e` evaluates to a text that is not a number. -/
def NotANumber [Rt] (env : CalcEnv) (fuel : Nat) (e : Node Rt.F) : Prop :=
  ∃ s, evalNode env fuel e = .ok s ∧ (isQuoted s = true ∨ VarName s ∧ varValue env s = none)

/-- C42: if one operand is a string or an unset variable and the other one a number, the result is `undefined`. -/
theorem arithmetic_undefined [LawfulRt] (env : CalcEnv) (ha : Active env) (l r : Node Rt.F) (op : TokenType)
    (hop : op ∈ [TokenType.plus, .minus, .multiply, .divide]) (fuel : Nat) (hf : 2 ≤ fuel)
    (h : (NotANumber env fuel l ∧ ∃ y, Arith env r y) ∨ ((∃ x, Arith env l x) ∧ NotANumber env fuel r) ∨
      (NotANumber env fuel l ∧ NotANumber env fuel r)) :
    evalNode env fuel (.binary l op r) = .ok t!"undefined" := by
  obtain ⟨g, rfl⟩ : ∃ g, fuel = g + 2 := ⟨fuel - 2, by omega⟩
  have hnum : ∀ e, (∃ x, Arith env e x) → ∃ s, evalNode env (g + 2) e = .ok s ∧
      operandVal env (g + 2) s = .ok ⟨s, true⟩ := by
    rintro e ⟨x, hx⟩
    obtain ⟨s, h1, h2, _⟩ := eval_arith hx g
    exact ⟨s, h1, operand_number env (parseF64_isFloat h2) _⟩
  have hnan : ∀ e, NotANumber env (g + 2) e → ∃ s v, evalNode env (g + 2) e = .ok s ∧
      operandVal env (g + 2) s = .ok ⟨v, false⟩ := by
    rintro e ⟨s, h1, h2 | ⟨h2, h3⟩⟩
    · exact ⟨s, s, h1, operand_quoted env h2 _⟩
    · exact ⟨s, _, h1, operand_unset h2 ha h3 _⟩
  have hop' : (!isAdditive op && !isMultiplicative op) = false := by
    simp only [List.mem_cons, List.not_mem_nil, or_false] at hop
    rcases hop with rfl | rfl | rfl | rfl <;> rfl
  rcases h with ⟨h1, h2⟩ | ⟨h1, h2⟩ | ⟨h1, h2⟩
  · obtain ⟨s, v, h3, h4⟩ := hnan _ h1
    obtain ⟨w, h5, h6⟩ := hnum _ h2
    rw [evalNode, h3, ev_ok_bind, h5, ev_ok_bind, h4, ev_ok_bind, h6, ev_ok_bind]
    simp [arith, hop', pure, Except.pure]
  · obtain ⟨s, v, h3, h4⟩ := hnan _ h2
    obtain ⟨w, h5, h6⟩ := hnum _ h1
    rw [evalNode, h5, ev_ok_bind, h3, ev_ok_bind, h6, ev_ok_bind, h4, ev_ok_bind]
    simp [arith, hop', pure, Except.pure]
  · obtain ⟨s, v, h3, h4⟩ := hnan _ h1
    obtain ⟨w, u, h5, h6⟩ := hnan _ h2
    rw [evalNode, h3, ev_ok_bind, h5, ev_ok_bind, h4, ev_ok_bind, h6, ev_ok_bind]
    simp [arith, hop', pure, Except.pure]

/-! ### C43 -/

/-- C43 for `==` and `!=`: they compare the numbers. Missing: the order comparisons, see the next two theorems. -/
theorem number_equality_partial [LawfulRt] (env : CalcEnv) (x y : Rt.F) (fuel : Nat) :
    (evalNode env fuel (.comparison (.number x) .eq (.number y)) = .ok t!"true" ↔ x = y) ∧
    (evalNode env fuel (.comparison (.number x) .neq (.number y)) = .ok t!"true" ↔ x ≠ y) := by
  have h : ∀ op, isComparison op = true → evalNode env fuel (.comparison (.number x) op (.number y)) =
      compareTexts op (Rt.toText x) (Rt.toText y) := by
    intro op hop
    rw [evalNode, if_pos hop, evalNode, evalNode]
    rfl
  rw [h .eq rfl, h .neq rfl]
  have hb : ∀ b : Bool, (pure (boolText b) : Ev Str) = .ok t!"true" ↔ b = true := by
    intro b; cases b <;> simp [boolText, pure, Except.pure]
  constructor
  · show (pure _ : Ev Str) = _ ↔ _
    rw [hb, beq_iff_eq]
    exact ⟨toText_inj, fun h => h ▸ rfl⟩
  · show (pure _ : Ev Str) = _ ↔ _
    rw [hb, bne_iff_ne]
    exact ⟨fun h e => h (e ▸ rfl), fun h e => h (toText_inj e)⟩

/-- C43 for natural numbers with equally many digits: all six comparisons are right. -/
theorem natural_comparison_partial [LawfulRt] (env : CalcEnv) (n m : Nat) (hn : n ≤ 2 ^ 53) (hm : m ≤ 2 ^ 53)
    (hl : (Nat.toDigits 10 n).length = (Nat.toDigits 10 m).length) (op : TokenType)
    (hop : op ∈ [TokenType.eq, .neq, .lt, .ltq, .gt, .gtq]) (fuel : Nat) :
    evalNode env fuel (.comparison (numeral n) op (numeral m)) = .ok (boolText (natCompare op n m)) := by
  have hc : isComparison op = true := by
    simp only [List.mem_cons, List.not_mem_nil, or_false] at hop
    rcases hop with rfl | rfl | rfl | rfl | rfl | rfl <;> rfl
  rw [eval_compare_numerals env fuel hn hm hc]
  have hle : strLe (Nat.toDigits 10 n) (Nat.toDigits 10 m) = decide (n ≤ m) := by
    rw [Bool.eq_iff_iff, decide_eq_true_iff]; exact strLe_nat hl
  have hge : strLe (Nat.toDigits 10 m) (Nat.toDigits 10 n) = decide (m ≤ n) := by
    rw [Bool.eq_iff_iff, decide_eq_true_iff]; exact strLe_nat hl.symm
  have heq : (Nat.toDigits 10 n == Nat.toDigits 10 m) = (n == m) := by
    rw [Bool.eq_iff_iff, beq_iff_eq, beq_iff_eq]
    exact ⟨toDigits_inj, fun h => h ▸ rfl⟩
  simp only [List.mem_cons, List.not_mem_nil, or_false] at hop
  rcases hop with rfl | rfl | rfl | rfl | rfl | rfl
  · simp only [compareTexts, natCompare, heq]; rfl
  · simp only [compareTexts, natCompare, bne, heq]; rfl
  · simp only [compareTexts, natCompare, hge]; rw [← decide_not]; simp only [Nat.not_le]; rfl
  · simp only [compareTexts, natCompare, hle]; rfl
  · simp only [compareTexts, natCompare, hle]; rw [← decide_not]; simp only [Nat.not_le]; rfl
  · simp only [compareTexts, natCompare, hge]; rfl

/-- C43, exactly, for natural numbers: they are compared as if their digits were those of decimal fractions. -/
theorem natural_comparison_exact [LawfulRt] (env : CalcEnv) (n m : Nat) (hn : n ≤ 2 ^ 53) (hm : m ≤ 2 ^ 53) (op : TokenType)
    (hop : op ∈ [TokenType.eq, .neq, .lt, .ltq, .gt, .gtq]) (fuel : Nat) :
    evalNode env fuel (.comparison (numeral n) op (numeral m)) = .ok (boolText (fractionCompare op n m)) := by
  have hc : isComparison op = true := by
    simp only [List.mem_cons, List.not_mem_nil, or_false] at hop
    rcases hop with rfl | rfl | rfl | rfl | rfl | rfl <;> rfl
  rw [eval_compare_numerals env fuel hn hm hc]
  have heq : (Nat.toDigits 10 n == Nat.toDigits 10 m) = (n == m) := by
    rw [Bool.eq_iff_iff, beq_iff_eq, beq_iff_eq]
    exact ⟨toDigits_inj, fun h => h ▸ rfl⟩
  simp only [List.mem_cons, List.not_mem_nil, or_false] at hop
  rcases hop with rfl | rfl | rfl | rfl | rfl | rfl
  · simp only [compareTexts, fractionCompare, heq]; rfl
  · simp only [compareTexts, fractionCompare, bne, heq]; rfl
  all_goals simp only [compareTexts, fractionCompare, strLe_nat_fraction]; rfl

/-- C43: a number with fewer digits than another one is found to be less than it exactly if it is at most the number that the
other one begins with. -/
theorem shorter_natural_less_iff [LawfulRt] (env : CalcEnv) (n m : Nat) (hn : n ≤ 2 ^ 53) (hm : m ≤ 2 ^ 53)
    (hl : digitCount n < digitCount m) (fuel : Nat) :
    n < m ∧ (evalNode env fuel (.comparison (numeral n) .lt (numeral m)) = .ok t!"true" ↔
      n ≤ m / 10 ^ (digitCount m - digitCount n)) := by
  have hp : 10 ^ digitCount m = 10 ^ digitCount n * 10 ^ (digitCount m - digitCount n) := by
    rw [← Nat.pow_add]; congr 1; omega
  have pn : 0 < 10 ^ digitCount n := Nat.pow_pos (by omega)
  have pd : 0 < 10 ^ (digitCount m - digitCount n) := Nat.pow_pos (by omega)
  constructor
  · refine Nat.lt_of_not_le fun h => ?_
    have h1 := (Nat.length_toDigits_le_iff (b := 10) (n := n) (by decide) (Nat.length_toDigits_pos (b := 10) (n := n))).mp
      (Nat.le_refl _)
    have h2 := (Nat.length_toDigits_le_iff (b := 10) (n := m) (by decide) (Nat.length_toDigits_pos (b := 10) (n := n))).mpr
      (Nat.lt_of_le_of_lt h h1)
    unfold digitCount at hl
    omega
  · rw [natural_comparison_exact env n m hn hm .lt (by decide) fuel]
    have hb : ∀ b : Bool, ((.ok (boolText b) : Ev Str) = .ok t!"true") ↔ b = true := by
      intro b; cases b <;> simp [boolText]
    rw [hb, fractionCompare, Bool.not_eq_true', decide_eq_false_iff_not, FractionLe, hp, Nat.le_div_iff_mul_le pd,
      show n * (10 ^ digitCount n * 10 ^ (digitCount m - digitCount n)) =
        n * 10 ^ (digitCount m - digitCount n) * 10 ^ digitCount n by ac_rfl,
      Nat.mul_lt_mul_right pn, Nat.mul_left_inj (Nat.ne_of_gt pn)]
    omega

/-- C43 is false: `10 < 9` is `true`, although 10 is greater than 9. -/
theorem ten_less_than_nine [LawfulRt] (env : CalcEnv) (fuel : Nat) :
    evalNode env fuel (.comparison (numeral 10) .lt (numeral 9)) = .ok t!"true" ∧
    Rt.cmp (Rt.ofText (Nat.toDigits 10 10)) (Rt.ofText (Nat.toDigits 10 9)) = some .gt := by
  refine ⟨?_, ?_⟩
  · rw [eval_compare_numerals env fuel (by decide) (by decide) rfl]
    decide
  · rw [LawfulRt.nat_cmp 10 9 (by decide) (by decide)]
    decide

/-- C43 is false for infinitely many pairs: every power of ten is `less` than 9. -/
theorem powers_less_than_nine [LawfulRt] (env : CalcEnv) (n : Nat) (hn : n ≤ 2 ^ 53)
    (h : (Nat.toDigits 10 n).head? = some '1') (fuel : Nat) :
    evalNode env fuel (.comparison (numeral n) .lt (numeral 9)) = .ok t!"true" := by
  rw [eval_compare_numerals env fuel hn (by decide) rfl]
  cases hd : Nat.toDigits 10 n with
  | nil => rw [hd] at h; cases h
  | cons c s =>
    rw [hd] at h
    simp only [List.head?_cons, Option.some.injEq] at h
    subst h
    show (pure (boolText (!strLe (Nat.toDigits 10 9) ('1' :: s))) : Ev Str) = _
    have h9 : Nat.toDigits 10 9 = ['9'] := by decide
    have : strLe (Nat.toDigits 10 9) ('1' :: s) = false := by rw [h9]; simp [strLe]
    rw [this]; rfl

/-! ### C44 -/

/-- C44: `a & b` is the quoted concatenation of the operands' texts without their quotes. -/
theorem concatenation_joins [Rt] (env : CalcEnv) (fuel : Nat) (l r : Node Rt.F) (a b : Str)
    (hl : evalNode env fuel l = .ok a) (hr : evalNode env fuel r = .ok b) :
    evalNode env fuel (.concatenation l r) = .ok ('"' :: (unquoted a ++ unquoted b) ++ ['"']) := by
  rw [evalNode, hl, ev_ok_bind, hr, ev_ok_bind]
  rfl

/-- C44: concatenation is associative, also when an operand panics. -/
theorem concatenation_assoc [Rt] (env : CalcEnv) (fuel : Nat) (x y z : Node Rt.F) :
    evalNode env fuel (.concatenation (.concatenation x y) z) =
      evalNode env fuel (.concatenation x (.concatenation y z)) := by
  rw [evalNode, evalNode, evalNode, evalNode]
  cases evalNode env fuel x with
  | error e => rfl
  | ok a =>
    cases evalNode env fuel y with
    | error e => rfl
    | ok b =>
      cases evalNode env fuel z with
      | error e => rfl
      | ok c =>
        simp only [ev_ok_bind, pure, Except.pure]
        simp [concatTexts, dropQuotes, ev_ok_bind]

/-! ### C45 -/

/-- C45 for numbers and quoted texts: the variable evaluates to the value it holds. Missing: other values, such
as `true`, `false` and `undefined`; see the next two theorems. -/
theorem variable_reads_back_partial [Rt] (env : CalcEnv) (x v : Str) (hx : VarName x)
    (hv : varValue env x = some v) (hn : isFloatText v = true ∨ isQuoted v = true) (fuel : Nat) (hf : 2 ≤ fuel) :
    evalNode env fuel (.variable x) = .ok v := by
  obtain ⟨g, rfl⟩ : ∃ g, fuel = g + 2 := ⟨fuel - 2, by omega⟩
  rw [evalNode, operand_var hx hv]
  rcases hn with h | h
  · rw [operand_number env h]; rfl
  · rw [operand_quoted env h]; rfl

/-- C45 is false: a variable that holds any other text, for example the result `true` of a comparison, is read
as the empty text, because its value is taken for the name of another variable. -/
theorem boolean_variable_reads_empty [Rt] (env : CalcEnv) (ha : Active env) (x v : Str) (hx : VarName x)
    (hv : varValue env x = some v) (hn : VarName v) (hu : varValue env v = none) (fuel : Nat) (hf : 2 ≤ fuel) :
    evalNode env fuel (.variable x) = .ok [] := by
  obtain ⟨g, rfl⟩ : ∃ g, fuel = g + 2 := ⟨fuel - 2, by omega⟩
  rw [evalNode, operand_var hx hv, operand_unset hn ha hu]
  rfl

/-- C45 is false: after `set_variable(true, 1 == 1)` reading `true` never ends. -/
theorem self_named_variable_diverges [Rt] (env : CalcEnv) (x : Str) (hx : VarName x) (hv : varValue env x = some x)
    (fuel : Nat) : evalNode env fuel (.variable x) = .error .fuel := by
  have : ∀ fuel, operandVal env fuel x = .error .fuel := by
    intro fuel
    induction fuel with
    | zero => rfl
    | succ n ih => rw [operand_var hx hv, ih]
  rw [evalNode, this]
  rfl

/-! ### C46 -/

/-- C46 for the current occurrence, if the field holds a number or a quoted text. Missing: other occurrences,
see the next two theorems, and values that are neither, which are taken for the names of variables as in C45. -/
theorem field_reads_current_partial [Rt] (env : CalcEnv) (occ f v : Str) (ho : PlainName occ) (hf : PlainName f)
    (hq : isQuoted (occ ++ t!"::" ++ f) = false)
    (hcur : SMap.get env.db.indices occ = some env.db.handle)
    (hv : OccurrenceValue env.db occ f v) (hn : isFloatText v = true ∨ isQuoted v = true) (fuel : Nat)
    (hfuel : 2 ≤ fuel) : evalNode env fuel (.field (occ ++ t!"::" ++ f)) = .ok v := by
  obtain ⟨g, rfl⟩ : ∃ g, fuel = g + 2 := ⟨fuel - 2, by omega⟩
  obtain ⟨i, hi, hval⟩ := hv
  rw [hcur] at hi
  injection hi with hi
  subst hi
  rw [evalNode, operand_field ho hf hq, foundSet_value hval]
  simp only [liftR, ev_ok_bind]
  rcases hn with h | h
  · rw [operand_number env h]; rfl
  · rw [operand_quoted env h]; rfl

/-- The name of the occurrence makes no difference to a field reference. -/
theorem occurrence_name_ignored [Rt] (env : CalcEnv) (occ occ' f : Str) (ho : PlainName occ) (ho' : PlainName occ')
    (hf : PlainName f) (hq : isQuoted (occ ++ t!"::" ++ f) = false) (hq' : isQuoted (occ' ++ t!"::" ++ f) = false)
    (fuel : Nat) :
    evalNode env fuel (.field (occ ++ t!"::" ++ f)) = evalNode env fuel (.field (occ' ++ t!"::" ++ f)) := by
  rw [evalNode, evalNode]
  cases fuel with
  | zero => rfl
  | succ g => rw [operand_field ho hf hq, operand_field ho' hf hq']

section Example
attribute [local instance] toyRt

/-- The example database, with `others` (over `person`) current and on its first record; one script is running,
with the variables `n`, `s` and `b`. -/
def sampleDb : Database := match petState.gotoFirst with | .ok db => db | .error _ => {}

def sampleEnv : CalcEnv :=
  { db := sampleDb, depth := 1, vars := [[(t!"n", t!"5"), (t!"s", t!"\"hi\""), (t!"b", t!"true")]] }

theorem sampleDb_reachable : Reachable .debug sampleDb := by
  refine ⟨petSchema, petDb, petHistory ++ [.first], petDb_generated, ?_⟩
  unfold runOps
  rw [List.foldlM_append]
  show (runOps .debug petDb petHistory >>= _) = _
  rw [petState_runs]
  set_option maxRecDepth 20000 in rfl

/-- `(n + 2) * 3` is 21. -/
example : evalNode sampleEnv 10 (.binary (.binary (.variable t!"n") .plus (.number (toyOfText t!"2"))) .multiply
    (.number (toyOfText t!"3"))) = .ok t!"21" :=
  arithmetic_value sampleEnv _ _ _ (toyOfText t!"21")
    (.op (x := toyOfText t!"7") (y := toyOfText t!"3") (by decide)
      (.op (x := toyOfText t!"5") (y := toyOfText t!"2") (by decide)
        (.variable (v := t!"5") ⟨by decide, by decide, by decide⟩ (by decide) (by rfl)) .number) .number) 10 (by decide)

/-- `"hi" * 3` is undefined. -/
example : evalNode sampleEnv 10 (.binary (.stringLiteral t!"\"hi\"") .multiply (.number (toyOfText t!"3"))) =
    .ok t!"undefined" :=
  arithmetic_undefined sampleEnv ⟨0, _, rfl, rfl⟩ _ _ _ (by decide) 10 (by decide)
    (.inl ⟨⟨_, rfl, .inl (by decide)⟩, _, .number⟩)

example (env : CalcEnv) : evalNode env 10 (.comparison (numeral 120) .lt (numeral 119)) = .ok t!"false" :=
  natural_comparison_partial env 120 119 (by decide) (by decide) (by decide) .lt (by decide) 10

/-- `25 <= 13000` is `false`, `0.25 ≤ 0.13000` being false. -/
example (env : CalcEnv) : evalNode env 10 (.comparison (numeral 25) .ltq (numeral 13000)) = .ok t!"false" :=
  natural_comparison_exact env 25 13000 (by decide) (by decide) .ltq (by decide) 10

/-- `13 < 13000` is `true`, 13 being what 13000 begins with. -/
example (env : CalcEnv) : evalNode env 10 (.comparison (numeral 13) .lt (numeral 13000)) = .ok t!"true" :=
  (shorter_natural_less_iff env 13 13000 (by decide) (by decide) (by decide) 10).2.mpr (by decide)

example (env : CalcEnv) : evalNode env 10 (.comparison (numeral 1000) .lt (numeral 9)) = .ok t!"true" :=
  powers_less_than_nine env 1000 (by decide) (by decide) 10

example : evalNode sampleEnv 10 (.concatenation (.variable t!"s") (.number (toyOfText t!"3"))) =
    .ok t!"\"hi3\"" := concatenation_joins sampleEnv 10 _ _ t!"\"hi\"" t!"3" (by decide) (by rfl)

example : evalNode sampleEnv 10 (.variable t!"s") = .ok t!"\"hi\"" :=
  variable_reads_back_partial sampleEnv _ _ ⟨by decide, by decide, by decide⟩ (by decide) (.inr (by decide)) 10 (by decide)

/-- `b` holds `true` and is read as nothing. -/
example : evalNode sampleEnv 10 (.variable t!"b") = .ok [] :=
  boolean_variable_reads_empty sampleEnv ⟨0, _, rfl, rfl⟩ _ t!"true" ⟨by decide, by decide, by decide⟩ (by decide)
    ⟨by decide, by decide, by decide⟩ (by decide) 10 (by decide)

example : ∀ fuel, evalNode { db := {}, depth := 1, vars := [[(t!"true", t!"true")]] } fuel (.variable t!"true") =
    .error .fuel :=
  self_named_variable_diverges _ _ ⟨by decide, by decide, by decide⟩ (by decide)

/-- A reachable state whose current record, of `people`, has a number in `id`. -/
def peopleDb : Database := sampleDb.setCurrentOccurrence 1

set_option maxRecDepth 20000 in
theorem people_id : OccurrenceValue sampleDb t!"people" t!"id" t!"7" :=
  ⟨1, by decide, (sampleDb.occs[1]?).getD {}, (sampleDb.tables[1]?).getD {}, 1, _, by decide, by decide, by decide,
    by rfl, by decide⟩

set_option maxRecDepth 20000 in
example : evalNode { sampleEnv with db := peopleDb } 10 (.field t!"people::id") = .ok t!"7" :=
  field_reads_current_partial { sampleEnv with db := peopleDb } t!"people" t!"id" t!"7" (by decide) (by decide)
    (by decide) (by decide)
    ⟨1, by decide, (sampleDb.occs[1]?).getD {}, (sampleDb.tables[1]?).getD {}, 1, _, by decide, by decide, by decide,
      by rfl, by decide⟩ (.inl (by decide)) 10 (by decide)

set_option maxRecDepth 20000 in
/-- C46 is false: in a reachable state the current record of `people` has `id` 7, but `people::id` evaluates to
the empty text, the value of `id` in the current record of the current occurrence `others`. -/
theorem field_reference_refuted : ∃ db, Reachable .debug db ∧ OccurrenceValue db t!"people" t!"id" t!"7" ∧
    evalNode { sampleEnv with db := db } 10 (.field t!"people::id") = .ok [] :=
  ⟨sampleDb, sampleDb_reachable, people_id, by decide⟩

end Example

end BurnFm.Props
