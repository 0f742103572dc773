import Verif.Proofs.CalcCall
import Verif.Proofs.CalcReading
import Verif.Spec.ToyRuntime

/-! Properties C38-C40: the calculation parser. -/

namespace BurnFm.Props
open Spec

/-! ### C38 -/

/-- C38: tokens that spell an expression in the documented grammar are parsed to exactly that expression. -/
theorem calc_parses_grammar [Rt] (ts : List Tok) (e : Node Rt.F) (h : Spells .cmp ts e) (fuel : Nat)
    (hf : 10 * ts.length + 10 ≤ fuel) : parseCalc fuel ts = .ok e := spells_parseCalc h hf

/-- Parentheses make an expression usable at any level. -/
theorem spells_paren [Rt] {ts : List Tok} {e : Node Rt.F} (h : Spells .cmp ts e) (l : Level) :
    Spells l (parenIf true ts) e := by
  have hf : Spells .factor (parenIf true ts) e := .paren h
  cases l
  · exact hf
  · exact .ofFactor hf
  · exact .ofTerm (.ofFactor hf)
  · exact .ofExpr (.ofTerm (.ofFactor hf))
  · exact .ofConcat (.ofExpr (.ofTerm (.ofFactor hf)))

/-- The loosest level covers all others. -/
theorem spells_cmp [Rt] {l : Level} {ts : List Tok} {e : Node Rt.F} (h : Spells l ts e) : Spells .cmp ts e := by
  cases l
  · exact .ofConcat (.ofExpr (.ofTerm (.ofFactor h)))
  · exact .ofConcat (.ofExpr (.ofTerm h))
  · exact .ofConcat (.ofExpr h)
  · exact .ofConcat h
  · exact h

theorem spells_factor [Rt] {ts : List Tok} {e : Node Rt.F} (h : Spells .factor ts e) (l : Level) : Spells l ts e := by
  cases l
  · exact h
  · exact .ofFactor h
  · exact .ofTerm (.ofFactor h)
  · exact .ofExpr (.ofTerm (.ofFactor h))
  · exact .ofConcat (.ofExpr (.ofTerm (.ofFactor h)))

/-- C38: every call-free expression can be written, with parentheses only where needed. -/
theorem render_spells [LawfulRt] (e : Node Rt.F) (h : Expression e) (l : Level) : Spells l (render l e) e := by
  induction h generalizing l with
  | @number x =>
    exact spells_factor (.number (by
      unfold parseF64; rw [if_pos (LawfulRt.text_isFloat x), LawfulRt.parse_text])) l
  | «variable» hs => exact spells_factor (.variable hs) l
  | field ht hf => exact spells_factor (.field ht hf) l
  | string => exact spells_factor .string l
  | @arith x y op hop _ _ ihx ihy =>
    simp only [List.mem_cons, List.not_mem_nil, or_false] at hop
    unfold render
    by_cases hm : op = .multiply ∨ op = .divide
    · rw [if_pos hm]
      have := Spells.mul hm (ihx .term) (ihy .factor)
      by_cases hr : l.rank < 1
      · rw [decide_eq_true hr]; exact spells_paren (spells_cmp this) l
      · rw [decide_eq_false hr]
        simp only [parenIf, Bool.false_eq_true, if_false]
        cases l
        · simp [Level.rank] at hr
        · exact this
        · exact .ofTerm this
        · exact .ofExpr (.ofTerm this)
        · exact .ofConcat (.ofExpr (.ofTerm this))
    · rw [if_neg hm]
      have ha : op = .plus ∨ op = .minus := by
        rcases hop with h | h | h | h
        · exact .inl h
        · exact .inr h
        · exact absurd (.inl h) hm
        · exact absurd (.inr h) hm
      have := Spells.add ha (ihx .expr) (ihy .term)
      by_cases hr : l.rank < 2
      · rw [decide_eq_true hr]; exact spells_paren (spells_cmp this) l
      · rw [decide_eq_false hr]
        simp only [parenIf, Bool.false_eq_true, if_false]
        cases l
        · simp [Level.rank] at hr
        · simp [Level.rank] at hr
        · exact this
        · exact .ofExpr this
        · exact .ofConcat (.ofExpr this)
  | @concatenate x y _ _ ihx ihy =>
    unfold render
    have := Spells.concatenate (ihx .concat) (ihy .expr)
    by_cases hr : l.rank < 3
    · rw [decide_eq_true hr]; exact spells_paren (spells_cmp this) l
    · rw [decide_eq_false hr]
      simp only [parenIf, Bool.false_eq_true, if_false]
      cases l
      · simp [Level.rank] at hr
      · simp [Level.rank] at hr
      · simp [Level.rank] at hr
      · exact this
      · exact .ofConcat this
  | @compare x y op hop _ _ ihx ihy =>
    unfold render
    have := Spells.compare hop (ihx .cmp) (ihy .concat)
    by_cases hr : l.rank < 4
    · rw [decide_eq_true hr]; exact spells_paren (spells_cmp this) l
    · rw [decide_eq_false hr]
      simp only [parenIf, Bool.false_eq_true, if_false]
      cases l
      · simp [Level.rank] at hr
      · simp [Level.rank] at hr
      · simp [Level.rank] at hr
      · simp [Level.rank] at hr
      · exact this

/-- C38: writing a call-free expression with parentheses where needed and parsing it gives it back. -/
theorem calc_round_trip [LawfulRt] (e : Node Rt.F) (h : Expression e) (fuel : Nat)
    (hf : 10 * (render .cmp e).length + 10 ≤ fuel) : parseCalc fuel (render .cmp e) = .ok e :=
  spells_parseCalc (render_spells e h .cmp) hf

/-- C38: no token sequence spells two expressions. -/
theorem grammar_unambiguous [Rt] (ts : List Tok) (e e' : Node Rt.F) (h : Spells .cmp ts e) (h' : Spells .cmp ts e') :
    e = e' := by
  have h1 := spells_parseCalc h (Nat.le_refl _)
  rw [spells_parseCalc h' (Nat.le_refl _)] at h1
  injection h1 with h1
  exact h1.symm

section Example
attribute [local instance] toyRt

/-- `(a + 2) * b & T::f == "x"` -/
def sampleExpr : Node Rt.F :=
  .comparison (.concatenation (.binary (.binary (.variable t!"a") .plus (.number (Rt.ofText t!"2"))) .multiply
    (.variable t!"b")) (.field t!"T::f")) .eq (.stringLiteral t!"\"x\"")

theorem sampleExpr_expression : Expression sampleExpr :=
  .compare (by decide) (.concatenate (.arith (by decide) (.arith (by decide) (.variable (by decide)) .number)
    (.variable (by decide))) (.field (t := t!"T") (f := t!"f") (by decide) (by decide))) .string

example : (render .cmp sampleExpr).map (·.ty) = [.openParen, .identifier, .plus, .numericLiteral, .closeParen,
    .multiply, .identifier, .ampersand, .identifier, .eq, .string] := by decide

example : parseCalc 200 (render .cmp sampleExpr) = .ok sampleExpr :=
  calc_round_trip _ sampleExpr_expression _ (by decide)

end Example

/-! ### C39 -/

/-- C39: if the last token is not an opening parenthesis, the parser returns or panics; its recursion is never
deeper than ten times the number of tokens, plus ten. Missing: token sequences that end in an opening
parenthesis, see `calc_parser_diverges`. -/
theorem calc_parser_terminates_partial [Rt] (ts : List Tok)
    (hlast : ∀ t, ts.getLast? = some t → t.ty ≠ .openParen) (fuel : Nat) (hf : 10 * ts.length + 10 ≤ fuel) :
    parseCalc fuel ts ≠ .error .fuel := parseCalc_bounded ts hlast hf

/-- C39 is false: after any arithmetic expression followed by `+ (` the parser calls itself without end. -/
theorem calc_parser_diverges [Rt] (ts : List Tok) (e : Node Rt.F) (h : Spells .expr ts e) (fuel : Nat) :
    parseCalc fuel (ts ++ [sym .plus, sym .openParen]) = .error .fuel := open_paren_diverges h fuel

/-- C39, exactly: the parser does not end if and only if it comes to an opening parenthesis that is the last token, where it needs an
operand. -/
theorem calc_parser_hangs_iff [Rt] (ts : List Tok) : (∀ fuel, parseCalc fuel ts = .error .fuel) ↔ Comes (some .cmp) ts :=
  ⟨fun h => parseCalc_comes (Nat.le_refl _) (h _), comes_parseCalc⟩

/-- C39, what is true of every token sequence: the parser ends within ten levels of recursion for every token, plus ten, or it
never ends. -/
theorem calc_parser_decided [Rt] (ts : List Tok) (fuel : Nat) (hf : 10 * ts.length + 10 ≤ fuel) :
    (∀ fuel, parseCalc fuel ts = .error .fuel) ∨ parseCalc fuel ts ≠ .error .fuel := by
  by_cases h : parseCalc fuel ts = .error .fuel
  · exact .inl (comes_parseCalc (parseCalc_comes hf h))
  · exact .inr h

/-- More recursion depth does not change a result of the parser. -/
theorem calc_parser_fuel [Rt] (ts : List Tok) (f g : Nat) (hfg : f ≤ g) (r : Ev (Node Rt.F))
    (h : parseCalc f ts = r) (hr : r ≠ .error .fuel) : parseCalc g ts = r := by
  subst h; exact ((parseCalc_mono ts hfg).eq hr).symm

section Example
attribute [local instance] toyRt

/-- `1 + (` -/
example : ∀ fuel, parseCalc fuel [⟨.numericLiteral, t!"1"⟩, sym .plus, sym .openParen] = .error .fuel :=
  calc_parser_diverges [⟨.numericLiteral, t!"1"⟩] (.number (Rt.ofText t!"1")) (.ofTerm (.ofFactor (.number (by rfl))))

/-- `f (` -/
example : ∀ fuel, parseCalc fuel [⟨.identifier, t!"f"⟩, sym .openParen] = .error .fuel :=
  (calc_parser_hangs_iff _).mpr (.first (by decide) (.first (by decide) (.first (by decide) (.first (by decide)
    (.call (by decide) rfl (.firstArgument (.first (by decide) (.first (by decide) (.here rfl)))))))))

/-- `1 (` ends in an opening parenthesis too, but it is not read. -/
example : ¬ ∀ fuel, parseCalc fuel [⟨.numericLiteral, t!"1"⟩, sym .openParen] = .error .fuel := by
  intro h
  have : (match parseCalc 30 [⟨.numericLiteral, t!"1"⟩, sym .openParen] with | .ok _ => true | _ => false) = true := by
    decide +kernel
  rw [h] at this
  cases this

/-- A sequence that is no expression: the parser panics. -/
example : (parseCalc 100 [sym .plus, sym .closeParen] : Ev (Node Rt.F)) ≠ .error .fuel :=
  calc_parser_terminates_partial _ (by intro t ht; simp at ht; subst ht; decide) _ (by decide)

end Example

/-! ### C40 -/

theorem evals_within [Rt] {ts : List Tok} {e : Node Rt.F} (h : Evals (fun f => parseCalc f ts) (.ok e))
    (hlast : ∀ t, ts.getLast? = some t → t.ty ≠ .openParen) {f : Nat} (hf : 10 * ts.length + 10 ≤ f) :
    parseCalc f ts = .ok e := by
  obtain ⟨n, hn⟩ := h
  have h1 := parseCalc_mono ts (show f ≤ max f n by omega)
  rw [show parseCalc (max f n) ts = .ok e from hn _ (by omega)] at h1
  exact h1.eq (parseCalc_bounded ts hlast hf)

/-- C40 for a call with one argument that is the whole calculation. Missing: calls with several arguments and
calls inside larger expressions, which are parsed wrongly, see the next three theorems. -/
theorem call_one_argument_partial [Rt] (name : Str) (hname : PlainName name) (ts : List Tok) (e : Node Rt.F)
    (h : Spells .cmp ts e) (fuel : Nat) (hf : 10 * (ts.length + 3) + 10 ≤ fuel) :
    parseCalc fuel (⟨.identifier, name⟩ :: sym .openParen :: ts ++ [sym .closeParen]) = .ok (.call name [e]) := by
  refine evals_within (call_takes hname (.ofTerm (.ofFactor (.paren h))) rfl) ?_ (by simp; omega)
  intro t ht
  rw [List.getLast?_cons, List.getLast?_append] at ht
  simp at ht
  subst ht; simp [sym]

/-- C40 is false: with two arguments the second one is lost. -/
theorem call_loses_second_argument [Rt] (name : Str) (hname : PlainName name) (ts : List Tok) (e : Node Rt.F)
    (h : Spells .cmp ts e) (b : Str) (fuel : Nat) (hf : 10 * (ts.length + 5) + 10 ≤ fuel) :
    parseCalc fuel (⟨.identifier, name⟩ :: sym .openParen :: ts ++
      [sym .comma, ⟨.identifier, b⟩, sym .closeParen]) = .ok (.call name [e]) := by
  refine evals_within (call_first hname h (b := ⟨.identifier, b⟩) (.inl rfl)) ?_ (by simp; omega)
  intro t ht
  rw [show (⟨.identifier, name⟩ :: sym .openParen :: ts ++ [sym .comma, ⟨.identifier, b⟩, sym .closeParen]) =
    (⟨.identifier, name⟩ :: sym .openParen :: ts ++ [sym .comma, ⟨.identifier, b⟩]) ++ [sym .closeParen] by simp] at ht
  rw [List.getLast?_append] at ht
  simp at ht
  subst ht; simp [sym]

/-- C40 is false: what is added to or subtracted from a call becomes part of its argument. -/
theorem call_takes_following_sum [Rt] (name : Str) (hname : PlainName name) (ts ts' : List Tok) (e e' : Node Rt.F)
    (h : Spells .cmp ts e) (h' : Spells .term ts' e') (fuel : Nat) (hf : 10 * (ts.length + ts'.length + 4) + 10 ≤ fuel) :
    parseCalc fuel (⟨.identifier, name⟩ :: sym .openParen :: ts ++ sym .closeParen :: sym .plus :: ts') =
      .ok (.call name [.binary e .plus e']) := by
  have hs : Spells .expr ((sym .openParen :: ts ++ [sym .closeParen]) ++ sym .plus :: ts') (.binary e .plus e') :=
    .add (.inl rfl) (.ofTerm (.ofFactor (.paren h))) h'
  have hE : (⟨.identifier, name⟩ :: sym .openParen :: ts ++ sym .closeParen :: sym .plus :: ts' : List Tok) =
      ⟨.identifier, name⟩ :: ((sym .openParen :: ts ++ [sym .closeParen]) ++ sym .plus :: ts') := by simp
  rw [hE]
  refine evals_within (call_takes hname hs (by simp)) ?_ (by simp; omega)
  intro t ht hty
  obtain ⟨i, t', hi, he⟩ := spells_last h'
  rw [hi] at ht
  rw [show (⟨.identifier, name⟩ :: ((sym .openParen :: ts ++ [sym .closeParen]) ++ sym .plus :: (i ++ [t']))) =
    (⟨.identifier, name⟩ :: ((sym .openParen :: ts ++ [sym .closeParen]) ++ sym .plus :: i)) ++ [t'] by simp,
    List.getLast?_append] at ht
  simp at ht
  subst ht
  rcases he with he | he | he | he <;> rw [he] at hty <;> cases hty

/-- C40 is false: a comparison or concatenation of a call with an operand is lost, the calculation is the call
alone. So `assert(f(e) == v)` checks nothing. -/
theorem call_loses_comparison [Rt] (name : Str) (hname : PlainName name) (ts : List Tok) (e : Node Rt.F)
    (h : Spells .cmp ts e) (op : TokenType) (hop : op = .ampersand ∨ op ∈ [TokenType.eq, .neq, .lt, .ltq, .gt, .gtq])
    (b : Tok) (hb : b.ty ∈ [TokenType.identifier, .numericLiteral, .string]) (fuel : Nat)
    (hf : 10 * (ts.length + 5) + 10 ≤ fuel) :
    parseCalc fuel (⟨.identifier, name⟩ :: (sym .openParen :: ts ++ [sym .closeParen]) ++ [sym op, b]) =
      .ok (.call name [e]) := by
  have hb' : EndTok b := by
    simp only [List.mem_cons, List.not_mem_nil, or_false] at hb
    rcases hb with h | h | h
    · exact .inl h
    · exact .inr (.inl h)
    · exact .inr (.inr (.inl h))
  refine evals_within (call_drops hname h (op := sym op) ?_ hb') ?_ (by simp; omega)
  · rcases hop with h | h
    · exact .inl h
    · right
      simp only [List.mem_cons, List.not_mem_nil, or_false] at h
      rcases h with rfl | rfl | rfl | rfl | rfl | rfl <;> rfl
  · intro t ht hty
    rw [show (⟨.identifier, name⟩ :: (sym .openParen :: ts ++ [sym .closeParen]) ++ [sym op, b]) =
      (⟨.identifier, name⟩ :: (sym .openParen :: ts ++ [sym .closeParen]) ++ [sym op]) ++ [b] by simp,
      List.getLast?_append] at ht
    simp at ht
    subst ht
    rcases hb' with he | he | he | he <;> rw [he] at hty <;> cases hty

section Example
attribute [local instance] toyRt

/-- `Min(x, y)` is parsed as `Min(x)`. -/
example : (parseCalc 200 [⟨.identifier, t!"Min"⟩, sym .openParen, ⟨.identifier, t!"x"⟩, sym .comma,
    ⟨.identifier, t!"y"⟩, sym .closeParen] : Ev (Node Rt.F)) = .ok (.call t!"Min" [.variable t!"x"]) :=
  call_loses_second_argument _ (by decide) [⟨.identifier, t!"x"⟩] _
    (spells_factor (.variable (by decide)) _) _ _ (by decide)

/-- `Abs(x) == 5` is parsed as `Abs(x)`. -/
example : (parseCalc 200 [⟨.identifier, t!"Abs"⟩, sym .openParen, ⟨.identifier, t!"x"⟩, sym .closeParen,
    sym .eq, ⟨.numericLiteral, t!"5"⟩] : Ev (Node Rt.F)) = .ok (.call t!"Abs" [.variable t!"x"]) :=
  call_loses_comparison _ (by decide) [⟨.identifier, t!"x"⟩] _
    (spells_factor (.variable (by decide)) _) .eq (.inr (by decide)) _ (by decide) _ (by decide)

end Example

end BurnFm.Props
