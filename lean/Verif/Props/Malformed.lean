import Verif.Props.CalcLayout

/-! Property C109: texts that are no calculations. -/

namespace BurnFm.Props
open Spec

section
variable [Rt]

/-- The tokens that cannot follow an expression in any larger expression: names, numbers, strings, and what ends an
argument or a parenthesis. -/
def cannotFollow : List TokenType := [.identifier, .numericLiteral, .string, .comma, .closeParen]

/-- C109 is false: what follows a complete expression is ignored, whatever it is. -/
theorem rest_ignored (ts : List Tok) (e : Node Rt.F) (h : Spells .cmp ts e) (t : Tok) (ht : t.ty ∈ cannotFollow)
    (rest : List Tok) : ∃ n, ∀ fuel, n ≤ fuel → parseCalc fuel (ts ++ t :: rest) = .ok e := by
  have hp : t.ty ≠ .openParen ∧ isMultiplicative t.ty = false ∧ isAdditive t.ty = false ∧ t.ty ≠ .ampersand ∧
      isComparison t.ty = false := by
    simp only [cannotFollow, List.mem_cons, List.not_mem_nil, or_false] at ht
    rcases ht with h | h | h | h | h <;> rw [h] <;> decide
  obtain ⟨u, hc, hu⟩ := current_stop (pre := []) (post := t :: rest) h
  have hut : u = t := by
    rcases hu with ⟨h', _⟩ | ⟨r, hr⟩
    · cases h'
    · injection hr with h1 _; exact h1.symm
  subst hut
  obtain ⟨k, hk⟩ : ∃ k, Evals (fun f => comparisonLoop ([] ++ ts ++ u :: rest) f e
      (stop ([] ++ ts ++ u :: rest) (([] : List Tok).length + ts.length))) (.ok (e, k)) := by
    cases hn : nextIdx ([] ++ ts ++ u :: rest) (stop ([] ++ ts ++ u :: rest) (([] : List Tok).length + ts.length)) with
    | none =>
      refine ⟨stop ([] ++ ts ++ u :: rest) (([] : List Tok).length + ts.length), Evals.succ (Evals.const _) (fun f => ?_)⟩
      rw [comparisonLoop, hc, ev_ok_bind, hn]
      rfl
    | some j =>
      refine ⟨j, Evals.succ (Evals.const _) (fun f => ?_)⟩
      rw [comparisonLoop, hc, ev_ok_bind, hn]
      simp only [hp.2.2.2.2]
      rfl
  have := spells_parses h [] (u :: rest) _ ⟨hp.1, fun _ => hp.2.1, fun _ => hp.2.2.1, fun _ => hp.2.2.2.1⟩ hk
  exact parseCalc_of this

/-- C109 is false, from the text: words after a complete expression are ignored. -/
theorem rest_of_text_ignored (ws ws' : List (Str × Tok)) (w : Str × Tok) (s : Str) (h : LaidOut (ws ++ w :: ws') s)
    (e : Node Rt.F) (he : Spells .cmp (ws.map (·.2)) e) (ht : w.2.ty ∈ cannotFollow) (env : CalcEnv) :
    ∃ n, ∀ fuel, n ≤ fuel → evalCalc env fuel s = evalNode env fuel e := by
  obtain ⟨n, hn⟩ := rest_ignored _ e he w.2 ht (ws'.map (·.2))
  refine ⟨n, fun fuel hf => ?_⟩
  unfold evalCalc
  rw [calc_layout_partial _ s h]
  simp only [liftR, ev_ok_bind, List.map_append, List.map_cons]
  rw [hn fuel hf]
  rfl

/-- C109 is false: a missing closing parenthesis at the end is not noticed. -/
theorem open_paren_ignored (ts : List Tok) (e : Node Rt.F) (h : Spells .cmp ts e) :
    ∃ n, ∀ fuel, n ≤ fuel → parseCalc fuel (sym .openParen :: ts) = .ok e := by
  have h1 := spells_parses h [sym .openParen] [] _ trivial (comparisonLoop_exit_end h e)
  have hE : [sym .openParen] ++ ts ++ [] = sym .openParen :: ts := by simp
  have hadv : advance (sym .openParen :: ts) 0 = 1 := by
    rw [advance_step]
    have := spells_pos h
    simp; omega
  have hf : Evals (fun f => parseFactor (sym .openParen :: ts) f 0)
      (.ok (e, stop ([sym .openParen] ++ ts ++ []) ([sym .openParen].length + ts.length))) := by
    refine Evals.succ h1 (fun f => ?_)
    rw [parseFactor, show current (sym .openParen :: ts) 0 = .ok (sym .openParen) from rfl, ev_ok_bind]
    simp only [sym] at hadv ⊢
    rw [hadv]
    simp
  have h2 := termLoop_exit (pre := [sym .openParen]) (post := []) h (fun _ _ h => by cases h) e
  have h3 := exprLoop_exit (pre := [sym .openParen]) (post := []) h (fun _ _ h => by cases h) e
  have h4 := concatenationLoop_exit (pre := [sym .openParen]) (post := []) h (fun _ _ h => by cases h) e
  have h5 := comparisonLoop_exit_end (pre := [sym .openParen]) h e
  rw [hE] at h2 h3 h4 h5 hf
  have e1 : Evals (fun f => parseTerm (sym .openParen :: ts) f 0) _ :=
    Evals.succ (Evals.bind (k := fun r f => termLoop (sym .openParen :: ts) f r.1 r.2) hf h2)
      (fun f => by rw [parseTerm])
  have e2 : Evals (fun f => parseExpr (sym .openParen :: ts) f 0) _ :=
    Evals.succ (Evals.bind (k := fun r f => exprLoop (sym .openParen :: ts) f r.1 r.2) e1 h3)
      (fun f => by rw [parseExpr])
  have e3 : Evals (fun f => parseConcatenation (sym .openParen :: ts) f 0) _ :=
    Evals.succ (Evals.bind (k := fun r f => concatenationLoop (sym .openParen :: ts) f r.1 r.2) e2 h4)
      (fun f => by rw [parseConcatenation])
  have e4 : Evals (fun f => parseComparison (sym .openParen :: ts) f 0) _ :=
    Evals.succ (Evals.bind (k := fun r f => comparisonLoop (sym .openParen :: ts) f r.1 r.2) e3 h5)
      (fun f => by rw [parseComparison])
  exact parseCalc_of e4

/-- The tokens with which no expression begins. -/
def cannotBegin : List TokenType :=
  [.plus, .minus, .multiply, .divide, .ampersand, .eq, .neq, .lt, .ltq, .gt, .gtq, .comma, .closeParen]

/-- C109 (partial): a text that does not begin like an expression makes the program panic. Missing, because it fails: texts
that begin with an expression, see `rest_ignored` and `open_paren_ignored`. -/
theorem bad_begin_reported_partial (t : Tok) (rest : List Tok) (h : t.ty ∈ cannotBegin) (fuel : Nat) (hf : 5 ≤ fuel) :
    parseCalc fuel (t :: rest) = .error (.panic .unwrap) := by
  obtain ⟨g, rfl⟩ : ∃ g, fuel = g + 5 := ⟨fuel - 5, by omega⟩
  have hfac : parseFactor (t :: rest) (g + 1) 0 = .error (.panic .unwrap) := by
    rw [parseFactor, show current (t :: rest) 0 = .ok t from rfl, ev_ok_bind]
    simp only [cannotBegin, List.mem_cons, List.not_mem_nil, or_false] at h
    rcases h with h | h | h | h | h | h | h | h | h | h | h | h | h <;> rw [h]
  rw [parseCalc, parseComparison, parseConcatenation, parseExpr, parseTerm, hfac]
  rfl

/-- The same from the text. -/
theorem bad_text_reported_partial (w : Str × Tok) (ws : List (Str × Tok)) (s : Str) (h : LaidOut (w :: ws) s)
    (hb : w.2.ty ∈ cannotBegin) (env : CalcEnv) (fuel : Nat) (hf : 5 ≤ fuel) :
    evalCalc env fuel s = .error (.panic .unwrap) := by
  unfold evalCalc
  rw [calc_layout_partial _ s h]
  simp only [liftR, ev_ok_bind, List.map_cons]
  rw [bad_begin_reported_partial _ _ hb fuel hf]
  rfl

/-- C109: so does a text without words. -/
theorem blank_text_reported (s : Str) (h : ∀ c ∈ s, isSpace c = true) (env : CalcEnv) (fuel : Nat) (hf : 5 ≤ fuel) :
    evalCalc env fuel s = .error (.panic .index) := by
  have hw : LaidOut [] s := by
    induction s with
    | nil => exact .nil
    | cons c s ih => exact .space (h c (by simp)) (ih (fun d hd => h d (by simp [hd])))
  unfold evalCalc
  rw [calc_layout_partial _ s hw]
  obtain ⟨g, rfl⟩ : ∃ g, fuel = g + 5 := ⟨fuel - 5, by omega⟩
  simp only [liftR, ev_ok_bind, List.map_nil]
  rw [parseCalc, parseComparison, parseConcatenation, parseExpr, parseTerm, parseFactor]
  rfl

end

/-! ### Examples -/

section Example
attribute [local instance] toyRt

theorem two_word : Word t!"2" ⟨.numericLiteral, t!"2"⟩ :=
  .number (s := t!"2") (x := toyOfText t!"2") (by rfl) (by decide) (by decide)

/-- `2 2` is 2, as is `2)`. -/
example (env : CalcEnv) : ∃ n, ∀ fuel, n ≤ fuel → evalCalc env fuel t!"2 2" = evalNode env fuel (.number (toyOfText t!"2")) :=
  rest_of_text_ignored [(t!"2", ⟨.numericLiteral, t!"2"⟩)] [] (t!"2", ⟨.numericLiteral, t!"2"⟩) _
    (.word (w := t!"2") (s := t!" 2") two_word (by unfold Glue; decide)
      (.space rfl (.word (w := t!"2") (s := []) two_word (by unfold Glue; decide) .nil))) _
    (spells_factor (.number (by rfl)) _) (by decide) env

example : ∃ n, ∀ fuel, n ≤ fuel → parseCalc fuel [sym .openParen, ⟨.numericLiteral, t!"2"⟩] =
    .ok (.number (toyOfText t!"2")) := open_paren_ignored _ _ (spells_factor (.number (by rfl)) _)

/-- `* 2` panics. -/
example (env : CalcEnv) : evalCalc env 9 t!"*2" = .error (.panic .unwrap) :=
  bad_text_reported_partial (t!"*", sym .multiply) [(t!"2", ⟨.numericLiteral, t!"2"⟩)] _
    (.word (w := t!"*") (s := t!"2") (.operator (by decide)) (by unfold Glue; decide)
      (.word (w := t!"2") (s := []) two_word (by unfold Glue; decide) .nil)) (by decide) env 9 (by decide)

end Example

end BurnFm.Props
