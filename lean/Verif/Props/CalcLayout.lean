import Verif.Spec.CalcLayout
import Verif.Props.CalcEval

/-! Property C108: white space in calculations. -/

namespace BurnFm.Props
open Spec

section
variable [Rt]

theorem lex_flush_at {buf : Str} (hb : buf ≠ []) (acc : List Tok) {t : Tok} (ht : flushBuffer buf = .ok t) (c : Char)
    (hc : c = ' ' ∨ c ∈ specialChars ∧ c ≠ ':') (rest : Str) :
    calcLex .normal buf acc (c :: rest) = calcLex .normal [] (acc ++ [t]) (c :: rest) := by
  have hf : flushInto buf acc = .ok (acc ++ [t]) := by
    unfold flushInto
    rw [if_neg (by simpa using hb), ht]
    rfl
  have hf' : flushInto [] (acc ++ [t]) = .ok (acc ++ [t]) := rfl
  have hbe : buf.isEmpty = false := by simpa using hb
  rcases hc with rfl | ⟨hc, hcol⟩
  · rw [lex_flush_space hb acc ht, lex_skip_space]
  · unfold specialChars at hc
    simp only [List.mem_cons, List.not_mem_nil, or_false] at hc
    rcases hc with rfl | rfl | rfl | rfl | rfl | rfl | rfl | rfl | rfl | rfl | rfl | rfl | rfl | rfl <;>
      first
        | exact absurd rfl hcol
        | (rw [calcLex, calcLex]; simp [isSpace, symbolToken, hf, hf', hbe, bind, Except.bind])

/-- An operator followed by any text it can be followed by. -/
theorem lex_operator_at {s : Str} {ty : TokenType} (h : (s, ty) ∈ operators) (acc : List Tok) (c : Char) (rest : Str)
    (hc : ty ∈ openEnded → c ≠ '=') :
    calcLex .normal [] acc (s ++ c :: rest) = calcLex .normal [] (acc ++ [sym ty]) (c :: rest) := by
  simp only [operators, List.mem_cons, List.not_mem_nil, or_false, Prod.mk.injEq] at h
  rcases h with ⟨rfl, rfl⟩ | ⟨rfl, rfl⟩ | ⟨rfl, rfl⟩ | ⟨rfl, rfl⟩ | ⟨rfl, rfl⟩ | ⟨rfl, rfl⟩ | ⟨rfl, rfl⟩ |
    ⟨rfl, rfl⟩ | ⟨rfl, rfl⟩ | ⟨rfl, rfl⟩ | ⟨rfl, rfl⟩ | ⟨rfl, rfl⟩ | ⟨rfl, rfl⟩ | ⟨rfl, rfl⟩
  all_goals
    first
      | (have hc := hc (by decide)
         simp only [List.cons_append, List.nil_append]
         conv => lhs; unfold calcLex
         simp [isSpace, symbolToken, flushInto, unwrap, bind, Except.bind, sym, hc]
         try (conv => lhs; unfold calcLex
              simp [isSpace, symbolToken, flushInto, unwrap, bind, Except.bind, sym, hc]))
      | (simp only [List.cons_append, List.nil_append]
         conv => lhs; unfold calcLex
         simp [isSpace, symbolToken, flushInto, unwrap, bind, Except.bind, sym]
         try (conv => lhs; unfold calcLex))

theorem lex_word_at {s : Str} {t : Tok} (h : Word s t) (acc : List Tok) (c : Char) (rest : Str)
    (hg : Glue s t (c :: rest)) :
    calcLex .normal [] acc (s ++ c :: rest) = calcLex .normal [] (acc ++ [t]) (c :: rest) := by
  obtain ⟨hg1, hg2⟩ := hg
  cases h with
  | operator h => exact lex_operator_at h acc c rest hg1
  | @number s x hx h1 h2 =>
    obtain ⟨hne, hw⟩ := number_words hx h1 h2
    have hcol : ':' ∉ s := fun hm => absurd (hw ':' hm) (by decide)
    have := hg2 (.inr rfl)
    rw [if_neg hcol] at this
    rw [lex_word hw, List.nil_append, lex_flush_at hne acc (flush_number hx) c this]
  | @name d s hw hd hp =>
    have hcol : ':' ∉ d :: s := fun hm => absurd (hw ':' hm) (by decide)
    have := hg2 (.inl rfl)
    rw [if_neg hcol] at this
    rw [lex_word hw, List.nil_append, lex_flush_at (by simp) acc (flush_name hd hp) c this]
  | @field o f h1 h2 h3 h4 =>
    have := hg2 (.inl rfl)
    rw [if_pos (by simp)] at this
    rw [List.append_assoc, List.append_assoc, lex_word h3, List.nil_append]
    show calcLex .normal o acc (':' :: ':' :: (f ++ c :: rest)) = _
    rw [lex_colons h1, lex_field_tail h2 (fun d hd => (isAlnum_iff d).mpr (h4 d hd)) _ _ _ (by
      intro d hd
      simp at hd; subst hd
      rw [← Bool.not_eq_true, isAlnum_iff]; exact this)]
  | @string s h1 h2 =>
    have : ('"' :: s ++ ['"']) ++ c :: rest = '"' :: s ++ '"' :: (c :: rest) := by simp
    rw [this, lex_string h1, pushString_keep h2]

theorem lex_blank {c : Char} (h : isSpace c = true) (acc : List Tok) (rest : Str) :
    calcLex .normal [] acc (c :: rest) = calcLex .normal [] acc rest := by
  rw [calcLex]
  simp [h]

/-- C108: the tokens of a calculation do not depend on the white space between its words. Missing, because it fails: tabs
and line breaks directly after a name or number, see `tab_after_name_refuted`. -/
theorem calc_layout_partial (ws : List (Str × Tok)) (s : Str) (h : LaidOut ws s) : lexCalc s = .ok (ws.map (·.2)) := by
  unfold lexCalc
  suffices H : ∀ acc, calcLex .normal [] acc s = .ok (acc ++ ws.map (·.2)) by simpa using H []
  induction h with
  | nil => intro acc; simp [calcLex, flushInto]
  | space hc _ ih => intro acc; rw [lex_blank hc, ih]
  | @word w t ws s hw hg _ ih =>
    intro acc
    cases s with
    | nil =>
      have := ih (acc ++ [t])
      rw [List.append_nil, lex_word_end hw hg]
      rw [show calcLex .normal [] (acc ++ [t]) [] = .ok (acc ++ [t]) by simp [calcLex, flushInto]] at this
      injection this with this
      simp only [List.map_cons]
      rw [this]; simp
    | cons c s =>
      rw [lex_word_at hw acc c s hg, ih]
      simp

/-- C108: two texts with the same words evaluate alike, in every state. -/
theorem same_words_same_value (ws : List (Str × Tok)) (s s' : Str) (h : LaidOut ws s) (h' : LaidOut ws s') (env : CalcEnv)
    (fuel : Nat) : evalCalc env fuel s = evalCalc env fuel s' := by
  unfold evalCalc
  rw [calc_layout_partial ws s h, calc_layout_partial ws s' h']

/-- C38 and C108: a text whose words spell an expression evaluates like the expression. -/
theorem layout_evaluates (ws : List (Str × Tok)) (s : Str) (h : LaidOut ws s) (e : Node Rt.F)
    (he : Spells .cmp (ws.map (·.2)) e) (env : CalcEnv) (fuel : Nat) (hf : 10 * ws.length + 10 ≤ fuel) :
    evalCalc env fuel s = evalNode env fuel e := by
  unfold evalCalc
  rw [calc_layout_partial ws s h]
  simp only [liftR, ev_ok_bind]
  rw [spells_parseCalc he (by simpa using hf)]
  rfl

/-- C108 is false for white space other than the space: it becomes part of the name before it. -/
theorem tab_after_name (x : Str) (hx : ∀ c ∈ x, WordChar c) (hne : x ≠ []) (c : Char) (hc : isSpace c = true)
    (hn : c ≠ ' ') (rest : Str) :
    lexCalc (x ++ c :: rest) = calcLex .normal (x ++ [c]) [] rest := by
  unfold lexCalc
  rw [lex_word hx, List.nil_append, calcLex]
  have hbe : x.isEmpty = false := by simpa using hne
  have hs : c ∉ specialChars := by
    intro hm
    unfold specialChars at hm
    simp only [List.mem_cons, List.not_mem_nil, or_false] at hm
    rcases hm with rfl | rfl | rfl | rfl | rfl | rfl | rfl | rfl | rfl | rfl | rfl | rfl | rfl | rfl <;>
      revert hc <;> decide
  have hsym := symbolToken_none hs
  simp [hbe, hn, hsym]
  unfold specialChars at hs
  simp at hs
  simp [hs]

/-- C41 is false for the names of fields: they end at the first character that is not a letter or digit. -/
theorem field_name_cut (o f : Str) (c : Char) (rest : Str) (ho : o ≠ []) (hf : f ≠ []) (ho' : ∀ d ∈ o, WordChar d)
    (hf' : ∀ d ∈ f, Alnum d) (hc : ¬ Alnum c) :
    lexCalc (o ++ t!"::" ++ f ++ c :: rest) = calcLex .normal [] [⟨.identifier, o ++ t!"::" ++ f⟩] (c :: rest) := by
  have := lex_word_at (.field ho hf ho' hf') [] c rest ⟨by simp [openEnded], fun _ => by rw [if_pos (by simp)]; exact hc⟩
  exact this

end

/-! ### Examples -/

section Example
attribute [local instance] toyRt

theorem sampleWords_word {i : Nat} {w : Str} {t : Tok} (h : sampleWords[i]? = some (w, t)) : Word w t :=
  sampleWords_words (w, t) (List.mem_of_getElem? h)

set_option maxRecDepth 20000 in
/-- `(n + 2) * T::f == "a b"` without any white space. -/
theorem sampleWords_compact : LaidOut sampleWords t!"(n+2)*T::f==\"a b\"" := by
  refine .word (w := t!"(") (s := t!"n+2)*T::f==\"a b\"") (sampleWords_word (i := 0) rfl) (by unfold Glue; decide) ?_
  refine .word (w := t!"n") (s := t!"+2)*T::f==\"a b\"") (sampleWords_word (i := 1) rfl) (by unfold Glue; decide) ?_
  refine .word (w := t!"+") (s := t!"2)*T::f==\"a b\"") (sampleWords_word (i := 2) rfl) (by unfold Glue; decide) ?_
  refine .word (w := t!"2") (s := t!")*T::f==\"a b\"") (sampleWords_word (i := 3) rfl) (by unfold Glue; decide) ?_
  refine .word (w := t!")") (s := t!"*T::f==\"a b\"") (sampleWords_word (i := 4) rfl) (by unfold Glue; decide) ?_
  refine .word (w := t!"*") (s := t!"T::f==\"a b\"") (sampleWords_word (i := 5) rfl) (by unfold Glue; decide) ?_
  refine .word (w := t!"T::f") (s := t!"==\"a b\"") (sampleWords_word (i := 6) rfl) (by unfold Glue; decide) ?_
  refine .word (w := t!"==") (s := t!"\"a b\"") (sampleWords_word (i := 7) rfl) (by unfold Glue; decide) ?_
  exact .word (w := t!"\"a b\"") (s := []) (sampleWords_word (i := 8) rfl) (by unfold Glue; decide) .nil

example : lexCalc t!"(n+2)*T::f==\"a b\"" = .ok (sampleWords.map (·.2)) := calc_layout_partial _ _ sampleWords_compact

/-- C108 is false: in a state where `n` is 1, `n + 1` is 2, but with a tab after `n` it is `undefined`. -/
theorem tab_after_name_refuted : ∃ env : CalcEnv, evalCalc env 50 t!"n + 1" = .ok t!"2" ∧
    evalCalc env 50 t!"n\t+ 1" = .ok t!"undefined" :=
  ⟨{ db := {}, depth := 1, vars := [[(t!"n", t!"1")]] }, by decide +kernel⟩

/-- C41 is false for a field named `a_b`: the reference reads the field `a`. -/
theorem field_name_cut_refuted (env : CalcEnv) : lexCalc t!"T::a_b" = .ok [⟨.identifier, t!"T::a"⟩, ⟨.identifier, t!"_b"⟩] ∧
    evalCalc env 50 t!"T::a_b" = evalNode env 50 (.field t!"T::a") := by
  have hl : lexCalc t!"T::a_b" = .ok [⟨.identifier, t!"T::a"⟩, ⟨.identifier, t!"_b"⟩] := by decide +kernel
  refine ⟨hl, ?_⟩
  unfold evalCalc
  rw [hl]
  have hs : splitCC t!"T::a" = [t!"T", t!"a"] := by decide
  have : parseCalc 50 [⟨.identifier, t!"T::a"⟩, ⟨.identifier, t!"_b"⟩] = .ok (.field t!"T::a") := by
    simp [parseCalc, parseComparison, parseConcatenation, parseExpr, parseTerm, parseFactor, comparisonLoop,
      concatenationLoop, exprLoop, termLoop, current, idx, nextIdx, peekType, advance, isComparison, isAdditive,
      isMultiplicative, liftR, hs, bind, Except.bind, pure, Except.pure]
  simp only [liftR, ev_ok_bind, this]

end Example

end BurnFm.Props
