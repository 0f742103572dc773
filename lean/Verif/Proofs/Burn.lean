import Verif.Spec.Burn
import Verif.Proofs.BurnScript
import Verif.Proofs.Base
import Verif.Proofs.HMap
import Verif.Proofs.Generate
import Mathlib.Data.List.Induction

/-! Lemmas about the compiler for `.burn` files. -/

namespace BurnFm
open Spec

/-! ### Lexer -/

section Lexer
variable [Rt] {p : Profile}

theorem burnSymbol_none {c : Char} (h : BurnChar c) : burnSymbol c = none := by
  obtain ⟨_, h2⟩ := h
  simp only [List.mem_cons, List.not_mem_nil, or_false, not_or] at h2
  obtain ⟨h3, h4, h5, h6, h7, h8, h9, h10, h11, h12, h13, h14⟩ := h2
  unfold burnSymbol
  split <;> first | rfl | (exfalso; revert h3 h4 h5 h6 h7 h8 h9 h10 h11 h12 h13 h14; simp)

theorem plex_char {c : Char} (h : BurnChar c) {buf : Str} {acc : List BurnTok} {rest : Str} :
    burnLex p .normal buf acc (c :: rest) = burnLex p .normal (buf ++ [c]) acc rest := by
  have hs := burnSymbol_none h
  obtain ⟨h1, h2⟩ := h
  simp only [List.mem_cons, List.not_mem_nil, or_false, not_or] at h2
  obtain ⟨h3, h4, h5, h6, h7, h8, h9, h10, h11, h12, h13, h14⟩ := h2
  conv => lhs; unfold burnLex
  simp [h1, h3, h4, h6, h8, h10, hs]

theorem plex_word {w : Str} (h : ∀ c ∈ w, BurnChar c) {buf : Str} {acc : List BurnTok} {rest : Str} :
    burnLex p .normal buf acc (w ++ rest) = burnLex p .normal (buf ++ w) acc rest := by
  induction w generalizing buf with
  | nil => simp
  | cons c w ih =>
    rw [List.cons_append, plex_char (h c (by simp)), ih (fun x hx => h x (List.mem_cons_of_mem _ hx))]
    simp

/-- No token announces a `foundIn` list. -/
def NoFoundIn (acc : List BurnTok) : Prop := ∀ t ∈ acc, t.ty ≠ .foundIn

theorem NoFoundIn.append {a b : List BurnTok} (h : NoFoundIn a) (h' : NoFoundIn b) : NoFoundIn (a ++ b) := by
  intro t ht
  rcases List.mem_append.mp ht with h1 | h1
  · exact h t h1
  · exact h' t h1

theorem plex_open {acc : List BurnTok} (ha : acc ≠ []) (hf : NoFoundIn acc) {buf rest : Str} :
    burnLex p .normal buf acc ('[' :: rest) =
      burnLex p .script [] (acc ++ burnFlush buf ++ [⟨.openSquare, []⟩]) rest := by
  obtain ⟨acc', l, rfl⟩ : ∃ a l, acc = a ++ [l] := ⟨_, _, (List.dropLast_concat_getLast ha).symm⟩
  conv => lhs; unfold burnLex
  have : isSpace '[' = false := by decide
  have hl : l.ty ≠ .foundIn := hf l (by simp)
  simp [this, hl, unwrap, ok_bind]

/-- An opening parenthesis needs two tokens before it, not counting the word it ends. -/
theorem plex_paren {acc : List BurnTok} (ha : 2 ≤ acc.length) {buf rest : Str} :
    burnLex p .normal buf acc ('(' :: rest) =
      burnLex p .normal [] (acc ++ burnFlush buf ++ [⟨.openParen, []⟩]) rest := by
  conv => lhs; unfold burnLex
  have : isSpace '(' = false := by decide
  have h1 : usub p acc.length 2 = .ok (acc.length - 2) := by unfold usub; rw [if_pos ha]
  have h2 : ∃ x, idx acc (acc.length - 2) = .ok x := by
    refine ⟨acc[acc.length - 2], ?_⟩
    unfold idx
    rw [List.getElem?_eq_getElem (by omega)]
  obtain ⟨x, h2⟩ := h2
  simp only [this, Bool.false_eq_true, if_false, if_true, h1, h2, ok_bind,
    show ('(' = '=') = False by decide, show ('(' = '[') = False by decide]

/-- A character that ends a word first adds the word to the tokens. -/
theorem plex_flush {d : Char} (h : ¬ BurnChar d) {buf : Str} {t : BurnTok} (hb : buf ≠ []) (hw : burnWord buf = some t)
    (ht : t.ty ≠ .foundIn)
    {acc : List BurnTok} {rest : Str} (h1 : d = '(' → 2 ≤ acc.length) (h2 : d = '[' → acc ≠ []) (hf : NoFoundIn acc) :
    burnLex p .normal buf acc (d :: rest) = burnLex p .normal [] (acc ++ [t]) (d :: rest) := by
  have e : burnFlush [] = [] := rfl
  have e2 : burnFlush buf = [t] := by unfold burnFlush; rw [if_neg (by simpa using hb), hw]; rfl
  by_cases hd : d = '['
  · subst hd
    rw [plex_open (h2 rfl) hf, plex_open (by simp) (hf.append (by intro x hx; rw [List.mem_singleton.mp hx]; exact ht)),
      e, e2, List.append_nil]
  by_cases hp : d = '('
  · subst hp
    have := h1 rfl
    rw [plex_paren this, plex_paren (by simp; omega), e, e2, List.append_nil]
  replace h1 := hp
  conv => lhs; unfold burnLex
  conv => rhs; unfold burnLex
  dsimp only
  by_cases hsp : isSpace d = true
  · simp [hb, hw, hsp]
  rw [if_neg hsp, if_neg hsp]
  simp only [if_neg h1, if_neg hd, e, e2, List.append_nil]
  by_cases h3 : d = '='
  · rw [if_pos h3, if_pos h3]
  by_cases h4 : d = '"'
  · rw [if_neg h3, if_neg h3, if_pos h4, if_pos h4]
  by_cases h5 : d = '{'
  · rw [if_neg h3, if_neg h3, if_neg h4, if_neg h4, if_pos h5, if_pos h5]
  rw [if_neg h3, if_neg h3, if_neg h4, if_neg h4, if_neg h5, if_neg h5]
  cases hs : burnSymbol d with
  | some ty => rfl
  | none =>
    exfalso
    refine h ⟨by simpa using hsp, ?_⟩
    simp only [List.mem_cons, List.not_mem_nil, or_false, not_or]
    refine ⟨h3, hd, ?_, h1, ?_, h4, ?_, h5, ?_, ?_, ?_, ?_⟩ <;> (rintro rfl; simp [burnSymbol] at hs)

theorem plex_space {c : Char} (h : isSpace c = true) {acc : List BurnTok} {rest : Str} :
    burnLex p .normal [] acc (c :: rest) = burnLex p .normal [] acc rest := by
  conv => lhs; unfold burnLex
  simp [h]

theorem plex_mark {c : Char} {ty : BurnTokType} (h : (c, ty) ∈ burnMarks) {acc : List BurnTok} {rest : Str} :
    burnLex p .normal [] acc (c :: rest) = burnLex p .normal [] (acc ++ [⟨ty, []⟩]) rest := by
  conv => lhs; unfold burnLex
  simp only [burnMarks, List.mem_cons, List.not_mem_nil, or_false, Prod.mk.injEq] at h
  rcases h with ⟨rfl, rfl⟩ | ⟨rfl, rfl⟩ | ⟨rfl, rfl⟩ | ⟨rfl, rfl⟩ | ⟨rfl, rfl⟩ | ⟨rfl, rfl⟩ | ⟨rfl, rfl⟩ <;>
    simp [isSpace, burnSymbol, burnFlush]

theorem plex_equal {acc : List BurnTok} {rest : Str} :
    burnLex p .normal [] acc ('=' :: '=' :: rest) = burnLex p .normal [] (acc ++ [⟨.eComparison, []⟩]) rest := by
  conv => lhs; unfold burnLex
  have : isSpace '=' = false := by decide
  simp only [this, List.head?_cons, if_true, burnFlush]
  conv => lhs; unfold burnLex
  simp

theorem plex_assign {d : Char} (h : d ≠ '=') {acc : List BurnTok} {rest : Str} :
    burnLex p .normal [] acc ('=' :: d :: rest) = burnLex p .normal [] (acc ++ [⟨.assign, []⟩]) (d :: rest) := by
  conv => lhs; unfold burnLex
  have : isSpace '=' = false := by decide
  simp [this, h, burnFlush]

/-- Reading the inside of a string, script block or calculation. -/
theorem plex_inside {m : BurnLexMode} {e : Char} (hm : (m = .str ∧ e = '"') ∨ (m = .script ∧ e = ']') ∨ (m = .calc ∧ e = '}'))
    {q : Str} (hq : e ∉ q) {buf : Str} (hb : buf ≠ []) {acc : List BurnTok} {rest : Str} :
    burnLex p m buf acc (q ++ rest) = burnLex p m (buf ++ q) acc rest := by
  induction q generalizing buf with
  | nil => simp
  | cons c q ih =>
    have hc : c ≠ e := fun h => hq (by simp [h])
    have hq' : e ∉ q := fun h => hq (List.mem_cons_of_mem _ h)
    have : burnLex p m buf acc (c :: (q ++ rest)) = burnLex p m (buf ++ [c]) acc (q ++ rest) := by
      conv => lhs; unfold burnLex
      rcases hm with ⟨rfl, rfl⟩ | ⟨rfl, rfl⟩ | ⟨rfl, rfl⟩ <;> simp [hc, hb]
    rw [List.cons_append, this, ih hq' (by simp)]
    simp

/-- The same from the beginning: leading white space is dropped. -/
theorem plex_inside_start {m : BurnLexMode} {e : Char}
    (hm : (m = .str ∧ e = '"') ∨ (m = .script ∧ e = ']') ∨ (m = .calc ∧ e = '}'))
    {q : Str} (hq : e ∉ q) {acc : List BurnTok} {rest : Str} :
    burnLex p m [] acc (q ++ rest) = burnLex p m (q.dropWhile isSpace) acc rest := by
  induction q with
  | nil => rfl
  | cons c q ih =>
    have hc : c ≠ e := fun h => hq (by simp [h])
    have hq' : e ∉ q := fun h => hq (List.mem_cons_of_mem _ h)
    by_cases hs : isSpace c = true
    · rw [List.dropWhile_cons_of_pos hs, ← ih hq', List.cons_append]
      conv => lhs; unfold burnLex
      rcases hm with ⟨rfl, rfl⟩ | ⟨rfl, rfl⟩ | ⟨rfl, rfl⟩ <;> simp [hs]
    · rw [List.dropWhile_cons_of_neg hs, List.cons_append]
      have : burnLex p m [] acc (c :: (q ++ rest)) = burnLex p m [c] acc (q ++ rest) := by
        conv => lhs; unfold burnLex
        rcases hm with ⟨rfl, rfl⟩ | ⟨rfl, rfl⟩ | ⟨rfl, rfl⟩ <;> simp [hc, hs]
      rw [this, plex_inside hm hq' (by simp)]
      rfl

theorem plex_string {q : Str} {d : Char} (hq : '"' ∉ q) {acc : List BurnTok} {rest : Str} :
    burnLex p .normal [] acc ('"' :: (q ++ '"' :: d :: rest)) =
      burnLex p .normal ['"'] (acc ++ [⟨.string, q.dropWhile isSpace⟩]) (d :: rest) := by
  have e1 : burnLex p .normal [] acc ('"' :: (q ++ '"' :: d :: rest)) = burnLex p .str [] acc (q ++ '"' :: d :: rest) := by
    conv => lhs; unfold burnLex
    simp [isSpace, burnFlush]
  rw [e1, plex_inside_start (.inl ⟨rfl, rfl⟩) hq]
  conv => lhs; unfold burnLex
  simp [isSpace]

theorem plex_calc {q : Str} {d : Char} (hq : '}' ∉ q) {acc : List BurnTok} {rest : Str} :
    burnLex p .normal [] acc ('{' :: (q ++ '}' :: d :: rest)) =
      burnLex p .normal ['}'] (acc ++ [⟨.openCurly, []⟩, ⟨.calculation, q.dropWhile isSpace⟩]) (d :: rest) := by
  have e1 : burnLex p .normal [] acc ('{' :: (q ++ '}' :: d :: rest)) =
      burnLex p .calc [] (acc ++ [⟨.openCurly, []⟩]) (q ++ '}' :: d :: rest) := by
    conv => lhs; unfold burnLex
    simp [isSpace, burnFlush]
  rw [e1, plex_inside_start (.inr (.inr ⟨rfl, rfl⟩)) hq]
  conv => lhs; unfold burnLex
  simp [isSpace]

theorem plex_block {q : Str} (hq : ']' ∉ q) {acc : List BurnTok} (ha : acc ≠ []) (hf : NoFoundIn acc) {rest : Str} :
    burnLex p .normal [] acc ('[' :: (q ++ ']' :: rest)) =
      burnLex p .normal [] (acc ++ [⟨.openSquare, []⟩, ⟨.script, q.dropWhile isSpace⟩, ⟨.closeSquare, []⟩]) rest := by
  rw [plex_open ha hf, plex_inside_start (.inr (.inl ⟨rfl, rfl⟩)) hq]
  conv => lhs; unfold burnLex
  simp [isSpace, burnFlush]

theorem burnWord_keyword {w : Str} {ty : BurnTokType} (h : (w, ty) ∈ burnKeywords) :
    burnWord w = some ⟨ty, []⟩ ∧ w ≠ [] ∧ (∀ c ∈ w, BurnChar c) ∧ ty ≠ .foundIn ∧ ty ≠ .openSquare := by
  simp only [burnKeywords, List.mem_cons, List.not_mem_nil, or_false, Prod.mk.injEq] at h
  rcases h with ⟨rfl, rfl⟩ | ⟨rfl, rfl⟩ | ⟨rfl, rfl⟩ | ⟨rfl, rfl⟩ | ⟨rfl, rfl⟩ | ⟨rfl, rfl⟩ | ⟨rfl, rfl⟩ <;>
    exact ⟨by simp [burnWord], by decide, by decide, by decide, by decide⟩

theorem burnWord_name {w : Str} (h : w ∉ burnKeywords.map (·.1)) (hf : isFloatText w = false)
    (hd : ∀ c, w.head? = some c → isDigit c = false) : burnWord w = some ⟨.identifier, w⟩ := by
  simp only [burnKeywords, List.map_cons, List.map_nil, List.mem_cons, List.not_mem_nil, or_false, not_or] at h
  obtain ⟨h1, h2, h3, h4, h5, h6, h7⟩ := h
  unfold burnWord
  rw [if_neg h1, if_neg h2, if_neg h3, if_neg h4, if_neg h5, if_neg h6, if_neg h7]
  have : parseF64 w = none := by simp [parseF64, hf]
  rw [this]
  cases w with
  | nil => rfl
  | cons c w => simp [hd c rfl]

theorem burnWord_number {w : Str} {x : Rt.F} (h : parseF64 w = some x) :
    burnWord w = some ⟨.numericLiteral, Rt.toText x⟩ := by
  have hf : isFloatText w = true := by
    unfold parseF64 at h
    split at h
    · rename_i h'; exact h'
    · cases h
  have hne : ∀ k : Str, isFloatText k = false → w ≠ k := by rintro k hk rfl; rw [hf] at hk; cases hk
  unfold burnWord
  rw [if_neg (hne _ (by decide)), if_neg (hne _ (by decide)), if_neg (hne _ (by decide)), if_neg (hne _ (by decide)),
    if_neg (hne _ (by decide)), if_neg (hne _ (by decide)), if_neg (hne _ (by decide)), h]

/-- The first character of a nonempty word is a word character. -/
theorem head_word {w : Str} {d : Char} {s : Str} (h1 : w ≠ []) (h2 : ∀ c ∈ w, BurnChar c) :
    ∃ c, (w ++ d :: s).head? = some c ∧ BurnChar c := by
  cases w with
  | nil => exact absurd rfl h1
  | cons c w => exact ⟨c, rfl, h2 c (by simp)⟩

/-- A text that starts with a parenthesis spells a parenthesis first. -/
theorem burnText_paren {ts : List BurnTok} {s : Str} (h : BurnText ts ('(' :: s)) :
    ts.head? = some ⟨.openParen, []⟩ := by
  generalize hs : '(' :: s = s' at h
  cases h with
  | nil => cases hs
  | space h _ => cases hs; exact absurd h (by decide)
  | mark h _ => cases hs; revert h; simp [burnMarks]
  | paren => rfl
  | equal => cases hs
  | assign => cases hs
  | keyword h _ _ =>
    obtain ⟨_, h1, h2, _⟩ := burnWord_keyword h
    obtain ⟨c, e, hc⟩ := head_word h1 h2
    rw [← hs] at e; cases e; exact absurd hc (by decide)
  | name h1 h2 _ _ _ _ _ =>
    obtain ⟨c, e, hc⟩ := head_word h1 h2
    rw [← hs] at e; cases e; exact absurd hc (by decide)
  | number h1 h2 _ _ _ =>
    obtain ⟨c, e, hc⟩ := head_word h1 h2
    rw [← hs] at e; cases e; exact absurd hc (by decide)
  | string => cases hs
  | calculation => cases hs
  | block => cases hs

/-- A text that starts with a bracket spells a bracket first. -/
theorem burnText_open {ts : List BurnTok} {s : Str} (h : BurnText ts ('[' :: s)) : ts.head? = some ⟨.openSquare, []⟩ := by
  generalize hs : '[' :: s = s' at h
  cases h with
  | nil => cases hs
  | space h _ => cases hs; exact absurd h (by decide)
  | mark h _ => cases hs; revert h; simp [burnMarks]
  | paren => cases hs
  | equal => cases hs
  | assign => cases hs
  | keyword h _ _ =>
    obtain ⟨_, h1, h2, _⟩ := burnWord_keyword h
    obtain ⟨c, e, hc⟩ := head_word h1 h2
    rw [← hs] at e; cases e; exact absurd hc (by decide)
  | name h1 h2 _ _ _ _ _ =>
    obtain ⟨c, e, hc⟩ := head_word h1 h2
    rw [← hs] at e; cases e; exact absurd hc (by decide)
  | number h1 h2 _ _ _ =>
    obtain ⟨c, e, hc⟩ := head_word h1 h2
    rw [← hs] at e; cases e; exact absurd hc (by decide)
  | string => cases hs
  | calculation => cases hs
  | block => rfl

/-- Neither of the first two tokens is an opening bracket. -/
def LateBlocks (ts : List BurnTok) : Prop := ∀ t ∈ ts.take 2, t.ty ≠ .openSquare

/-- After `n` tokens, the first tokens of the rest up to the third of all are not opening parentheses. -/
def LateParens (n : Nat) (ts : List BurnTok) : Prop := ∀ t ∈ ts.take (3 - n), t.ty ≠ .openParen

omit [Rt] in
theorem LateParens.drop {n : Nat} {ts : List BurnTok} (h : LateParens n ts) (k : Nat) : LateParens (n + k) (ts.drop k) := by
  intro t ht
  refine h t ?_
  rw [show 3 - (n + k) = 3 - n - k by omega, ← List.drop_take] at ht
  exact List.mem_of_mem_drop ht

omit [Rt] in
theorem LateParens.word {t : BurnTok} {n : Nat} {ts : List BurnTok} (h : LateParens n (t :: ts))
    (hp : ts.head? = some ⟨.openParen, []⟩) : 2 ≤ n := by
  refine Classical.byContradiction fun hn => ?_
  cases ts with
  | nil => cases hp
  | cons u ts =>
    cases hp
    refine h ⟨.openParen, []⟩ ?_ rfl
    obtain ⟨k, hk⟩ : ∃ k, 3 - n = k + 2 := ⟨1 - n, by omega⟩
    rw [hk]
    simp

theorem mem_take_one {α : Type} {l : List α} {a : α} (h : l.head? = some a) : a ∈ l.take 1 := by
  cases l with
  | nil => cases h
  | cons x l => cases h; simp

theorem noFoundIn_single {t : BurnTok} (h : t.ty ≠ .foundIn) : NoFoundIn [t] := by
  intro x hx; rw [List.mem_singleton.mp hx]; exact h

theorem plex_text {ts : List BurnTok} {s : Str} (h : BurnText ts s) {acc : List BurnTok} (hf : NoFoundIn acc)
    (ha : acc = [] → LateBlocks ts) (hp : LateParens acc.length ts) : burnLex p .normal [] acc s = .ok (acc ++ ts) := by
  induction h generalizing acc with
  | nil => simp [burnLex]
  | space h _ ih => rw [plex_space h, ih hf ha hp]
  | mark h _ ih =>
    rw [plex_mark h, ih (hf.append (noFoundIn_single ?_)) (by simp) (by simpa using hp.drop 1)]
    · simp
    · revert h; simp only [burnMarks, List.mem_cons, List.not_mem_nil, or_false, Prod.mk.injEq]
      rintro (⟨_, rfl⟩ | ⟨_, rfl⟩ | ⟨_, rfl⟩ | ⟨_, rfl⟩ | ⟨_, rfl⟩ | ⟨_, rfl⟩ | ⟨_, rfl⟩) <;> decide
  | paren _ ih =>
    have h3 : 3 ≤ acc.length := by
      refine Classical.byContradiction fun hn => ?_
      refine hp ⟨.openParen, []⟩ ?_ rfl
      obtain ⟨k, hk⟩ : ∃ k, 3 - acc.length = k + 1 := ⟨2 - acc.length, by omega⟩
      rw [hk]
      simp
    rw [plex_paren (by omega), show burnFlush [] = [] from rfl, List.append_nil,
      ih (hf.append (noFoundIn_single (by simp))) (by simp) (by simpa using hp.drop 1)]
    simp
  | equal _ ih =>
    rw [plex_equal, ih (hf.append (noFoundIn_single (by simp))) (by simp) (by simpa using hp.drop 1)]; simp
  | assign h _ ih =>
    rw [plex_assign h, ih (hf.append (noFoundIn_single (by simp))) (by simp) (by simpa using hp.drop 1)]; simp
  | keyword h hd ht ih =>
    obtain ⟨h0, h1, h2, h3, h4⟩ := burnWord_keyword h
    rw [plex_word h2, List.nil_append, plex_flush hd h1 h0 h3 ?_ ?_ hf,
      ih (hf.append (noFoundIn_single h3)) (by simp) (by simpa using hp.drop 1)]
    · simp
    · rintro rfl; exact hp.word (burnText_paren ht)
    · rintro rfl hn
      have := burnText_open ht
      refine ha hn _ ?_ (show (⟨.openSquare, []⟩ : BurnTok).ty = .openSquare from rfl)
      rw [List.take_succ_cons]
      refine List.mem_cons_of_mem _ ?_
      exact mem_take_one this
  | name h1 h2 h3 h4 h5 hd ht ih =>
    have h0 := burnWord_name h3 h4 h5
    rw [plex_word h2, List.nil_append, plex_flush hd h1 h0 (by simp) ?_ ?_ hf,
      ih (hf.append (noFoundIn_single (by simp))) (by simp) (by simpa using hp.drop 1)]
    · simp
    · rintro rfl; exact hp.word (burnText_paren ht)
    · rintro rfl hn
      have := burnText_open ht
      refine ha hn _ ?_ (show (⟨.openSquare, []⟩ : BurnTok).ty = .openSquare from rfl)
      rw [List.take_succ_cons]
      refine List.mem_cons_of_mem _ ?_
      exact mem_take_one this
  | number h1 h2 h3 hd ht ih =>
    have h0 := burnWord_number h3
    rw [plex_word h2, List.nil_append, plex_flush hd h1 h0 (by simp) ?_ ?_ hf,
      ih (hf.append (noFoundIn_single (by simp))) (by simp) (by simpa using hp.drop 1)]
    · simp
    · rintro rfl; exact hp.word (burnText_paren ht)
    · rintro rfl hn
      have := burnText_open ht
      refine ha hn _ ?_ (show (⟨.openSquare, []⟩ : BurnTok).ty = .openSquare from rfl)
      rw [List.take_succ_cons]
      refine List.mem_cons_of_mem _ ?_
      exact mem_take_one this
  | string hq hd ht ih =>
    have h0 : burnWord ['"'] = some ⟨.identifier, ['"']⟩ := burnWord_name (by decide) (by decide) (by
      intro c hc; cases hc; decide)
    rw [List.cons_append, plex_string hq,
      plex_flush hd (by simp) h0 (by simp) ?_ (by simp) ?_,
      ih ?_ (by simp) (by simpa using hp.drop 2)]
    · simp
    · refine (hf.append (noFoundIn_single (by simp))).append (noFoundIn_single (by simp))
    · rintro rfl
      simpa using (show LateParens (acc.length + 1) _ by simpa using hp.drop 1).word (burnText_paren ht)
    · exact hf.append (noFoundIn_single (by simp))
  | calculation hq hd ht ih =>
    have h0 : burnWord ['}'] = some ⟨.identifier, ['}']⟩ := burnWord_name (by decide) (by decide) (by
      intro c hc; cases hc; decide)
    have hf' : ∀ q, NoFoundIn (acc ++ [⟨.openCurly, []⟩, ⟨.calculation, q⟩]) := by
      intro q
      refine hf.append ?_
      intro t ht
      simp only [List.mem_cons, List.not_mem_nil, or_false] at ht
      rcases ht with rfl | rfl <;> simp
    rw [List.cons_append, plex_calc hq,
      plex_flush hd (by simp) h0 (by simp) (by simp) (by simp) (hf' _),
      ih ?_ (by simp) (by simpa using hp.drop 3)]
    · simp
    · exact (hf' _).append (noFoundIn_single (by simp))
  | block hq ht ih =>
    have hn : acc ≠ [] := by
      intro hn
      exact ha hn ⟨.openSquare, []⟩ (by simp) rfl
    rw [List.cons_append, plex_block hq hn hf, ih ?_ (by simp) (by simpa using hp.drop 3)]
    · simp
    · refine hf.append ?_
      intro t ht
      simp only [List.mem_cons, List.not_mem_nil, or_false] at ht
      rcases ht with rfl | rfl | rfl <;> simp

end Lexer

/-! ### Parser -/

/-- What the parser does with a declaration. -/
def addDecl (f : FmpFile) : Decl → FmpFile
  | .table n => f.addItem (.table { name := n })
  | .relationship a b => f.addItem (.relationship { table1Name := a, table2Name := b })
  | .valueList n => f.addItem (.valueList { name := n })
  | .scripts ds => f.addScripts (ds.map ScriptDef.script)
  | .occurrence n t => f.addItem (.occurrence { name := n, tableActualName := t })
  | .test n d => f.addItem (.test { name := n, script := d.script })

theorem parse_closing {i : BurnItem} {ret : FmpFile} {rest : List BurnTok} :
    parseBurn (.item i) ret (closing i.keyword ++ rest) = parseBurn .top (ret.addItem i) rest := by
  cases i <;> simp [closing, parseBurn, BurnItem.keyword]

theorem parse_table_inner {t : FTable} {ret : FmpFile} {inner rest : List BurnTok} (h : ∀ t ∈ inner, t.ty ≠ .end) :
    parseBurn (.item (.table t)) ret (inner ++ rest) = parseBurn (.item (.table t)) ret rest := by
  induction inner with
  | nil => rfl
  | cons x xs ih =>
    rw [List.cons_append]
    conv => lhs; unfold parseBurn
    simp [h x (by simp), ih (fun y hy => h y (List.mem_cons_of_mem _ hy))]

theorem parse_list_inner {t : FValueList} {ret : FmpFile} {inner rest : List BurnTok} (h : ∀ t ∈ inner, t.ty ≠ .end) :
    parseBurn (.item (.valueList t)) ret (inner ++ rest) = parseBurn (.item (.valueList t)) ret rest := by
  induction inner with
  | nil => rfl
  | cons x xs ih =>
    rw [List.cons_append]
    conv => lhs; unfold parseBurn
    simp [h x (by simp), ih (fun y hy => h y (List.mem_cons_of_mem _ hy))]

theorem parse_rel_inner {r : FRelationship} {ret : FmpFile} {inner rest : List BurnTok}
    (h : ∀ t ∈ inner, t.ty ≠ .end ∧ t.ty ≠ .colon) {e : BurnTok} (he : e.ty ≠ .colon) :
    parseBurn (.item (.relationship r)) ret (inner ++ e :: rest) = parseBurn (.item (.relationship r)) ret (e :: rest) := by
  induction inner with
  | nil => rfl
  | cons x xs ih =>
    rw [List.cons_append]
    conv => lhs; unfold parseBurn
    have ih' := ih (fun y hy => h y (List.mem_cons_of_mem _ hy))
    obtain ⟨c, hc, hcc⟩ : ∃ c, (xs ++ e :: rest).head? = some c ∧ c.ty ≠ .colon := by
      cases xs with
      | nil => exact ⟨e, rfl, he⟩
      | cons y ys => exact ⟨y, rfl, (h y (by simp)).2⟩
    simp [(h x (by simp)).1, ih', hc, hcc]

theorem parse_block {ds : List ScriptDef} {ts : List BurnTok} (h : BlockToks ds ts) {ret : FmpFile} {rest : List BurnTok} :
    parseBurn .scriptColon ret (ts ++ rest) = parseBurn .top (ret.addScripts (ds.map ScriptDef.script)) rest := by
  obtain ⟨hs, hw⟩ := h
  simp [parseBurn, compile_defs hs hw, ok_bind]

theorem parse_test_block {d : ScriptDef} {ts : List BurnTok} (h : BlockToks [d] ts) {x : FTest} {ret : FmpFile}
    {rest : List BurnTok} : parseBurn (.testColon x) ret (ts ++ rest) =
      parseBurn (.item (.test { x with script := d.script })) ret rest := by
  obtain ⟨hs, hw⟩ := h
  simp [parseBurn, compile_defs hs hw, ok_bind, idx]

theorem parse_decl {d : Decl} {ts : List BurnTok} (h : DeclToks d ts) {ret : FmpFile} {rest : List BurnTok} :
    parseBurn .top ret (ts ++ rest) = parseBurn .top (addDecl ret d) rest := by
  cases h with
  | table h =>
    have := parse_closing (i := .table { name := ‹Str› }) (ret := ret) (rest := rest)
    simp only [List.cons_append, List.append_assoc]
    simp only [parseBurn, if_true]
    exact (parse_table_inner h).trans this
  | valueList h =>
    have := parse_closing (i := .valueList { name := ‹Str› }) (ret := ret) (rest := rest)
    simp only [List.cons_append, List.append_assoc]
    simp only [parseBurn, if_true]
    exact (parse_list_inner h).trans this
  | relationship h =>
    rename_i a b inner
    have := parse_closing (i := .relationship { table1Name := a, table2Name := b }) (ret := ret) (rest := rest)
    simp only [List.cons_append, List.append_assoc]
    simp only [parseBurn, if_true, List.head?_cons]
    exact (parse_rel_inner (e := ⟨.end, []⟩) h (by simp)).trans this
  | occurrence h =>
    rename_i n t comma
    have := parse_closing (i := .occurrence { name := n, tableActualName := t }) (ret := ret) (rest := rest)
    rcases h with rfl | rfl
    · simp only [List.cons_append, List.nil_append]
      simp only [parseBurn, if_true]
      exact this
    · simp only [List.cons_append, List.nil_append]
      simp only [parseBurn, if_true]
      exact this
  | scripts h =>
    rw [List.cons_append]
    conv => lhs; unfold parseBurn
    exact parse_block h
  | test h hc =>
    rename_i n d ts comma
    have := parse_closing (i := .test { name := n, script := d.script }) (ret := ret) (rest := rest)
    have e : ∀ r, parseBurn .top ret (⟨.test, []⟩ :: ⟨.identifier, n⟩ :: ⟨.colon, []⟩ :: ⟨.script, []⟩ :: r) =
      parseBurn (.testColon { name := n }) ret r := by intro r; simp [parseBurn, BurnItem.named]
    simp only [List.cons_append, List.append_assoc]
    rw [e, parse_test_block h]
    rcases hc with rfl | rfl
    · exact this
    · rw [List.cons_append, List.nil_append]
      conv => lhs; unfold parseBurn
      simp only [reduceCtorEq, if_false]
      exact this

theorem parse_program {ds : List Decl} {ts : List BurnTok} (h : ProgramToks ds ts) {ret : FmpFile} :
    parseBurn .top ret ts = .ok (some (ds.foldl addDecl ret)) := by
  induction h generalizing ret with
  | nil => rfl
  | cons hd _ ih => rw [parse_decl hd, ih]; rfl

/-! ### The file -/

/-- A list as a map with the keys `start`, `start + 1`, … -/
def numbered {α : Type} (start : Nat) : List α → HMap α
  | [] => []
  | a :: as => (start, a) :: numbered (start + 1) as

theorem numbered_length {α : Type} (a : List α) (n : Nat) : (numbered n a).length = a.length := by
  induction a generalizing n with
  | nil => rfl
  | cons x xs ih => simp [numbered, ih]

theorem numbered_append {α : Type} (a : List α) (x : α) (n : Nat) :
    numbered n (a ++ [x]) = numbered n a ++ [(n + a.length, x)] := by
  induction a generalizing n with
  | nil => rfl
  | cons y ys ih => simp [numbered, ih, Nat.add_assoc, Nat.add_comm 1]

theorem numbered_get {α : Type} (a : List α) (n : Nat) : HasNumbers n a (numbered n a) := by
  intro k
  induction a generalizing n with
  | nil => simp [numbered, HMap.get]
  | cons x xs ih =>
    have := ih (n + 1)
    simp only [HMap.get] at this
    by_cases h : n = k
    · subst h; simp [numbered, HMap.get]
    · have hb : (n == k) = false := by simpa using h
      simp only [numbered, HMap.get, List.find?_cons, hb, this]
      by_cases h' : k < n
      · simp [h', h, show k < n + 1 by omega]
      · have e : k - n = k - (n + 1) + 1 := by omega
        simp [h, h', show ¬ k < n + 1 by omega, e]

theorem numbered_insert {α : Type} (a : List α) (x : α) (n : Nat) :
    (numbered n a).insert (n + a.length) x = numbered n (a ++ [x]) := by
  have h : (numbered n a).contains (n + a.length) = false := by
    rw [HMap.contains_eq, numbered_get a n]
    simp
  rw [HMap.insert, h, numbered_append]
  simp

theorem numbered_inserts {α : Type} (l a : List α) (n : Nat) :
    l.foldl (fun m x => m.insert (m.length + n) x) (numbered n a) = numbered n (a ++ l) := by
  induction l generalizing a with
  | nil => simp
  | cons x l ih => rw [List.foldl_cons, numbered_length, Nat.add_comm, numbered_insert, ih]; simp

theorem file_tables (ds : List Decl) : (ds.foldl addDecl {}).tables = numbered 1 (ds.filterMap Decl.table?) := by
  induction ds using List.reverseRecOn with
  | nil => rfl
  | append_singleton ds d ih =>
    rw [List.foldl_append, List.filterMap_append]
    cases d <;> simp [addDecl, FmpFile.addItem, FmpFile.addScripts, Decl.table?, List.filterMap_cons, ih]
    rw [numbered_length, Nat.add_comm, numbered_insert]

theorem file_valueLists (ds : List Decl) : (ds.foldl addDecl {}).valueLists = numbered 1 (ds.filterMap Decl.valueList?) := by
  induction ds using List.reverseRecOn with
  | nil => rfl
  | append_singleton ds d ih =>
    rw [List.foldl_append, List.filterMap_append]
    cases d <;> simp [addDecl, FmpFile.addItem, FmpFile.addScripts, Decl.valueList?, List.filterMap_cons, ih]
    rw [numbered_length, Nat.add_comm, numbered_insert]

theorem file_occurrences (ds : List Decl) :
    (ds.foldl addDecl {}).tableOccurrences = numbered 0 (ds.filterMap Decl.occurrence?) := by
  induction ds using List.reverseRecOn with
  | nil => rfl
  | append_singleton ds d ih =>
    rw [List.foldl_append, List.filterMap_append]
    cases d <;> simp [addDecl, FmpFile.addItem, FmpFile.addScripts, Decl.occurrence?, List.filterMap_cons, ih]
    rw [numbered_length]
    rename_i n t
    simpa using numbered_insert (ds.filterMap Decl.occurrence?) { name := n, tableActualName := t } 0

theorem file_scripts (ds : List Decl) : (ds.foldl addDecl {}).scripts = numbered 1 (ds.flatMap Decl.scripts?) := by
  induction ds using List.reverseRecOn with
  | nil => rfl
  | append_singleton ds d ih =>
    rw [List.foldl_append, List.flatMap_append]
    cases d <;> simp only [List.foldl_cons, List.foldl_nil, addDecl, FmpFile.addItem, FmpFile.addScripts, ih]
    case scripts l => rw [numbered_inserts]; simp [Decl.scripts?]
    all_goals simp [Decl.scripts?]

theorem file_tests (ds : List Decl) : (ds.foldl addDecl {}).tests = ds.filterMap Decl.test? := by
  induction ds using List.reverseRecOn with
  | nil => rfl
  | append_singleton ds d ih =>
    rw [List.foldl_append, List.filterMap_append]
    cases d <;> simp [addDecl, FmpFile.addItem, FmpFile.addScripts, Decl.test?, List.filterMap_cons, ih]

theorem file_rest (ds : List Decl) :
    (ds.foldl addDecl {}).layouts = [] ∧ (ds.foldl addDecl {}).dataSources = [] ∧ (ds.foldl addDecl {}).name = [] := by
  induction ds using List.reverseRecOn with
  | nil => exact ⟨rfl, rfl, rfl⟩
  | append_singleton ds d ih =>
    rw [List.foldl_append]
    cases d <;> exact ih

theorem standsFor_file (ds : List Decl) : StandsFor ds (ds.foldl addDecl {}) where
  tables := by rw [file_tables]; exact numbered_get _ _
  valueLists := by rw [file_valueLists]; exact numbered_get _ _
  scripts := by rw [file_scripts]; exact numbered_get _ _
  occurrences := by rw [file_occurrences]; exact numbered_get _ _
  tests := file_tests ds
  rest := file_rest ds

theorem tableCount_append (a b : List Decl) : tableCount (a ++ b) = tableCount a + tableCount b := by
  simp [tableCount]

theorem tableCount_rel {d : Decl} (h : d.relationship? ≠ none) (b : List Decl) : tableCount (d :: b) = tableCount b := by
  cases d <;> simp [Decl.relationship?] at h
  simp [tableCount, Decl.table?, List.filterMap_cons]

theorem relationshipAt_append (ds : List Decl) (d : Decl) (k : Nat) (r : FRelationship) :
    RelationshipAt (ds ++ [d]) k r ↔
      (RelationshipAt ds k r ∧ (d.relationship? ≠ none → k ≠ tableCount ds + 1)) ∨
        (d.relationship? = some r ∧ k = tableCount ds + 1) := by
  constructor
  · rintro ⟨pre, e, post, h1, h2, h3, h4⟩
    rcases List.eq_nil_or_concat post with rfl | ⟨post', x, rfl⟩
    · obtain ⟨rfl, he⟩ := List.append_inj' h1 rfl
      cases he
      exact .inr ⟨h2, h3⟩
    · rw [List.concat_eq_append] at *
      rw [← List.cons_append, ← List.append_assoc] at h1
      obtain ⟨rfl, he⟩ := List.append_inj' h1 rfl
      cases he
      refine .inl ⟨⟨pre, e, post', rfl, h2, h3, ?_⟩, ?_⟩
      · intro mid d' p hp hd
        exact h4 mid d' (p ++ [d]) (by simp [hp]) hd
      · intro hd hk
        have := h4 post' d [] rfl hd
        rw [tableCount_append, tableCount_rel (by simp [h2])] at hk
        omega
  · rintro (⟨⟨pre, e, post, rfl, h2, h3, h4⟩, hk⟩ | ⟨h2, h3⟩)
    · refine ⟨pre, e, post ++ [d], by simp, h2, h3, ?_⟩
      intro mid d' p hp hd hm
      rcases List.eq_nil_or_concat p with rfl | ⟨p', x, rfl⟩
      · obtain ⟨rfl, he⟩ := List.append_inj' hp rfl
        cases he
        refine hk hd ?_
        rw [tableCount_append, tableCount_rel (by simp [h2]), hm]
        omega
      · rw [List.concat_eq_append, ← List.cons_append, ← List.append_assoc] at hp
        obtain ⟨rfl, he⟩ := List.append_inj' hp rfl
        exact h4 mid d' p' rfl hd hm
    · refine ⟨ds, d, [], rfl, h2, h3, ?_⟩
      intro mid d' p hp
      cases mid <;> cases hp

theorem file_relationships (ds : List Decl) (k : Nat) (r : FRelationship) :
    (ds.foldl addDecl {}).relationships.get k = some r ↔ RelationshipAt ds k r := by
  induction ds using List.reverseRecOn with
  | nil =>
    refine ⟨fun h => (by simp [HMap.get] at h), ?_⟩
    rintro ⟨pre, e, post, h, _⟩
    cases pre <;> cases h
  | append_singleton ds d ih =>
    rw [relationshipAt_append, ← ih, List.foldl_append]
    cases d
    case relationship a b =>
      simp only [List.foldl_cons, List.foldl_nil, addDecl, FmpFile.addItem, file_tables, numbered_length,
        HMap.get_insert, Decl.relationship?, tableCount]
      by_cases hk : k = (ds.filterMap Decl.table?).length + 1
      · simp [hk]
      · simp [hk]
    all_goals simp [addDecl, FmpFile.addItem, FmpFile.addScripts, Decl.relationship?]

theorem lateBlocks_program {ds : List Decl} {ts : List BurnTok} (h : ProgramToks ds ts) : LateBlocks ts := by
  cases h with
  | nil => intro t ht; cases ht
  | cons hd _ =>
    intro t ht
    cases hd with
    | scripts hb =>
      obtain ⟨_, _⟩ := hb
      simp only [List.cons_append, List.take_succ_cons, List.take_zero, List.mem_cons, List.not_mem_nil, or_false] at ht
      rcases ht with rfl | rfl <;> simp
    | _ =>
      simp only [List.cons_append, List.take_succ_cons, List.take_zero, List.mem_cons, List.not_mem_nil, or_false] at ht
      rcases ht with rfl | rfl <;> simp

theorem lateParens_program {ds : List Decl} {ts : List BurnTok} (h : ProgramToks ds ts) (rest : List BurnTok)
    (hr : ds = [] → LateParens 0 rest) : LateParens 0 (ts ++ rest) := by
  cases h with
  | nil => exact hr rfl
  | cons hd _ =>
    intro t ht
    cases hd with
    | scripts hb =>
      obtain ⟨_, _⟩ := hb
      simp at ht
      rcases ht with rfl | rfl | rfl <;> simp
    | table _ hp =>
      rename_i inner _
      cases inner with
      | nil => simp [closing] at ht; rcases ht with rfl | rfl | rfl <;> simp
      | cons a inner =>
        simp at ht
        rcases ht with rfl | rfl | rfl
        · simp
        · simp
        · exact hp _ rfl
    | valueList _ hp =>
      rename_i inner _
      cases inner with
      | nil => simp [closing] at ht; rcases ht with rfl | rfl | rfl <;> simp
      | cons a inner =>
        simp at ht
        rcases ht with rfl | rfl | rfl
        · simp
        · simp
        · exact hp _ rfl
    | _ =>
      simp at ht
      rcases ht with rfl | rfl | rfl <;> simp

theorem compile_program [Rt] (p : Profile) {ds : List Decl} {ts : List BurnTok} {s : Str} (h : ProgramToks ds ts)
    (hs : BurnText ts s) : compileBurn p s = .ok (ds.foldl addDecl {}) := by
  unfold compileBurn lexBurn
  rw [plex_text hs (by intro t ht; cases ht) (fun _ => lateBlocks_program h)
    (by simpa using lateParens_program h [] (fun _ => by intro t ht; simp at ht)), ok_bind, List.nil_append,
    parse_program h, ok_bind]
  rfl

theorem numbered_keys {α : Type} (a : List α) (n : Nat) : (numbered n a).map (·.1) = List.range' n a.length := by
  induction a generalizing n with
  | nil => rfl
  | cons x xs ih => simp [numbered, ih, List.range'_succ]

theorem numbered_nodup {α : Type} (a : List α) (n : Nat) : ((numbered n a).map (·.1)).Nodup := by
  rw [numbered_keys]; exact List.nodup_range'

theorem mem_numbered {α : Type} {a : List α} {n : Nat} {e : Nat × α} (h : e ∈ numbered n a) : e.2 ∈ a := by
  induction a generalizing n with
  | nil => cases h
  | cons x xs ih =>
    rcases List.mem_cons.mp h with rfl | h
    · simp
    · exact List.mem_cons_of_mem _ (ih h)

theorem distinct_file (ds : List Decl) : DistinctIds (ds.foldl addDecl {}) where
  tables := by rw [file_tables]; exact numbered_nodup _ _
  occs := by rw [file_occurrences]; exact numbered_nodup _ _
  fields := by
    intro e he
    rw [file_tables] at he
    obtain ⟨d, _, hd⟩ := List.mem_filterMap.mp (mem_numbered he)
    cases d <;> simp [Decl.table?] at hd
    rw [← hd]; exact List.nodup_nil

theorem rels_zero (ds : List Decl) : ∀ e ∈ (ds.foldl addDecl {}).relationships, e.2.table1 = 0 ∧ e.2.table2 = 0 := by
  induction ds using List.reverseRecOn with
  | nil => intro e he; cases he
  | append_singleton ds d ih =>
    rw [List.foldl_append]
    cases d
    case relationship a b =>
      intro e he
      simp only [List.foldl_cons, List.foldl_nil, addDecl, FmpFile.addItem, HMap.insert] at he
      split at he
      · obtain ⟨x, hx, rfl⟩ := List.mem_map.mp he
        split
        · exact ⟨rfl, rfl⟩
        · exact ih x hx
      · rcases List.mem_append.mp he with he | he
        · exact ih e he
        · rw [List.mem_singleton.mp he]; exact ⟨rfl, rfl⟩
    all_goals exact ih

theorem rels_file (ds : List Decl) : RelsInRange (ds.foldl addDecl {}) := by
  intro e he
  obtain ⟨h1, h2⟩ := rels_zero ds e he
  rw [h1, h2]
  exact ⟨Nat.zero_le _, Nat.zero_le _⟩

theorem unique_file (ds : List Decl) : UniqueKeys (ds.foldl addDecl {}) where
  tables := by rw [file_tables]; exact numbered_nodup _ _
  valueLists := by rw [file_valueLists]; exact numbered_nodup _ _
  occurrences := by rw [file_occurrences]; exact numbered_nodup _ _
  scripts := by rw [file_scripts]; exact numbered_nodup _ _
  layouts := by rw [(file_rest ds).1]; exact List.nodup_nil
  relationships := by
    induction ds using List.reverseRecOn with
    | nil => exact List.nodup_nil
    | append_singleton ds d ih =>
      rw [List.foldl_append]
      cases d
      case relationship a b => exact HMap.nodup_insert _ ih
      all_goals exact ih

/-! ### Merging -/

theorem HMap.get_extend {α : Type} (m o : HMap α) (h : (o.map (·.1)).Nodup) (k : Nat) :
    (m.extend o).get k = (o.get k).or (m.get k) := by
  unfold HMap.extend
  induction o generalizing m with
  | nil => rfl
  | cons e o ih =>
    rw [List.map_cons, List.nodup_cons] at h
    rw [List.foldl_cons, ih _ h.2, HMap.get_insert, HMap.get_cons]
    by_cases hk : e.1 = k
    · have : HMap.get o k = none := by
        cases hg : HMap.get o k with
        | none => rfl
        | some v =>
          have hc : HMap.contains o k = true := by rw [HMap.contains_eq, hg]; rfl
          rw [HMap.contains_iff] at hc
          exact absurd (hk ▸ hc) h.1
      simp [hk, this]
    · simp [hk, Ne.symm hk]

end BurnFm
