import Verif.Spec.ScriptCut
import Verif.Proofs.BurnScript

/-! The script lexer on any text. -/

namespace BurnFm
open Spec

theorem scriptWord_wordTok {w : Str} {t : ScriptTok} (hw : w ≠ []) (h : ScriptWord w t) : flushWord w = [t] := by
  cases h with
  | keyword h => exact (keyword_word h).2
  | number h =>
    have : ∀ k ∈ keywords.map (·.1), isFloatText k = false := by decide
    have hk : w ∉ keywords.map (·.1) := fun hm => by rw [this w hm] at h; cases h
    simp only [keywords, List.map_cons, List.map_nil, List.mem_cons, List.not_mem_nil, or_false, not_or] at hk
    obtain ⟨h4, h5, h6, h7, h8, h9⟩ := hk
    unfold flushWord wordTok
    rw [if_neg (by simpa using hw), if_neg h4, if_neg h5, if_neg h6, if_neg h7, if_neg h8, if_neg h9, if_pos h]
  | name h1 h2 => exact flushWord_name hw h1 h2

theorem scriptWord_total (w : Str) : ∃ t, ScriptWord w t := by
  by_cases h : w ∈ keywords.map (·.1)
  · obtain ⟨⟨w', ty⟩, hm, rfl⟩ := List.mem_map.mp h
    exact ⟨_, .keyword hm⟩
  · cases hf : isFloatText w with
    | true => exact ⟨_, .number hf⟩
    | false => exact ⟨_, .name h hf⟩

/-- At a depth of parentheses, the rest of the text does not end the arguments, nor the one that is being read. -/
def NeverEnds : Nat → Str → Prop
  | 0, b => OpenArg b
  | k + 1, b => ∀ x y, b = x ++ ')' :: y → Nested x → NeverEnds k y

theorem neverEnds_lex (b : Str) : ∀ (k : Nat) (q : Bool) (buf : Str) (acc : List ScriptTok), NeverEnds k b →
    scriptLex (.args k q) buf acc b = .ok acc := by
  induction b with
  | nil => intro k q buf acc _; rw [scriptLex]
  | cons c b ih =>
    intro k q buf acc h
    have hopen : c = '(' → NeverEnds (k + 1) b := by
      rintro rfl x y rfl hx
      cases k with
      | zero =>
        rintro x' d y' rfl hx'
        exact h ('(' :: x ++ ')' :: x') d y' (by simp) (.parens hx hx')
      | succ k =>
        rintro x' y' rfl hx'
        exact h ('(' :: x ++ ')' :: x') y' (by simp) (.parens hx hx')
    have hother : c ≠ '(' → c ≠ ')' → NeverEnds k b := by
      intro h1 h2
      cases k with
      | zero =>
        rintro x d y rfl hx
        exact h (c :: x) d y (by simp) (.char h1 h2 hx)
      | succ k =>
        rintro x y rfl hx
        exact h (c :: x) y (by simp) (.char h1 h2 hx)
    unfold scriptLex
    dsimp only
    split
    · next hc =>
      have := hother (by rw [hc]; decide) (by rw [hc]; decide)
      split <;> exact ih _ _ _ _ this
    · split
      · next hc => exact ih _ _ _ _ (hother (by rw [hc]; decide) (by rw [hc]; decide))
      · split
        · next hc =>
          subst hc
          cases k with
          | zero => exact absurd rfl (h [] ')' b rfl .nil).1
          | succ k => exact ih _ _ _ _ (h [] b rfl .nil)
        · next hc2 =>
          split
          · next hc => exact ih _ _ _ _ (hopen hc)
          · next hc1 =>
            have := hother hc1 hc2
            split
            · next hc =>
              subst hc
              cases k with
              | zero => exact absurd rfl (h [] ',' b rfl .nil).2
              | succ k => exact ih _ _ _ _ this
            · exact ih _ _ _ _ this

theorem blex_unclosed (as : List Str) (b : Str) (h : ∀ a ∈ as, ArgBody a) (hb : OpenArg b) (k : Nat) (acc : List ScriptTok) :
    scriptLex (.args 0 (k % 2 == 1)) [] acc (as.flatMap (fun a => a ++ [',']) ++ b) = .ok (acc ++ (asRead k as).map tArg) := by
  induction as generalizing k acc with
  | nil => rw [List.flatMap_nil, List.nil_append, neverEnds_lex b 0 _ _ _ hb]; simp [asRead]
  | cons a as ih =>
    rw [List.flatMap_cons, List.append_assoc, List.append_assoc, blex_piece (h a (by simp)), List.singleton_append]
    conv => lhs; unfold scriptLex
    show scriptLex (.args 0 ((k + a.count '"') % 2 == 1)) [] (acc ++ [tArg _]) _ = _
    rw [ih (fun x hx => h x (List.mem_cons_of_mem _ hx))]
    conv => rhs; rw [asRead]
    simp

theorem nested_append {x y : Str} (hx : Nested x) (hy : Nested y) : Nested (x ++ y) := by
  induction hx with
  | nil => exact hy
  | char h1 h2 _ ih => exact .char h1 h2 ih
  | @parens s t hs _ _ ih =>
    have := Nested.parens hs ih
    simpa using this

theorem commaSeparated_comma : ∀ {as : List Str}, as ≠ [] → commaSeparated as ++ [','] = as.flatMap (fun a => a ++ [','])
  | [], h => absurd rfl h
  | [a], _ => by simp [commaSeparated]
  | a :: b :: as, _ => by
    have := commaSeparated_comma (as := b :: as) (by simp)
    rw [List.flatMap_cons, ← this]
    simp [commaSeparated]

/-- Arguments that are not closed: those with a comma after them, and the beginning of the last one. -/
theorem unclosed_split (t : Str) (h : ¬ ∃ x y, t = x ++ ')' :: y ∧ Nested x) :
    ∃ (as : List Str) (b : Str), t = as.flatMap (fun a => a ++ [',']) ++ b ∧ (∀ a ∈ as, ArgBody a) ∧ OpenArg b := by
  induction hn : t.length using Nat.strongRecOn generalizing t with
  | _ n ih =>
    by_cases ho : OpenArg t
    · exact ⟨[], t, rfl, by simp, ho⟩
    · have : ∃ x y, t = x ++ ',' :: y ∧ Nested x := by
        refine Classical.byContradiction fun hne => ho ?_
        intro x c y e hx
        exact ⟨fun hc => h ⟨x, y, by rw [e, hc], hx⟩, fun hc => hne ⟨x, y, by rw [e, hc], hx⟩⟩
      obtain ⟨x, y, rfl, hx⟩ := this
      obtain ⟨as, has, h1, rfl⟩ := nested_pieces hx
      obtain ⟨bs, b, rfl, h2, h3⟩ := ih y.length (by rw [← hn]; simp; omega) y
        (by
          rintro ⟨x', y', rfl, hx'⟩
          exact h ⟨commaSeparated as ++ ',' :: x', y', by simp, nested_append hx (.char (by decide) (by decide) hx')⟩) rfl
      refine ⟨as ++ bs, b, ?_, ?_, h3⟩
      · rw [List.flatMap_append, ← commaSeparated_comma has]; simp
      · intro a ha
        rcases List.mem_append.mp ha with ha | ha
        · exact h1 a ha
        · exact h2 a ha

theorem scriptSymbols_iff (c : Char) (ty : ScriptTokType) : (c, ty) ∈ scriptSymbols ↔ scriptSymbol c = some ty := by
  constructor
  · intro h
    simp only [scriptSymbols, List.mem_cons, List.not_mem_nil, or_false, Prod.mk.injEq] at h
    rcases h with ⟨rfl, rfl⟩ | ⟨rfl, rfl⟩ | ⟨rfl, rfl⟩ | ⟨rfl, rfl⟩ | ⟨rfl, rfl⟩ | ⟨rfl, rfl⟩ | ⟨rfl, rfl⟩ | ⟨rfl, rfl⟩ |
      ⟨rfl, rfl⟩ <;> rfl
  · intro h
    unfold scriptSymbol at h
    split at h <;> first | cases h <;> done | (injection h with h; subst h; decide)

theorem scriptSymbols_plain {c : Char} {ty : ScriptTokType} (h : (c, ty) ∈ scriptSymbols) : isSpace c = false ∧ c ≠ '(' := by
  simp only [scriptSymbols, List.mem_cons, List.not_mem_nil, or_false, Prod.mk.injEq] at h
  rcases h with ⟨rfl, _⟩ | ⟨rfl, _⟩ | ⟨rfl, _⟩ | ⟨rfl, _⟩ | ⟨rfl, _⟩ | ⟨rfl, _⟩ | ⟨rfl, _⟩ | ⟨rfl, _⟩ | ⟨rfl, _⟩ <;> decide

theorem scriptPiece_lex {w r : Str} {ts : List ScriptTok} (h : ScriptPiece w ts r) (acc : List ScriptTok) :
    scriptLex .normal [] acc (w ++ r) = scriptLex .normal [] (acc ++ ts) r := by
  cases h with
  | blank h =>
    rw [List.singleton_append]
    conv => lhs; unfold scriptLex
    simp [h, flushWord]
  | symbol h => exact blex_symbol ((scriptSymbols_iff _ _).mp h) (scriptSymbols_plain h).1 (scriptSymbols_plain h).2
  | word hw h hd ht => rw [blex_word h, blex_flush hd, List.nil_append, scriptWord_wordTok hw ht]
  | lastWord hw h => rw [blex_word h, scriptLex, scriptLex, List.append_nil]
  | notEqual | equal | greaterEqual | lessEqual =>
    simp only [List.cons_append, List.nil_append]
    conv => lhs; unfold scriptLex
    simp [isSpace, scriptSymbol, flushWord, unwrap, bind, Except.bind]
    rw [scriptLex]
  | exclamation h | assign h =>
    simp only [List.cons_append, List.nil_append]
    conv => lhs; unfold scriptLex
    simp [isSpace, scriptSymbol, flushWord, unwrap, bind, Except.bind, h]
  | greater h | less h =>
    simp only [List.cons_append, List.nil_append]
    conv => lhs; unfold scriptLex
    simp [isSpace, scriptSymbol, flushWord, unwrap, bind, Except.bind, h]
    rw [scriptLex]
  | @arguments as _ hn h =>
    have e : '(' :: commaSeparated as ++ [')'] ++ r = '(' :: (commaSeparated as ++ ')' :: r) := by simp
    rw [e, ← blex_pieces (k := 0) hn h]
    conv => lhs; unfold scriptLex
    simp [isSpace, flushWord]
  | @unclosed as b h hb =>
    have e : '(' :: as.flatMap (fun a => a ++ [',']) ++ b ++ [] = '(' :: (as.flatMap (fun a => a ++ [',']) ++ b) := by simp
    have := blex_unclosed as b h hb 0 acc
    rw [e]
    conv => rhs; unfold scriptLex
    rw [← this]
    conv => lhs; unfold scriptLex
    simp [isSpace, flushWord]

theorem scriptPiece_ne {w r : Str} {ts : List ScriptTok} (h : ScriptPiece w ts r) : w ≠ [] := by
  cases h with
  | word hw => exact hw
  | lastWord hw => exact hw
  | _ => simp

theorem scriptLast_lex {c : Char} (h : c ∈ ['!', '=', '<', '>']) (acc : List ScriptTok) :
    scriptLex .normal [] acc [c] = .error .unwrap := by
  simp only [List.mem_cons, List.not_mem_nil, or_false] at h
  rcases h with rfl | rfl | rfl | rfl <;>
  (rw [scriptLex]; simp [isSpace, scriptSymbol, unwrap, bind, Except.bind])

theorem scriptPiece_or {s : Str} (hs : s ≠ []) :
    (∃ c ∈ ['!', '=', '<', '>'], s = [c]) ∨ ∃ w ts r, s = w ++ r ∧ ScriptPiece w ts r := by
  cases s with
  | nil => exact absurd rfl hs
  | cons c r =>
    by_cases hsp : isSpace c = true
    · exact .inr ⟨[c], _, r, rfl, .blank hsp⟩
    by_cases hin : NameChar c
    · right
      have hsplit : r = r.takeWhile (fun d => decide (NameChar d)) ++ r.dropWhile (fun d => decide (NameChar d)) :=
        (List.takeWhile_append_dropWhile).symm
      have hw : ∀ d ∈ c :: r.takeWhile (fun d => decide (NameChar d)), NameChar d := by
        intro d hd
        rcases List.mem_cons.mp hd with rfl | hd
        · exact hin
        · have := List.all_takeWhile (p := fun d => decide (NameChar d)) (l := r)
          rw [List.all_eq_true] at this
          simpa using this d hd
      have hr := List.head?_dropWhile_not (fun d => decide (NameChar d)) r
      generalize r.takeWhile (fun d => decide (NameChar d)) = u at hsplit hw
      generalize r.dropWhile (fun d => decide (NameChar d)) = v at hsplit hr
      subst hsplit
      cases v with
      | nil => exact ⟨c :: u, _, [], rfl, .lastWord (by simp) hw⟩
      | cons d v =>
        obtain ⟨t, ht⟩ := scriptWord_total (c :: u)
        exact ⟨c :: u, _, d :: v, rfl, .word (by simp) hw (by simpa using hr) ht⟩
    · have hc : c ∈ ['(', '{', '}', ',', ';', '!', '=', '<', '>', '+', '-', '*', '/', '&'] :=
        Classical.not_not.mp fun h => hin ⟨by simpa using hsp, h⟩
      cases hsym : scriptSymbol c with
      | some ty => exact .inr ⟨_, _, r, rfl, .symbol ((scriptSymbols_iff _ _).mpr hsym)⟩
      | none =>
        simp only [List.mem_cons, List.not_mem_nil, or_false] at hc
        rcases hc with rfl | rfl | rfl | rfl | rfl | rfl | rfl | rfl | rfl | rfl | rfl | rfl | rfl | rfl
        · right
          by_cases h : ∃ x y, r = x ++ ')' :: y ∧ Nested x
          · obtain ⟨x, y, rfl, hx⟩ := h
            obtain ⟨as, has, h1, rfl⟩ := nested_pieces hx
            exact ⟨_, _, y, by simp, .arguments has h1⟩
          · obtain ⟨as, b, rfl, h1, h2⟩ := unclosed_split r h
            exact ⟨_, _, [], by simp, .unclosed h1 h2⟩
        iterate 4 cases hsym
        · cases r with
          | nil => exact .inl ⟨_, by simp, rfl⟩
          | cons d r =>
            by_cases hd : d = '='
            · subst hd; exact .inr ⟨_, _, r, rfl, .notEqual⟩
            · exact .inr ⟨_, _, d :: r, rfl, .exclamation hd⟩
        · cases r with
          | nil => exact .inl ⟨_, by simp, rfl⟩
          | cons d r =>
            by_cases hd : d = '='
            · subst hd; exact .inr ⟨_, _, r, rfl, .equal⟩
            · exact .inr ⟨_, _, d :: r, rfl, .assign hd⟩
        · cases r with
          | nil => exact .inl ⟨_, by simp, rfl⟩
          | cons d r =>
            by_cases hd : d = '='
            · subst hd; exact .inr ⟨_, _, r, rfl, .lessEqual⟩
            · exact .inr ⟨_, _, r, rfl, .less hd⟩
        · cases r with
          | nil => exact .inl ⟨_, by simp, rfl⟩
          | cons d r =>
            by_cases hd : d = '='
            · subst hd; exact .inr ⟨_, _, r, rfl, .greaterEqual⟩
            · exact .inr ⟨_, _, r, rfl, .greater hd⟩
        iterate 5 cases hsym

theorem scriptCut_lex {s : Str} {ts : List ScriptTok} (h : ScriptCut s ts) (acc : List ScriptTok) :
    scriptLex .normal [] acc s = .ok (acc ++ ts) := by
  induction h generalizing acc with
  | nil => simp [scriptLex]
  | piece hp _ ih => rw [scriptPiece_lex hp, ih, List.append_assoc]

theorem scriptUncut_lex {s : Str} (h : ScriptUncut s) (acc : List ScriptTok) : scriptLex .normal [] acc s = .error .unwrap := by
  induction h generalizing acc with
  | last h => exact scriptLast_lex h acc
  | piece hp _ ih => rw [scriptPiece_lex hp, ih]

theorem scriptCut_or (s : Str) : (∃ ts, ScriptCut s ts) ∨ ScriptUncut s := by
  induction hn : s.length using Nat.strongRecOn generalizing s with
  | _ n ih =>
    by_cases hs : s = []
    · subst hs; exact .inl ⟨_, .nil⟩
    · rcases scriptPiece_or hs with ⟨c, h, rfl⟩ | ⟨w, ts, r, rfl, hp⟩
      · exact .inr (.last h)
      · have hw := List.length_pos_iff.mpr (scriptPiece_ne hp)
        rcases ih r.length (by rw [List.length_append] at hn; omega) r rfl with ⟨us, h⟩ | h
        · exact .inl ⟨_, .piece hp h⟩
        · exact .inr (.piece hp h)

theorem lexScript_iff (s : Str) (ts : List ScriptTok) : lexScript s = .ok ts ↔ ScriptCut s ts := by
  constructor
  · intro h
    rcases scriptCut_or s with ⟨us, hc⟩ | hc
    · have := scriptCut_lex hc []
      rw [show scriptLex .normal [] [] s = .ok ts from h] at this
      cases this
      exact hc
    · have := scriptUncut_lex hc []
      rw [show scriptLex .normal [] [] s = .ok ts from h] at this
      cases this
  · intro h
    exact scriptCut_lex h []

theorem lexScript_error_iff (s : Str) (p : Panic) : lexScript s = .error p ↔ p = .unwrap ∧ ScriptUncut s := by
  constructor
  · intro h
    rcases scriptCut_or s with ⟨us, hc⟩ | hc
    · have := scriptCut_lex hc []
      rw [show scriptLex .normal [] [] s = .error p from h] at this
      cases this
    · have := scriptUncut_lex hc []
      rw [show scriptLex .normal [] [] s = .error p from h] at this
      cases this
      exact ⟨rfl, hc⟩
  · rintro ⟨rfl, h⟩
    exact scriptUncut_lex h []

end BurnFm
