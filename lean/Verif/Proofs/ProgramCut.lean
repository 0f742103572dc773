import Verif.Spec.ProgramCut
import Verif.Proofs.Burn

/-! The lexer of programs on any text. -/

namespace BurnFm
open Spec

section
variable [Rt] {p : Profile}

theorem unreadable_word {w : Str} (h : Unreadable w) : burnWord w = none := by
  obtain ⟨hf, c, r, rfl, hd⟩ := h
  have hk : ∀ k ∈ burnKeywords.map (·.1), ∀ c ∈ k.head?, isDigit c = false := by decide
  have hn : c :: r ∉ burnKeywords.map (·.1) := fun hm => by
    have := hk _ hm c (by simp)
    rw [hd] at this; cases this
  simp only [burnKeywords, List.map_cons, List.map_nil, List.mem_cons, List.not_mem_nil, or_false, not_or] at hn
  obtain ⟨h1, h2, h3, h4, h5, h6, h7⟩ := hn
  unfold burnWord
  rw [if_neg h1, if_neg h2, if_neg h3, if_neg h4, if_neg h5, if_neg h6, if_neg h7]
  simp [parseF64, hf, hd]

theorem programWord_word {w : Str} {t : BurnTok} (h : ProgramWord w t) : burnWord w = some t := by
  cases h with
  | keyword h => exact (burnWord_keyword h).1
  | number h => exact burnWord_number h
  | name h1 h2 h3 => exact burnWord_name h1 h2 h3

theorem programWord_or (w : Str) : Unreadable w ∨ ∃ t, ProgramWord w t := by
  by_cases hk : w ∈ burnKeywords.map (·.1)
  · obtain ⟨⟨w', ty⟩, hm, rfl⟩ := List.mem_map.mp hk
    exact .inr ⟨_, .keyword hm⟩
  · cases hf : isFloatText w with
    | true => exact .inr ⟨_, .number (x := Rt.ofText w) (by simp [parseF64, hf])⟩
    | false =>
      cases w with
      | nil => exact .inr ⟨_, .name hk hf (by simp)⟩
      | cons c r =>
        cases hd : isDigit c with
        | true => exact .inl ⟨hf, c, r, rfl, hd⟩
        | false => exact .inr ⟨_, .name hk hf (by intro d e; cases e; exact hd)⟩

theorem programWord_ty {w : Str} {t : BurnTok} (h : ProgramWord w t) : t.ty ≠ .foundIn := by
  cases h with
  | keyword h => exact (burnWord_keyword h).2.2.2.1
  | number h => simp
  | name h1 h2 h3 => simp

omit [Rt] in
theorem unreadable_ne {w : Str} (h : Unreadable w) : w ≠ [] := by
  obtain ⟨_, c, r, rfl, _⟩ := h; simp

theorem wordTokens_flush {w : Str} {ts : List BurnTok} (h : WordTokens w ts) : burnFlush w = ts := by
  cases h with
  | nothing => rfl
  | word hw h => unfold burnFlush; rw [if_neg (by simpa using hw), programWord_word h]; rfl
  | dropped h => unfold burnFlush; rw [if_neg (by simpa using unreadable_ne h), unreadable_word h]; rfl

theorem wordTokens_ty {w : Str} {ts : List BurnTok} (h : WordTokens w ts) : NoFoundIn ts := by
  cases h with
  | nothing => intro t ht; cases ht
  | word hw h => exact noFoundIn_single (programWord_ty h)
  | dropped h => intro t ht; cases ht

theorem wordTokens_total (w : Str) : ∃ ts, WordTokens w ts := by
  by_cases hw : w = []
  · subst hw; exact ⟨_, .nothing⟩
  · rcases programWord_or w with h | ⟨t, h⟩
    · exact ⟨_, .dropped h⟩
    · exact ⟨_, .word hw h⟩

theorem wordRun_lex {left x w : Str} (h : WordRun left x w) {acc : List BurnTok} {r : Str} :
    burnLex p .normal left acc (x ++ r) = burnLex p .normal w acc r := by
  induction h generalizing r with
  | chars h => exact plex_word h
  | more _ hu hc h ih =>
    rw [List.append_assoc, ih, List.cons_append]
    conv => lhs; unfold burnLex
    simp only [hc, if_true, unreadable_word hu]
    rw [if_neg (by simpa using unreadable_ne hu)]
    exact plex_word h

theorem blank_lex {w : Str} {c : Char} {ts : List BurnTok} (hc : isSpace c = true) (hu : ¬ Unreadable w) (h : WordTokens w ts)
    {acc : List BurnTok} {r : Str} : burnLex p .normal w acc (c :: r) = burnLex p .normal [] (acc ++ ts) r := by
  conv => lhs; unfold burnLex
  simp only [hc, if_true]
  cases h with
  | nothing => simp
  | word hw h => rw [if_neg (by simpa using hw), programWord_word h]
  | dropped h => exact absurd h hu

theorem blank_inside {m : BurnLexMode} (hm : m = .str ∨ m = .script ∨ m = .calc) {q : Str} (hq : ∀ c ∈ q, isSpace c = true)
    {acc : List BurnTok} : burnLex p m [] acc q = .ok acc := by
  induction q with
  | nil => rcases hm with rfl | rfl | rfl <;> simp [burnLex]
  | cons c q ih =>
    have hc := hq c (by simp)
    have ih := ih (fun d hd => hq d (List.mem_cons_of_mem _ hd))
    unfold burnLex
    rcases hm with rfl | rfl | rfl <;> simpa [hc] using ih

theorem open_inside {m : BurnLexMode} {e : Char} (hm : (m = .str ∧ e = '"') ∨ (m = .script ∧ e = ']') ∨ (m = .calc ∧ e = '}'))
    {q : Str} (hq : e ∉ q) (hs : ∃ c ∈ q, isSpace c = false) {acc : List BurnTok} : burnLex p m [] acc q = .error .unwrap := by
  have h := plex_inside_start (p := p) hm hq (acc := acc) (rest := [])
  rw [List.append_nil] at h
  have hne : q.dropWhile isSpace ≠ [] := by
    obtain ⟨c, hc, hs⟩ := hs
    intro hn
    have := (List.takeWhile_append_dropWhile (p := isSpace) (l := q))
    rw [hn, List.append_nil] at this
    rw [← this] at hc
    have ha := List.all_takeWhile (p := isSpace) (l := q)
    rw [List.all_eq_true] at ha
    rw [ha c hc] at hs; cases hs
  rw [h]
  rcases hm with ⟨rfl, _⟩ | ⟨rfl, _⟩ | ⟨rfl, _⟩ <;> simp [burnLex, hne]

theorem quote_lex {w : Str} {acc : List BurnTok} {r : Str} :
    burnLex p .normal w acc ('"' :: r) = burnLex p .str [] (acc ++ burnFlush w) r := by
  conv => lhs; unfold burnLex
  simp [isSpace]

theorem curly_lex {w : Str} {acc : List BurnTok} {r : Str} :
    burnLex p .normal w acc ('{' :: r) = burnLex p .calc [] (acc ++ burnFlush w ++ [⟨.openCurly, []⟩]) r := by
  conv => lhs; unfold burnLex
  simp [isSpace]

theorem programMark_lex {n : Nat} {u left r w : Str} {vs ts : List BurnTok} (h : ProgramMark n u vs left r) (hw : WordTokens w ts)
    {acc : List BurnTok} (hn : acc.length = n) (hf : NoFoundIn acc) :
    burnLex p .normal w acc (u ++ r) = burnLex p .normal left (acc ++ (ts ++ vs)) r := by
  have hw := wordTokens_flush hw
  rw [← List.append_assoc]
  cases h with
  | mark h =>
    rw [List.singleton_append]
    conv => lhs; unfold burnLex
    simp only [burnMarks, List.mem_cons, List.not_mem_nil, or_false, Prod.mk.injEq] at h
    rcases h with ⟨rfl, rfl⟩ | ⟨rfl, rfl⟩ | ⟨rfl, rfl⟩ | ⟨rfl, rfl⟩ | ⟨rfl, rfl⟩ | ⟨rfl, rfl⟩ | ⟨rfl, rfl⟩ <;>
      simp [isSpace, burnSymbol, hw]
  | equal =>
    simp only [List.cons_append, List.nil_append]
    conv => lhs; unfold burnLex
    simp [isSpace, hw]
    rw [burnLex]
  | assign h =>
    simp only [List.cons_append, List.nil_append]
    conv => lhs; unfold burnLex
    simp [isSpace, hw, h]
  | lastEqual =>
    simp only [List.append_nil]
    conv => lhs; unfold burnLex
    simp [isSpace, hw]
  | paren h => rw [List.singleton_append, plex_paren (by omega), hw]
  | block h hq =>
    rw [List.append_assoc, List.cons_append, plex_open (by intro e; subst e; simp at hn; omega) hf,
      plex_inside_start (.inr (.inl ⟨rfl, rfl⟩)) hq, List.singleton_append, hw]
    conv => lhs; unfold burnLex
    simp [isSpace]
  | string hq =>
    rw [List.append_assoc, List.cons_append, quote_lex, plex_inside_start (.inl ⟨rfl, rfl⟩) hq, List.singleton_append, hw]
    conv => lhs; unfold burnLex
    simp [isSpace]
  | calculation hq =>
    rw [List.append_assoc, List.cons_append, curly_lex, plex_inside_start (.inr (.inr ⟨rfl, rfl⟩)) hq, List.singleton_append, hw]
    conv => lhs; unfold burnLex
    simp [isSpace]
  | blankBlock h hq =>
    rw [List.append_nil, plex_open (by intro e; subst e; simp at hn; omega) hf, blank_inside (.inr (.inl rfl)) hq, hw, burnLex]
  | blankString hq => rw [List.append_nil, quote_lex, blank_inside (.inl rfl) hq, hw, burnLex, List.append_nil]
  | blankCalculation hq => rw [List.append_nil, curly_lex, blank_inside (.inr (.inr rfl)) hq, hw, burnLex]

theorem programMark_ty {n : Nat} {u left r : Str} {vs : List BurnTok} (h : ProgramMark n u vs left r) : NoFoundIn vs := by
  cases h with
  | mark h =>
    simp only [burnMarks, List.mem_cons, List.not_mem_nil, or_false, Prod.mk.injEq] at h
    rcases h with ⟨rfl, rfl⟩ | ⟨rfl, rfl⟩ | ⟨rfl, rfl⟩ | ⟨rfl, rfl⟩ | ⟨rfl, rfl⟩ | ⟨rfl, rfl⟩ | ⟨rfl, rfl⟩ <;> simp [NoFoundIn]
  | _ => simp [NoFoundIn]

theorem noMark_lex {n : Nat} {s w : Str} {c : Panic} (h : NoMark p n s c) {acc : List BurnTok} (hn : acc.length = n)
    (hf : NoFoundIn acc) : burnLex p .normal w acc s = .error c := by
  cases h with
  | early h =>
    have : acc = [] := List.length_eq_zero_iff.mp (by omega)
    subst this
    unfold burnLex
    simp [isSpace, unwrap, bind, Except.bind]
  | earlyParen h =>
    unfold burnLex
    cases p with
    | debug => simp [isSpace, usub, show ¬ 2 ≤ acc.length by omega, bind, Except.bind]
    | release =>
      have : acc[2 ^ 64 + acc.length - 2]? = none := List.getElem?_eq_none (by omega)
      simp only [isSpace, usub, show ¬ 2 ≤ acc.length by omega, bind, Except.bind, idx, if_false, this]
      simp
  | openBlock h hq hs => rw [plex_open (by intro e; subst e; simp at hn; omega) hf, open_inside (.inr (.inl ⟨rfl, rfl⟩)) hq hs]
  | openString hq hs => rw [quote_lex, open_inside (.inl ⟨rfl, rfl⟩) hq hs]
  | openCalculation hq hs => rw [curly_lex, open_inside (.inr (.inr ⟨rfl, rfl⟩)) hq hs]
  | lastString hq =>
    rw [List.cons_append, quote_lex, plex_inside_start (.inl ⟨rfl, rfl⟩) hq]
    unfold burnLex
    simp [isSpace]
  | lastCalculation hq =>
    rw [List.cons_append, curly_lex, plex_inside_start (.inr (.inr ⟨rfl, rfl⟩)) hq]
    unfold burnLex
    simp [isSpace]

omit [Rt] in
theorem wordRun_snoc {left x w : Str} (h : WordRun left x w) {d : Char} (hd : BurnChar d) :
    WordRun left (x ++ [d]) (w ++ [d]) := by
  have hu : ∀ u : Str, (∀ c ∈ u, BurnChar c) → ∀ c ∈ u ++ [d], BurnChar c := by
    intro u hu c hc
    rcases List.mem_append.mp hc with hc | hc
    · exact hu c hc
    · rw [List.mem_singleton.mp hc]; exact hd
  cases h with
  | chars h => rw [List.append_assoc]; exact .chars (hu _ h)
  | more h1 h2 h3 h4 =>
    rw [List.append_assoc, List.append_assoc, List.cons_append]
    exact .more h1 h2 h3 (hu _ h4)

theorem wordRun_longest {left x w : Str} (h : WordRun left x w) (r : Str) : ∃ x' w' r', x ++ r = x' ++ r' ∧ WordRun left x' w' ∧
    x.length ≤ x'.length ∧ (r' = [] ∨ ∃ d s, r' = d :: s ∧ ¬ BurnChar d ∧ (isSpace d = true → ¬ Unreadable w')) := by
  induction r generalizing x w with
  | nil => exact ⟨x, w, [], rfl, h, Nat.le_refl _, .inl rfl⟩
  | cons d r ih =>
    by_cases hd : BurnChar d
    · obtain ⟨x', w', r', e, h1, h2, h3⟩ := ih (wordRun_snoc h hd)
      exact ⟨x', w', r', by simpa using e, h1, by simp at h2; omega, h3⟩
    · by_cases hs : isSpace d = true ∧ Unreadable w
      · obtain ⟨x', w', r', e, h1, h2, h3⟩ := ih (.more (u := []) h hs.2 hs.1 (by simp))
        exact ⟨x', w', r', by simpa using e, h1, by simp at h2; omega, h3⟩
      · exact ⟨x, w, d :: r, rfl, h, Nat.le_refl _, .inr ⟨d, r, rfl, hd, fun h1 h2 => hs ⟨h1, h2⟩⟩⟩

omit [Rt] in
theorem blank_or (q : Str) : (∀ c ∈ q, isSpace c = true) ∨ ∃ c ∈ q, isSpace c = false := by
  by_cases h : ∀ c ∈ q, isSpace c = true
  · exact .inl h
  · refine .inr (Classical.byContradiction fun hn => h fun c hc => ?_)
    cases hs : isSpace c with
    | true => rfl
    | false => exact absurd ⟨c, hc, hs⟩ hn

theorem programMark_or (p : Profile) (n : Nat) {d : Char} (hd : ¬ BurnChar d) (hs : isSpace d = false) (s : Str) :
    (∃ u vs left r, d :: s = u ++ r ∧ u ≠ [] ∧ ProgramMark n u vs left r) ∨ ∃ c, NoMark p n (d :: s) c := by
  have hc : d ∈ ['=', '[', ']', '(', ')', '"', '!', '{', '}', ';', ':', ','] :=
    Classical.not_not.mp fun h => hd ⟨hs, h⟩
  by_cases hm : ∃ ty, (d, ty) ∈ burnMarks
  · obtain ⟨ty, hm⟩ := hm
    exact .inl ⟨[d], _, _, s, rfl, by simp, .mark hm⟩
  by_cases h1 : d = '='
  · subst h1
    cases s with
    | nil => exact .inl ⟨_, _, _, [], rfl, by simp, .lastEqual⟩
    | cons e s =>
      by_cases he : e = '='
      · subst he; exact .inl ⟨['=', '='], _, _, s, rfl, by simp, .equal⟩
      · exact .inl ⟨['='], _, _, e :: s, rfl, by simp, .assign he⟩
  by_cases h2 : d = '('
  · subst h2
    by_cases hn : 2 ≤ n
    · exact .inl ⟨['('], _, _, s, rfl, by simp, .paren hn⟩
    · exact .inr ⟨_, .earlyParen (by omega)⟩
  by_cases h3 : d = '['
  · subst h3
    by_cases hn : n = 0
    · exact .inr ⟨_, .early hn⟩
    · by_cases hin : ']' ∈ s
      · obtain ⟨q, r, rfl, hq⟩ := List.eq_append_cons_of_mem hin
        exact .inl ⟨'[' :: q ++ [']'], _, _, r, by simp, by simp, .block (by omega) hq⟩
      · rcases blank_or s with hb | hb
        · exact .inl ⟨'[' :: s, _, _, [], by simp, by simp, .blankBlock (by omega) hb⟩
        · exact .inr ⟨_, .openBlock (by omega) hin hb⟩
  by_cases h4 : d = '"'
  · subst h4
    by_cases hin : '"' ∈ s
    · obtain ⟨q, r, rfl, hq⟩ := List.eq_append_cons_of_mem hin
      cases r with
      | nil => exact .inr ⟨_, .lastString hq⟩
      | cons e r => exact .inl ⟨'"' :: q ++ ['"'], _, _, e :: r, by simp, by simp, .string hq⟩
    · rcases blank_or s with hb | hb
      · exact .inl ⟨'"' :: s, _, _, [], by simp, by simp, .blankString hb⟩
      · exact .inr ⟨_, .openString hin hb⟩
  by_cases h5 : d = '{'
  · subst h5
    by_cases hin : '}' ∈ s
    · obtain ⟨q, r, rfl, hq⟩ := List.eq_append_cons_of_mem hin
      cases r with
      | nil => exact .inr ⟨_, .lastCalculation hq⟩
      | cons e r => exact .inl ⟨'{' :: q ++ ['}'], _, _, e :: r, by simp, by simp, .calculation hq⟩
    · rcases blank_or s with hb | hb
      · exact .inl ⟨'{' :: s, _, _, [], by simp, by simp, .blankCalculation hb⟩
      · exact .inr ⟨_, .openCalculation hin hb⟩
  exfalso
  apply hm
  simp only [List.mem_cons, List.not_mem_nil, or_false] at hc
  simp only [burnMarks, List.mem_cons, List.not_mem_nil, or_false, Prod.mk.injEq]
  rcases hc with h | h | h | h | h | h | h | h | h | h | h | h
  · exact absurd h h1
  · exact absurd h h3
  · exact ⟨_, by simp [h]; rfl⟩
  · exact absurd h h2
  · exact ⟨_, by simp [h]; rfl⟩
  · exact absurd h h4
  · exact ⟨_, by simp [h]; rfl⟩
  · exact absurd h h5
  all_goals exact ⟨_, by simp [h]; rfl⟩

theorem programCut_lex {left s : Str} {n : Nat} {ts : List BurnTok} (h : ProgramCut left n s ts) :
    ∀ acc : List BurnTok, acc.length = n → NoFoundIn acc → burnLex p .normal left acc s = .ok (acc ++ ts) := by
  induction h with
  | @ends left x w n h =>
    intro acc _ _
    have := wordRun_lex (p := p) h (acc := acc) (r := [])
    rw [List.append_nil] at this
    rw [this, burnLex, List.append_nil]
  | blank h hc hu ht _ ih =>
    intro acc hn hf
    rw [wordRun_lex h, blank_lex hc hu ht, ih _ (by simp [hn]) (hf.append (wordTokens_ty ht)), List.append_assoc]
  | mark h ht hm _ ih =>
    intro acc hn hf
    rw [List.append_assoc, wordRun_lex h, programMark_lex hm ht hn hf,
      ih _ (by simp [hn]; omega) (hf.append ((wordTokens_ty ht).append (programMark_ty hm))), List.append_assoc]

theorem programUncut_lex {left s : Str} {n : Nat} {c : Panic} (h : ProgramUncut p left n s c) :
    ∀ acc : List BurnTok, acc.length = n → NoFoundIn acc → burnLex p .normal left acc s = .error c := by
  induction h with
  | here h hm =>
    intro acc hn hf
    rw [wordRun_lex h, noMark_lex hm hn hf]
  | blank h hc hu ht _ ih =>
    intro acc hn hf
    rw [wordRun_lex h, blank_lex hc hu ht, ih _ (by simp [hn]) (hf.append (wordTokens_ty ht))]
  | mark h ht hm _ ih =>
    intro acc hn hf
    rw [List.append_assoc, wordRun_lex h, programMark_lex hm ht hn hf,
      ih _ (by simp [hn]; omega) (hf.append ((wordTokens_ty ht).append (programMark_ty hm)))]

theorem programCut_or (p : Profile) (left s : Str) (n : Nat) :
    (∃ ts, ProgramCut left n s ts) ∨ ∃ c, ProgramUncut p left n s c := by
  induction hl : s.length using Nat.strongRecOn generalizing s left n with
  | _ m ih =>
    obtain ⟨x, w, r, e, hx, _, hr⟩ := wordRun_longest (WordRun.chars (left := left) (u := []) (by simp)) s
    rw [List.nil_append] at e
    subst e
    rcases hr with rfl | ⟨d, r, rfl, hd, hu⟩
    · rw [List.append_nil]; exact .inl ⟨_, .ends hx⟩
    · obtain ⟨ts, ht⟩ := wordTokens_total w
      simp only [List.length_append, List.length_cons] at hl
      by_cases hs : isSpace d = true
      · rcases ih r.length (by omega) [] r (n + ts.length) rfl with ⟨us, h⟩ | ⟨c, h⟩
        · exact .inl ⟨_, .blank hx hs (hu hs) ht h⟩
        · exact .inr ⟨_, .blank hx hs (hu hs) ht h⟩
      · rcases programMark_or p n hd (by simpa using hs) r with ⟨u, vs, left', r', e, hne, hm⟩ | ⟨c, hm⟩
        · have hne := List.length_pos_iff.mpr hne
          have el : r.length + 1 = u.length + r'.length := by rw [← List.length_cons (a := d), e, List.length_append]
          rw [e, ← List.append_assoc]
          rcases ih r'.length (by omega) left' r' (n + ts.length + vs.length) rfl with ⟨us, h⟩ | ⟨c, h⟩
          · exact .inl ⟨_, .mark hx ht hm h⟩
          · exact .inr ⟨_, .mark hx ht hm h⟩
        · exact .inr ⟨_, .here hx hm⟩

theorem lexBurn_iff (p : Profile) (s : Str) (ts : List BurnTok) : lexBurn p s = .ok ts ↔ ProgramCut [] 0 s ts := by
  have hf : NoFoundIn [] := by intro t ht; cases ht
  constructor
  · intro h
    rcases programCut_or p [] s 0 with ⟨us, hc⟩ | ⟨c, hc⟩
    · have := programCut_lex (p := p) hc [] rfl hf
      rw [show burnLex p .normal [] [] s = .ok ts from h] at this
      cases this
      exact hc
    · have := programUncut_lex hc [] rfl hf
      rw [show burnLex p .normal [] [] s = .ok ts from h] at this
      cases this
  · intro h
    exact programCut_lex h [] rfl hf

theorem lexBurn_error_iff (p : Profile) (s : Str) (c : Panic) : lexBurn p s = .error c ↔ ProgramUncut p [] 0 s c := by
  have hf : NoFoundIn [] := by intro t ht; cases ht
  constructor
  · intro h
    rcases programCut_or p [] s 0 with ⟨us, hc⟩ | ⟨e, hc⟩
    · have := programCut_lex (p := p) hc [] rfl hf
      rw [show burnLex p .normal [] [] s = .error c from h] at this
      cases this
    · have := programUncut_lex hc [] rfl hf
      rw [show burnLex p .normal [] [] s = .error c from h] at this
      cases this
      exact hc
  · intro h
    exact programUncut_lex h [] rfl hf

end

end BurnFm
