import Verif.Spec.CalcWords
import Verif.Props.CalcLayout

/-! The calculation lexer on any text. -/

namespace BurnFm
open Spec
variable [Rt]

theorem not_inName {c : Char} (h : ¬ InName c) : c = ' ' ∨ c ∈ specialChars := by
  by_cases h1 : c = ' '
  · exact .inl h1
  · exact .inr (Classical.not_not.mp fun h2 => h ⟨h1, h2⟩)

theorem lex_inName {c : Char} (h : InName c) (buf : Str) (hb : isSpace c = false ∨ buf ≠ []) (acc : List Tok) (rest : Str) :
    calcLex .normal buf acc (c :: rest) = calcLex .normal (buf ++ [c]) acc rest := by
  have h2 : c ≠ '!' ∧ c ≠ '=' ∧ c ≠ '<' ∧ c ≠ '>' ∧ c ≠ '"' ∧ c ≠ ':' := by
    refine ⟨?_, ?_, ?_, ?_, ?_, ?_⟩ <;> rintro rfl <;> revert h <;> decide
  obtain ⟨h2, h3, h4, h5, h6, h7⟩ := h2
  rw [calcLex]
  rcases hb with hb | hb <;> simp [hb, h.1, h2, h3, h4, h5, h6, h7, symbolToken_none h.2]

theorem lex_nameText_ne {w : Str} (h : ∀ c ∈ w, InName c) (buf : Str) (hb : buf ≠ []) (acc : List Tok) (rest : Str) :
    calcLex .normal buf acc (w ++ rest) = calcLex .normal (buf ++ w) acc rest := by
  induction w generalizing buf with
  | nil => simp
  | cons c w ih =>
    rw [List.cons_append, lex_inName (h c (by simp)) _ (.inr hb), ih (fun d hd => h d (by simp [hd])) _ (by simp)]
    simp

theorem lex_nameText {w : Str} (h : NameText w) (acc : List Tok) (rest : Str) :
    calcLex .normal [] acc (w ++ rest) = calcLex .normal w acc rest := by
  cases w with
  | nil => rfl
  | cons c w =>
    rw [List.cons_append, lex_inName (h.2 c (by simp)) _ (.inl (h.1 c rfl)),
      lex_nameText_ne (fun d hd => h.2 d (by simp [hd])) _ (by simp)]
    simp

theorem nameToken_iff {w : Str} (hw : w ≠ []) (t : Tok) : flushBuffer w = .ok t ↔ NameToken w t := by
  cases w with
  | nil => exact absurd rfl hw
  | cons c w =>
    unfold flushBuffer
    constructor
    · intro h
      split at h
      · next x hx => cases h; exact .number hx
      · next hx =>
        simp only at h
        split at h
        · cases h
        · next hd => cases h; exact .name hx (by simpa using hd)
    · intro h
      cases h with
      | number h => rw [h]
      | name h hd => rw [h]; simp [hd]

theorem flush_error {w : Str} (hw : w ≠ []) {p : Panic} (h : flushBuffer w = .error p) :
    p = .unwrap ∧ parseF64 w = none ∧ ∃ c u, w = c :: u ∧ isDigit c = true := by
  cases w with
  | nil => exact absurd rfl hw
  | cons c w =>
    unfold flushBuffer at h
    split at h
    · cases h
    · next hx =>
      simp only at h
      split at h
      · next hd => cases h; exact ⟨rfl, hx, c, w, rfl, hd⟩
      · cases h

theorem lex_flush {w : Str} (hw : w ≠ []) (acc : List Tok) {t : Tok} (ht : flushBuffer w = .ok t) (r : Str)
    (hr : ∀ d, r.head? = some d → ¬ InName d ∧ d ≠ ':') :
    calcLex .normal w acc r = calcLex .normal [] (acc ++ [t]) r := by
  cases r with
  | nil => rw [lex_flush_end hw acc ht]; rfl
  | cons d r =>
    obtain ⟨h1, h2⟩ := hr d rfl
    exact Props.lex_flush_at hw acc ht d ((not_inName h1).imp id fun h => ⟨h, h2⟩) r

theorem lex_flush_error {w : Str} (hw : w ≠ []) (acc : List Tok) {p : Panic} (ht : flushBuffer w = .error p) (r : Str)
    (hr : ∀ d, r.head? = some d → ¬ InName d ∧ d ≠ ':') : calcLex .normal w acc r = .error p := by
  have hf : flushInto w acc = .error p := by
    unfold flushInto
    rw [if_neg (by simpa using hw), ht]
    rfl
  have hbe : w.isEmpty = false := by simpa using hw
  cases r with
  | nil => rw [calcLex]; exact hf
  | cons d r =>
    obtain ⟨h1, hcol⟩ := hr d rfl
    rcases not_inName h1 with rfl | hc
    · rw [calcLex]; simp [hf, hbe, bind, Except.bind]
    · unfold specialChars at hc
      simp only [List.mem_cons, List.not_mem_nil, or_false] at hc
      rcases hc with rfl | rfl | rfl | rfl | rfl | rfl | rfl | rfl | rfl | rfl | rfl | rfl | rfl | rfl <;>
        first
          | exact absurd rfl hcol
          | (rw [calcLex]; simp [isSpace, symbolToken, hf, hbe, bind, Except.bind])

/-- One character of any kind after the colons, and the letters and digits after it. -/
theorem lex_field {a : Str} (c : Char) (h : ∀ d ∈ a, Alnum d) (buf : Str) (acc : List Tok) (r : Str)
    (hr : ∀ d, r.head? = some d → ¬ Alnum d) :
    calcLex .field buf acc (c :: a ++ r) = calcLex .normal [] (acc ++ [⟨.identifier, buf ++ c :: a⟩]) r := by
  induction a generalizing buf c with
  | nil =>
    rw [List.cons_append, List.nil_append]
    cases r with
    | nil => rfl
    | cons d r =>
      rw [calcLex, if_neg (by rw [isAlnum_iff]; exact hr d rfl)]
  | cons d a ih =>
    rw [List.cons_append, List.cons_append, calcLex, if_pos ((isAlnum_iff d).mpr (h d (by simp)))]
    have := ih d (fun x hx => h x (by simp [hx])) (buf ++ [c])
    rw [List.cons_append] at this
    rw [this]
    simp

theorem lex_colon {cs cs' : Str} (h : Colons cs cs') (w : Str) (acc : List Tok) (r : Str) :
    calcLex .normal w acc (cs ++ r) = calcLex .field (w ++ cs') acc r := by
  cases h with
  | two =>
    simp only [List.cons_append, List.nil_append]
    rw [calcLex]
    simp [isSpace, symbolToken]
    rw [calcLex]
    simp
  | other hx =>
    simp only [List.cons_append, List.nil_append]
    rw [calcLex]
    simp [isSpace, symbolToken, hx]
    rw [calcLex]
    simp

theorem lex_colon_end (w : Str) (acc : List Tok) :
    calcLex .normal w acc t!":" = .ok (acc ++ [⟨.identifier, w ++ t!":::"⟩]) := by
  rw [calcLex]
  simp [isSpace, symbolToken]
  rw [calcLex]
  simp

theorem lex_unclosed {s : Str} (h : '"' ∉ s) (buf : Str) (acc : List Tok) :
    calcLex .str buf acc s = .ok (pushString (buf ++ s) acc) := by
  induction s generalizing buf with
  | nil => rw [calcLex]; simp
  | cons c s ih =>
    have hc : c ≠ '"' := fun e => h (by simp [e])
    rw [calcLex]
    rw [if_neg hc, ih (fun e => h (by simp [e]))]
    simp

theorem pushString_eq {s : Str} {ts : List Tok} (h : QuotedTokens s ts) (acc : List Tok) : pushString s acc = acc ++ ts := by
  unfold pushString
  cases h with
  | kept h =>
    obtain ⟨c, hc, ha⟩ := h
    rw [if_pos (List.any_eq_true.mpr ⟨c, hc, (isAlnum_iff c).mpr ha⟩)]
  | dropped h =>
    rw [if_neg, List.append_nil]
    rw [List.any_eq_true]
    rintro ⟨c, hc, ha⟩
    exact h c hc ((isAlnum_iff c).mp ha)

theorem quotedTokens_total (s : Str) : ∃ ts, QuotedTokens s ts := by
  by_cases h : ∃ c ∈ s, Alnum c
  · exact ⟨_, .kept h⟩
  · exact ⟨_, .dropped fun c hc ha => h ⟨c, hc, ha⟩⟩

theorem lex_symbol {c : Char} {ty : TokenType} (h : (c, ty) ∈ symbols) (acc : List Tok) (r : Str) :
    calcLex .normal [] acc (c :: r) = calcLex .normal [] (acc ++ [⟨ty, []⟩]) r := by
  simp only [symbols, List.mem_cons, List.not_mem_nil, or_false, Prod.mk.injEq] at h
  rcases h with ⟨rfl, rfl⟩ | ⟨rfl, rfl⟩ | ⟨rfl, rfl⟩ | ⟨rfl, rfl⟩ | ⟨rfl, rfl⟩ | ⟨rfl, rfl⟩ | ⟨rfl, rfl⟩ | ⟨rfl, rfl⟩ <;>
  (rw [calcLex]; simp [isSpace, symbolToken, flushInto, bind, Except.bind])

theorem piece_lex {w r : Str} {ts : List Tok} (h : Piece w ts r) (acc : List Tok) :
    calcLex .normal [] acc (w ++ r) = calcLex .normal [] (acc ++ ts) r := by
  cases h with
  | blank h => rw [List.append_nil]; exact Props.lex_blank h acc r
  | symbol h => exact lex_symbol h acc r
  | name hw h hr ht => rw [lex_nameText h, lex_flush hw acc ((nameToken_iff hw _).mpr ht) r hr]
  | notEqual =>
    simp only [List.cons_append, List.nil_append]
    rw [calcLex]
    simp [isSpace, symbolToken, flushInto, unwrap, bind, Except.bind]
    rw [calcLex]
  | exclamation h | equal | equalsSign h | lessEqual | less h | greaterEqual | greater h =>
    simp only [List.cons_append, List.nil_append]
    conv => lhs; unfold calcLex
    first
      | simp [isSpace, symbolToken, flushInto, unwrap, bind, Except.bind, h]
      | simp [isSpace, symbolToken, flushInto, unwrap, bind, Except.bind]
  | @quoted s _ _ hs ht =>
    have := lex_string hs acc r
    rw [pushString_eq ht] at this
    rw [← this]
    simp
  | quote hs ht =>
    rw [List.append_nil, lex_open_quote, lex_unclosed hs, List.singleton_append, pushString_eq ht]
    rfl
  | @field w cs cs' a _ c hw hc ha hr =>
    rw [List.append_assoc, List.append_assoc, lex_nameText hw, lex_colon hc, lex_field c ha _ _ _ hr]
  | fieldEnd hw hc =>
    rw [List.append_assoc, lex_nameText hw, lex_colon hc]
    rfl
  | colonEnd hw =>
    rw [List.append_assoc, lex_nameText hw, List.append_nil, lex_colon_end]
    rfl

theorem piece_ne {w r : Str} {ts : List Tok} (h : Piece w ts r) : w ≠ [] := by
  cases h with
  | name hw => exact hw
  | fieldEnd _ hc => cases hc <;> simp
  | _ => simp

theorem noWord_lex {s : Str} (h : NoWord s) (acc : List Tok) : calcLex .normal [] acc s = .error .unwrap := by
  cases h with
  | last h =>
    simp only [List.mem_cons, List.not_mem_nil, or_false] at h
    rcases h with rfl | rfl | rfl | rfl <;>
    (rw [calcLex]; simp [isSpace, symbolToken, flushInto, unwrap, bind, Except.bind])
  | number hd hw hn hr =>
    rw [lex_nameText hw]
    exact lex_flush_error (by simp) acc (by unfold flushBuffer; rw [hn]; simp [hd]) _ hr

theorem piece_colon (w r : Str) (hw : NameText w) : ∃ v ts u, w ++ ':' :: r = v ++ u ∧ Piece v ts u := by
  cases r with
  | nil => exact ⟨_, _, [], by simp, .colonEnd hw⟩
  | cons x r =>
    obtain ⟨cs', hc⟩ : ∃ cs', Colons [':', x] cs' := by
      by_cases hx : x = ':'
      · subst hx; exact ⟨_, .two⟩
      · exact ⟨_, .other hx⟩
    cases r with
    | nil => exact ⟨_, _, [], by simp, .fieldEnd hw hc⟩
    | cons c r =>
      have hsplit : r = r.takeWhile (fun d => decide (Alnum d)) ++ r.dropWhile (fun d => decide (Alnum d)) :=
        (List.takeWhile_append_dropWhile).symm
      refine ⟨w ++ [':', x] ++ c :: r.takeWhile (fun d => decide (Alnum d)), _, r.dropWhile (fun d => decide (Alnum d)), ?_,
        .field hw hc ?_ ?_⟩
      · simp
      · intro d hd
        have := List.all_takeWhile (p := fun d => decide (Alnum d)) (l := r)
        rw [List.all_eq_true] at this
        simpa using this d hd
      · intro d hd
        have := List.head?_dropWhile_not (fun d => decide (Alnum d)) r
        rw [hd] at this
        simpa using this

theorem piece_or {s : Str} (hs : s ≠ []) : NoWord s ∨ ∃ w ts r, s = w ++ r ∧ Piece w ts r := by
  cases s with
  | nil => exact absurd rfl hs
  | cons c r =>
    by_cases hsp : isSpace c = true
    · exact .inr ⟨[c], _, r, rfl, .blank hsp⟩
    by_cases hin : InName c
    · have hsplit : r = r.takeWhile (fun d => decide (InName d)) ++ r.dropWhile (fun d => decide (InName d)) :=
        (List.takeWhile_append_dropWhile).symm
      have hw : NameText (c :: r.takeWhile (fun d => decide (InName d))) := by
        refine ⟨fun d hd => by cases hd; simpa using hsp, fun d hd => ?_⟩
        rcases List.mem_cons.mp hd with rfl | hd
        · exact hin
        · have := List.all_takeWhile (p := fun d => decide (InName d)) (l := r)
          rw [List.all_eq_true] at this
          simpa using this d hd
      have hr : ∀ d, (r.dropWhile (fun d => decide (InName d))).head? = some d → ¬ InName d := by
        intro d hd
        have := List.head?_dropWhile_not (fun d => decide (InName d)) r
        rw [hd] at this
        simpa using this
      generalize hu : r.takeWhile (fun d => decide (InName d)) = u at hsplit hw
      generalize hv : r.dropWhile (fun d => decide (InName d)) = v at hsplit hr
      subst hsplit
      by_cases hcol : v.head? = some ':'
      · cases v with
        | nil => cases hcol
        | cons d v =>
          cases hcol
          exact .inr (piece_colon (c :: u) v hw)
      · have hr' : ∀ d, v.head? = some d → ¬ InName d ∧ d ≠ ':' :=
          fun d hd => ⟨hr d hd, fun e => hcol (by rw [hd, e])⟩
        cases hf : flushBuffer (c :: u) with
        | ok t => exact .inr ⟨c :: u, _, v, rfl, .name (by simp) hw hr' ((nameToken_iff (by simp) t).mp hf)⟩
        | error p =>
          obtain ⟨_, hn, d, u', he, hd⟩ := flush_error (by simp) hf
          cases he
          exact .inl (.number hd hw hn hr')
    · rcases not_inName hin with rfl | hc
      · exact absurd (by decide) hsp
      · unfold specialChars at hc
        simp only [List.mem_cons, List.not_mem_nil, or_false] at hc
        rcases hc with rfl | rfl | rfl | rfl | rfl | rfl | rfl | rfl | hc
        iterate 8 exact .inr ⟨_, _, r, rfl, .symbol (by unfold symbols; simp only [List.mem_cons, Prod.mk.injEq, true_and, Char.reduceEq, false_and, false_or, or_false, List.not_mem_nil]; first | exact rfl | exact .inl rfl)⟩
        rcases hc with rfl | rfl | rfl | rfl | rfl | rfl
        · cases r with
          | nil => exact .inl (.last (by simp))
          | cons d r =>
            by_cases hd : d = '='
            · subst hd; exact .inr ⟨_, _, r, rfl, .notEqual⟩
            · exact .inr ⟨_, _, d :: r, rfl, .exclamation hd⟩
        · cases r with
          | nil => exact .inl (.last (by simp))
          | cons d r =>
            by_cases hd : d = '='
            · subst hd; exact .inr ⟨_, _, '=' :: r, rfl, .equal⟩
            · exact .inr ⟨_, _, d :: r, rfl, .equalsSign hd⟩
        · cases r with
          | nil => exact .inl (.last (by simp))
          | cons d r =>
            by_cases hd : d = '='
            · subst hd; exact .inr ⟨_, _, '=' :: r, rfl, .lessEqual⟩
            · exact .inr ⟨_, _, d :: r, rfl, .less hd⟩
        · cases r with
          | nil => exact .inl (.last (by simp))
          | cons d r =>
            by_cases hd : d = '='
            · subst hd; exact .inr ⟨_, _, '=' :: r, rfl, .greaterEqual⟩
            · exact .inr ⟨_, _, d :: r, rfl, .greater hd⟩
        · have hsplit : r = r.takeWhile (· != '"') ++ r.dropWhile (· != '"') := (List.takeWhile_append_dropWhile).symm
          have hu : '"' ∉ r.takeWhile (· != '"') := by
            intro hm
            have := List.all_takeWhile (p := (· != '"')) (l := r)
            rw [List.all_eq_true] at this
            simpa using this _ hm
          have hv := List.head?_dropWhile_not (· != '"') r
          generalize r.takeWhile (· != '"') = u at hsplit hu
          generalize r.dropWhile (· != '"') = v at hsplit hv
          subst hsplit
          cases v with
          | nil =>
            obtain ⟨ts, ht⟩ := quotedTokens_total ('"' :: u)
            exact .inr ⟨_, ts, [], by simp, .quote hu ht⟩
          | cons d v =>
            have : d = '"' := by simpa using hv
            subst this
            obtain ⟨ts, ht⟩ := quotedTokens_total ('"' :: u ++ ['"'])
            exact .inr ⟨_, ts, v, by simp, .quoted hu ht⟩
        · exact .inr (piece_colon [] r ⟨by simp, by simp⟩)

theorem cutInto_lex {s : Str} {ts : List Tok} (h : CutInto s ts) (acc : List Tok) :
    calcLex .normal [] acc s = .ok (acc ++ ts) := by
  induction h generalizing acc with
  | nil => simp [calcLex, flushInto]
  | piece hp _ ih => rw [piece_lex hp, ih, List.append_assoc]

theorem uncut_lex {s : Str} (h : Uncut s) (acc : List Tok) : calcLex .normal [] acc s = .error .unwrap := by
  induction h generalizing acc with
  | here h => exact noWord_lex h acc
  | piece hp _ ih => rw [piece_lex hp, ih]

theorem cut_or_not (s : Str) : (∃ ts, CutInto s ts) ∨ Uncut s := by
  induction hn : s.length using Nat.strongRecOn generalizing s with
  | _ n ih =>
    by_cases hs : s = []
    · subst hs; exact .inl ⟨_, .nil⟩
    · rcases piece_or hs with h | ⟨w, ts, r, rfl, hp⟩
      · exact .inr (.here h)
      · have hw := List.length_pos_iff.mpr (piece_ne hp)
        rcases ih r.length (by rw [List.length_append] at hn; omega) r rfl with ⟨us, h⟩ | h
        · exact .inl ⟨_, .piece hp h⟩
        · exact .inr (.piece hp h)

theorem lexCalc_iff (s : Str) (ts : List Tok) : lexCalc s = .ok ts ↔ CutInto s ts := by
  constructor
  · intro h
    rcases cut_or_not s with ⟨us, hc⟩ | hc
    · have := cutInto_lex hc []
      rw [show calcLex .normal [] [] s = .ok ts from h] at this
      cases this
      exact hc
    · have := uncut_lex hc []
      rw [show calcLex .normal [] [] s = .ok ts from h] at this
      cases this
  · intro h
    exact cutInto_lex h []

theorem lexCalc_error_iff (s : Str) (p : Panic) : lexCalc s = .error p ↔ p = .unwrap ∧ Uncut s := by
  constructor
  · intro h
    rcases cut_or_not s with ⟨us, hc⟩ | hc
    · have := cutInto_lex hc []
      rw [show calcLex .normal [] [] s = .error p from h] at this
      cases this
    · have := uncut_lex hc []
      rw [show calcLex .normal [] [] s = .error p from h] at this
      cases this
      exact ⟨rfl, hc⟩
  · rintro ⟨rfl, h⟩
    exact uncut_lex h []

end BurnFm
