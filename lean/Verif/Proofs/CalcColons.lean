import Verif.Spec.CalcColons
import Verif.Proofs.CalcWords
import Verif.Proofs.Warns

/-! The reports of the calculation lexer on any text. -/

namespace BurnFm
open Spec
variable [Rt]

theorem lift_bind {α β : Type} (a : α) (f : α → Noted β) : (quiet (liftR (.ok a)) >>= f) = f a := quiet_bind a f

theorem lift_error {α β : Type} (p : Panic) (f : α → Noted β) :
    (quiet (liftR (.error p)) >>= f) = quiet (.error (.panic p)) := rfl

theorem lexN_inName {c : Char} (h : InName c) (buf : Str) (hb : isSpace c = false ∨ buf ≠ []) (acc : List Tok) (rest : Str) :
    calcLexN .normal buf acc (c :: rest) = calcLexN .normal (buf ++ [c]) acc rest := by
  have h2 : c ≠ '!' ∧ c ≠ '=' ∧ c ≠ '<' ∧ c ≠ '>' ∧ c ≠ '"' ∧ c ≠ ':' := by
    refine ⟨?_, ?_, ?_, ?_, ?_, ?_⟩ <;> rintro rfl <;> revert h <;> decide
  obtain ⟨h2, h3, h4, h5, h6, h7⟩ := h2
  rw [calcLexN]
  rcases hb with hb | hb <;> simp [hb, h.1, h2, h3, h4, h5, h6, h7, symbolToken_none h.2]

theorem lexN_nameText_ne {w : Str} (h : ∀ c ∈ w, InName c) (buf : Str) (hb : buf ≠ []) (acc : List Tok) (rest : Str) :
    calcLexN .normal buf acc (w ++ rest) = calcLexN .normal (buf ++ w) acc rest := by
  induction w generalizing buf with
  | nil => simp
  | cons c w ih =>
    rw [List.cons_append, lexN_inName (h c (by simp)) _ (.inr hb), ih (fun d hd => h d (by simp [hd])) _ (by simp)]
    simp

theorem lexN_nameText {w : Str} (h : NameText w) (acc : List Tok) (rest : Str) :
    calcLexN .normal [] acc (w ++ rest) = calcLexN .normal w acc rest := by
  cases w with
  | nil => rfl
  | cons c w =>
    rw [List.cons_append, lexN_inName (h.2 c (by simp)) _ (.inl (h.1 c rfl)),
      lexN_nameText_ne (fun d hd => h.2 d (by simp [hd])) _ (by simp)]
    simp

theorem lexN_nil (m : CalcMode) (buf : Str) (acc : List Tok) : calcLexN m buf acc [] = quiet (liftR (calcLex m buf acc [])) := by
  rw [calcLexN]

theorem lexN_flush {w : Str} (hw : w ≠ []) (acc : List Tok) {t : Tok} (ht : flushBuffer w = .ok t) (r : Str)
    (hr : ∀ d, r.head? = some d → ¬ InName d ∧ d ≠ ':') :
    calcLexN .normal w acc r = calcLexN .normal [] (acc ++ [t]) r := by
  have hf : flushInto w acc = .ok (acc ++ [t]) := by
    unfold flushInto
    rw [if_neg (by simpa using hw), ht]
    rfl
  have hf' : flushInto [] (acc ++ [t]) = .ok (acc ++ [t]) := rfl
  have hbe : w.isEmpty = false := by simpa using hw
  cases r with
  | nil => rw [lexN_nil, lexN_nil, lex_flush_end hw acc ht]; rfl
  | cons d r =>
    obtain ⟨h1, hcol⟩ := hr d rfl
    rcases not_inName h1 with rfl | hc
    · rw [calcLexN, calcLexN]; simp [isSpace, hbe, hf, lift_bind]
    · unfold specialChars at hc
      simp only [List.mem_cons, List.not_mem_nil, or_false] at hc
      rcases hc with rfl | rfl | rfl | rfl | rfl | rfl | rfl | rfl | rfl | rfl | rfl | rfl | rfl | rfl <;>
        first
          | exact absurd rfl hcol
          | (rw [calcLexN, calcLexN]; simp [isSpace, symbolToken, hf, hf', hbe, lift_bind])

theorem lexN_flush_error {w : Str} (hw : w ≠ []) (acc : List Tok) {p : Panic} (ht : flushBuffer w = .error p) (r : Str)
    (hr : ∀ d, r.head? = some d → ¬ InName d ∧ d ≠ ':') : calcLexN .normal w acc r = quiet (.error (.panic p)) := by
  have hf : flushInto w acc = .error p := by
    unfold flushInto
    rw [if_neg (by simpa using hw), ht]
    rfl
  have hbe : w.isEmpty = false := by simpa using hw
  cases r with
  | nil => rw [lexN_nil, lex_flush_error hw acc ht [] (by simp)]; rfl
  | cons d r =>
    obtain ⟨h1, hcol⟩ := hr d rfl
    rcases not_inName h1 with rfl | hc
    · rw [calcLexN]; simp [hf, hbe, lift_error]
    · unfold specialChars at hc
      simp only [List.mem_cons, List.not_mem_nil, or_false] at hc
      rcases hc with rfl | rfl | rfl | rfl | rfl | rfl | rfl | rfl | rfl | rfl | rfl | rfl | rfl | rfl <;>
        first
          | exact absurd rfl hcol
          | (rw [calcLexN]; simp [isSpace, symbolToken, hf, hbe, lift_error])

theorem lexN_field {a : Str} (c : Char) (h : ∀ d ∈ a, Alnum d) (buf : Str) (acc : List Tok) (r : Str)
    (hr : ∀ d, r.head? = some d → ¬ Alnum d) :
    calcLexN .field buf acc (c :: a ++ r) = calcLexN .normal [] (acc ++ [⟨.identifier, buf ++ c :: a⟩]) r := by
  induction a generalizing buf c with
  | nil =>
    rw [List.cons_append, List.nil_append]
    cases r with
    | nil => simp only [calcLexN]
    | cons d r =>
      rw [calcLexN, if_neg (by rw [isAlnum_iff]; exact hr d rfl)]
  | cons d a ih =>
    rw [List.cons_append, List.cons_append, calcLexN, if_pos ((isAlnum_iff d).mpr (h d (by simp)))]
    have := ih d (fun x hx => h x (by simp [hx])) (buf ++ [c])
    rw [List.cons_append] at this
    rw [this]
    simp

theorem lexN_pair (w : Str) (acc : List Tok) (r : Str) :
    calcLexN .normal w acc (t!"::" ++ r) = calcLexN .field (w ++ t!"::") acc r := by
  simp only [List.cons_append, List.nil_append]
  rw [calcLexN]
  simp [isSpace, symbolToken]
  rw [calcLexN]
  simp

theorem lexN_stray {x : Char} (hx : x ≠ ':') (w : Str) (acc : List Tok) (r : Str) :
    calcLexN .normal w acc ([':', x] ++ r) = note .invalidColon >>= fun _ => calcLexN .field (w ++ t!":::") acc r := by
  simp only [List.cons_append, List.nil_append]
  rw [calcLexN]
  simp [isSpace, symbolToken, hx]
  rw [calcLexN]
  simp

theorem lexN_colon_end (w : Str) (acc : List Tok) :
    calcLexN .normal w acc t!":" = note .invalidColon >>= fun _ => quiet (.ok (acc ++ [⟨.identifier, w ++ t!":::"⟩])) := by
  rw [calcLexN]
  simp [isSpace, symbolToken]
  rw [calcLexN, calcLex]
  simp [liftR]

theorem lexN_open_quote (acc : List Tok) (rest : Str) :
    calcLexN .normal [] acc ('"' :: rest) = calcLexN .str ['"'] acc rest := by
  rw [calcLexN]
  simp [isSpace, symbolToken, flushInto, lift_bind]

theorem lexN_in_string {s : Str} (h : '"' ∉ s) (buf : Str) (acc : List Tok) (rest : Str) :
    calcLexN .str buf acc (s ++ '"' :: rest) = calcLexN .normal [] (pushString (buf ++ s ++ ['"']) acc) rest := by
  induction s generalizing buf with
  | nil => rw [List.nil_append, calcLexN]; simp
  | cons c s ih =>
    have hc : c ≠ '"' := fun e => h (by simp [e])
    rw [List.cons_append, calcLexN]
    rw [if_neg hc, ih (fun e => h (by simp [e]))]
    simp

theorem lexN_unclosed {s : Str} (h : '"' ∉ s) (buf : Str) (acc : List Tok) :
    calcLexN .str buf acc s = quiet (.ok (pushString (buf ++ s) acc)) := by
  induction s generalizing buf with
  | nil => rw [calcLexN, calcLex]; simp [liftR]
  | cons c s ih =>
    have hc : c ≠ '"' := fun e => h (by simp [e])
    rw [calcLexN]
    rw [if_neg hc, ih (fun e => h (by simp [e]))]
    simp

theorem lexN_symbol {c : Char} {ty : TokenType} (h : (c, ty) ∈ symbols) (acc : List Tok) (r : Str) :
    calcLexN .normal [] acc (c :: r) = calcLexN .normal [] (acc ++ [⟨ty, []⟩]) r := by
  simp only [symbols, List.mem_cons, List.not_mem_nil, or_false, Prod.mk.injEq] at h
  rcases h with ⟨rfl, rfl⟩ | ⟨rfl, rfl⟩ | ⟨rfl, rfl⟩ | ⟨rfl, rfl⟩ | ⟨rfl, rfl⟩ | ⟨rfl, rfl⟩ | ⟨rfl, rfl⟩ | ⟨rfl, rfl⟩ <;>
  (rw [calcLexN]; simp [isSpace, symbolToken, flushInto, lift_bind])

/-- A text that may begin a name, and a colon after it, can be found in a text in one way only. -/
theorem nameText_colon {w a w' a' : Str} (hw : NameText w) (hw' : NameText w') (h : w ++ ':' :: a = w' ++ ':' :: a') :
    w = w' ∧ a = a' := by
  have key : ∀ {w w' : Str}, (∀ d ∈ w, InName d) → (∀ d ∈ w', InName d) → w ++ ':' :: a = w' ++ ':' :: a' → w = w' ∧ a = a' := by
    intro w
    induction w with
    | nil =>
      intro w' _ h2 h
      cases w' with
      | nil => simpa using h
      | cons c w' => simp at h; exact absurd (h2 c (by simp)) (by rw [← h.1]; decide)
    | cons c w ih =>
      intro w' h1 h2 h
      cases w' with
      | nil => simp at h; exact absurd (h1 c (by simp)) (by rw [h.1]; decide)
      | cons c' w' =>
        simp at h
        obtain ⟨rfl, h⟩ := h
        obtain ⟨rfl, rfl⟩ := ih (fun d hd => h1 d (by simp [hd])) (fun d hd => h2 d (by simp [hd])) h
        exact ⟨rfl, rfl⟩
  exact key hw.2 hw'.2 h

/-- What begins with an operator or a quote is not stray. -/
theorem not_stray_first {c : Char} (hc : c ∈ specialChars) (h : c ≠ ':') (v : Str) : ¬ Stray (c :: v) := by
  rintro ⟨w, a, hv, hw, _⟩
  cases w with
  | nil => simp at hv; exact h hv.1
  | cons d w =>
    simp at hv
    exact (hw.2 d (by simp)).2 (hv.1 ▸ hc)

theorem not_stray_pair {w : Str} (hw : NameText w) (a : Str) : ¬ Stray (w ++ t!"::" ++ a) := by
  rintro ⟨w', a', hv, hw', ha⟩
  have : w ++ ':' :: (':' :: a) = w' ++ ':' :: a' := by rw [← hv]; simp
  obtain ⟨rfl, rfl⟩ := nameText_colon hw hw' this
  simp at ha

theorem not_stray_space {c : Char} (h : isSpace c = true) : ¬ Stray [c] := by
  rintro ⟨w, a, hv, hw, _⟩
  cases w with
  | nil => simp at hv; rw [hv.1] at h; revert h; decide
  | cons d w => simp at hv

theorem not_stray_name {v : Str} (h : NameText v) : ¬ Stray v := by
  rintro ⟨w, a, rfl, _, _⟩
  exact absurd (h.2 ':' (by simp)) (by decide)

theorem piece_lexN {w r : Str} {ts : List Tok} (h : Piece w ts r) (acc : List Tok) :
    (¬ Stray w ∧ calcLexN .normal [] acc (w ++ r) = calcLexN .normal [] (acc ++ ts) r) ∨
    (Stray w ∧ calcLexN .normal [] acc (w ++ r) = note .invalidColon >>= fun _ => calcLexN .normal [] (acc ++ ts) r) := by
  cases h with
  | blank h =>
    refine .inl ⟨not_stray_space h, ?_⟩
    rw [List.append_nil, List.singleton_append, calcLexN]
    simp [h]
  | symbol h =>
    refine .inl ⟨not_stray_first ?_ ?_ [], lexN_symbol h acc r⟩ <;>
    · simp only [symbols, List.mem_cons, List.not_mem_nil, or_false, Prod.mk.injEq] at h
      rcases h with ⟨rfl, _⟩ | ⟨rfl, _⟩ | ⟨rfl, _⟩ | ⟨rfl, _⟩ | ⟨rfl, _⟩ | ⟨rfl, _⟩ | ⟨rfl, _⟩ | ⟨rfl, _⟩ <;> decide
  | name hw h hr ht =>
    exact .inl ⟨not_stray_name h, by rw [lexN_nameText h, lexN_flush hw acc ((nameToken_iff hw _).mpr ht) r hr]⟩
  | notEqual =>
    refine .inl ⟨not_stray_first (by decide) (by decide) _, ?_⟩
    simp only [List.cons_append, List.nil_append]
    rw [calcLexN]
    simp [isSpace, symbolToken, flushInto, unwrap, lift_bind]
    rw [calcLexN]
  | exclamation h | equal | equalsSign h | lessEqual | less h | greaterEqual | greater h =>
    refine .inl ⟨not_stray_first (by decide) (by decide) _, ?_⟩
    simp only [List.cons_append, List.nil_append]
    conv => lhs; unfold calcLexN
    first
      | simp [isSpace, symbolToken, flushInto, unwrap, lift_bind, h]
      | simp [isSpace, symbolToken, flushInto, unwrap, lift_bind]
  | @quoted s _ _ hs ht =>
    refine .inl ⟨not_stray_first (by decide) (by decide) _, ?_⟩
    rw [List.append_assoc, List.cons_append, lexN_open_quote, List.singleton_append, lexN_in_string hs, List.singleton_append,
      pushString_eq ht]
  | quote hs ht =>
    refine .inl ⟨not_stray_first (by decide) (by decide) _, ?_⟩
    rw [List.append_nil, lexN_open_quote, lexN_unclosed hs, List.singleton_append, pushString_eq ht, lexN_nil, calcLex]
    rfl
  | @field w cs cs' a _ c hw hc ha hr =>
    cases hc with
    | two =>
      refine .inl ⟨not_stray_pair hw _, ?_⟩
      rw [List.append_assoc, List.append_assoc, lexN_nameText hw, lexN_pair, lexN_field c ha _ _ _ hr]
    | @other x hx =>
      refine .inr ⟨⟨w, x :: c :: a, by simp, hw, by simpa using hx⟩, ?_⟩
      rw [List.append_assoc, List.append_assoc, lexN_nameText hw, lexN_stray hx, lexN_field c ha _ _ _ hr]
  | fieldEnd hw hc =>
    rw [List.append_assoc, lexN_nameText hw]
    cases hc with
    | two =>
      refine .inl ⟨by have := not_stray_pair hw []; rwa [List.append_nil] at this, ?_⟩
      rw [lexN_pair, lexN_nil, lexN_nil]
      rfl
    | @other x hx =>
      refine .inr ⟨⟨_, [x], rfl, hw, by simpa using hx⟩, ?_⟩
      rw [lexN_stray hx, lexN_nil, lexN_nil]
      rfl
  | colonEnd hw =>
    refine .inr ⟨⟨_, [], rfl, hw, by simp⟩, ?_⟩
    rw [List.append_assoc, lexN_nameText hw, List.append_nil, lexN_colon_end, lexN_nil]
    rfl

theorem noWord_lexN {s : Str} (h : NoWord s) (acc : List Tok) : calcLexN .normal [] acc s = quiet (.error (.panic .unwrap)) := by
  cases h with
  | last h =>
    simp only [List.mem_cons, List.not_mem_nil, or_false] at h
    rcases h with rfl | rfl | rfl | rfl <;>
    (rw [calcLexN]; simp [isSpace, symbolToken, flushInto, unwrap, lift_bind, lift_error])
  | number hd hw hn hr =>
    rw [lexN_nameText hw]
    exact lexN_flush_error (by simp) acc (by unfold flushBuffer; rw [hn]; simp [hd]) _ hr

theorem note_bind_notes {α : Type} (n : Note) (x : Noted α) : (note n >>= fun _ => x).notes = n :: x.notes := rfl

theorem colonReports_lexN {s : Str} {n : Nat} (h : ColonReports s n) (acc : List Tok) :
    (calcLexN .normal [] acc s).notes = List.replicate n .invalidColon := by
  induction h generalizing acc with
  | nil => rw [lexN_nil]; rfl
  | noWord h => rw [noWord_lexN h]; rfl
  | stray hp hs _ ih =>
    rcases piece_lexN hp acc with ⟨h, _⟩ | ⟨_, h⟩
    · exact absurd hs h
    · rw [h, note_bind_notes, ih]; rfl
  | other hp hs _ ih =>
    rcases piece_lexN hp acc with ⟨_, h⟩ | ⟨h, _⟩
    · rw [h, ih]
    · exact absurd h hs

theorem colonReports_total (s : Str) : ∃ n, ColonReports s n := by
  induction hn : s.length using Nat.strongRecOn generalizing s with
  | _ n ih =>
    by_cases hs : s = []
    · subst hs; exact ⟨_, .nil⟩
    · rcases piece_or hs with h | ⟨w, ts, r, rfl, hp⟩
      · exact ⟨_, .noWord h⟩
      · have hw := List.length_pos_iff.mpr (piece_ne hp)
        obtain ⟨k, hk⟩ := ih r.length (by rw [List.length_append] at hn; omega) r rfl
        by_cases hst : Stray w
        · exact ⟨_, .stray hp hst hk⟩
        · exact ⟨_, .other hp hst hk⟩

theorem colonReports_iff (s : Str) (n : Nat) :
    (calcLexN .normal [] [] s).notes = List.replicate n .invalidColon ↔ ColonReports s n := by
  refine ⟨fun h => ?_, fun h => colonReports_lexN h []⟩
  obtain ⟨k, hk⟩ := colonReports_total s
  have h' := colonReports_lexN hk []
  rw [h] at h'
  have : n = k := by simpa using congrArg List.length h'
  exact this ▸ hk

end BurnFm
