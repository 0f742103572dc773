import Verif.Proofs.CalcWords
import Verif.Props.CalcReading
import Verif.Props.Means

/-! Property C142: how a text is cut into words, and what a text means, for every text. -/

namespace BurnFm.Props
open Spec

section
variable [Rt]

/-- C142: the lexer cuts a text into exactly the words of the specification. -/
theorem text_words_iff (s : Str) (ts : List Tok) : lexCalc s = .ok ts ↔ CutInto s ts := lexCalc_iff s ts

/-- C142: and it crashes exactly if it gets to something that is no word. -/
theorem text_uncut_iff (s : Str) (p : Panic) : lexCalc s = .error p ↔ p = .unwrap ∧ Uncut s := lexCalc_error_iff s p

/-- C142: a text is cut into words in exactly one way, or not at all because something in it is no word. -/
theorem text_words_unique (s : Str) : (∃! ts, CutInto s ts) ∧ ¬ Uncut s ∨ (∀ ts, ¬ CutInto s ts) ∧ Uncut s := by
  cases h : lexCalc s with
  | ok ts =>
    refine .inl ⟨⟨ts, (lexCalc_iff s ts).mp h, fun us hu => ?_⟩, fun hu => ?_⟩
    · have := (lexCalc_iff s us).mpr hu
      rw [h] at this; cases this; rfl
    · have := (lexCalc_error_iff s .unwrap).mpr ⟨rfl, hu⟩
      rw [h] at this; cases this
  | error p =>
    refine .inr ⟨fun us hu => ?_, ((lexCalc_error_iff s p).mp h).2⟩
    have := (lexCalc_iff s us).mpr hu
    rw [h] at this; cases this

/-- C142: words written as documented, with or without white space between them, are the words the text is cut into. -/
theorem documented_words (ws : List (Str × Tok)) (s : Str) (h : LaidOut ws s) : CutInto s (ws.map (·.2)) :=
  (lexCalc_iff s _).mp (calc_layout_partial ws s h)

/-- C142: the value of a text, for every text: it is cut into words, the words are read as an expression, and the expression has this
value. -/
theorem text_means_exact (env : CalcEnv) (s v : Str) :
    (∃ fuel, evalCalc env fuel s = .ok v) ↔ ∃ ts e, CutInto s ts ∧ Calculation ts e ∧ Means env e v := by
  rw [text_value_exact]
  constructor
  · rintro ⟨e, ⟨ts, n, h1, h2⟩, h3⟩
    exact ⟨ts, e, (lexCalc_iff s ts).mp h1, parseCalc_understood h2, h3⟩
  · rintro ⟨ts, e, h1, h2, h3⟩
    exact ⟨e, ⟨ts, _, (lexCalc_iff s ts).mpr h1, (calc_reading_iff ts e _ (Nat.le_refl _)).mpr h2⟩, h3⟩

/-- C142: evaluating a text crashes exactly if something in it is no word, if its words cannot be read, or if the expression they are
read as crashes. -/
theorem text_crashes_exact (env : CalcEnv) (s : Str) :
    (∃ fuel p, evalCalc env fuel s = .error (.panic p)) ↔ Uncut s ∨ ∃ ts, CutInto s ts ∧
      ((¬ ∃ e, Calculation ts e) ∧ ¬ Comes (some .cmp) ts ∨ ∃ e, Calculation ts e ∧ Fails env .crash e) := by
  constructor
  · rintro ⟨n, p, h⟩
    cases hl : lexCalc s with
    | error q => exact .inl ((lexCalc_error_iff s q).mp hl).2
    | ok ts =>
      refine .inr ⟨ts, (lexCalc_iff s ts).mp hl, ?_⟩
      unfold evalCalc at h
      rw [hl, liftR, ev_ok_bind] at h
      cases hp : parseCalc n ts with
      | ok e =>
        rw [hp, ev_ok_bind] at h
        exact .inr ⟨e, parseCalc_understood hp, (calculation_crashes_exact env e).mp ⟨n, p, h⟩⟩
      | error q =>
        rw [hp] at h
        have hq : q = .panic p := by injection h
        subst hq
        refine .inl ((calc_crashes_iff ts (max n (10 * ts.length + 10)) (Nat.le_max_right _ _)).mp ⟨p, ?_⟩)
        rw [← (parseCalc_mono ts (Nat.le_max_left n (10 * ts.length + 10))).eq (by rw [hp]; nofun), hp]
  · rintro (h | ⟨ts, h1, h | ⟨e, h2, h3⟩⟩)
    · refine ⟨0, .unwrap, ?_⟩
      unfold evalCalc
      rw [(lexCalc_error_iff s .unwrap).mpr ⟨rfl, h⟩]
      rfl
    · obtain ⟨c, hc⟩ := (calc_crashes_iff ts _ (Nat.le_refl _)).mpr h
      refine ⟨10 * ts.length + 10, c, ?_⟩
      unfold evalCalc
      rw [(lexCalc_iff s ts).mpr h1, liftR, ev_ok_bind, hc]
      rfl
    · obtain ⟨m, p, h3⟩ := (calculation_crashes_exact env e).mpr h3
      refine ⟨max (10 * ts.length + 10) m, p, ?_⟩
      rw [read_text_evaluates env s ts ((lexCalc_iff s ts).mpr h1) e h2 _ (Nat.le_max_left _ _)]
      have e2 := (mono_le (x := fun f => evalNode env f e) (fun f => evalNode_mono env f e)
        (Nat.le_max_right (10 * ts.length + 10) m)).eq (by show evalNode env m e ≠ _; rw [h3]; nofun)
      have e2 : evalNode env m e = evalNode env (max (10 * ts.length + 10) m) e := e2
      rw [← e2, h3]

/-- C142: evaluating a text never ends exactly if reading its words comes to an opening parenthesis at the end, or if the expression
they are read as never ends. -/
theorem text_endless_exact (env : CalcEnv) (s : Str) :
    (∀ fuel, evalCalc env fuel s = .error .fuel) ↔ ∃ ts, CutInto s ts ∧
      (Comes (some .cmp) ts ∨ ∃ e, Calculation ts e ∧ Fails env .endless e) := by
  constructor
  · intro h
    cases hl : lexCalc s with
    | error q =>
      have := h 0
      unfold evalCalc at this
      rw [hl] at this
      cases this
    | ok ts =>
      refine ⟨ts, (lexCalc_iff s ts).mp hl, ?_⟩
      by_cases hc : Comes (some .cmp) ts
      · exact .inl hc
      · by_cases he : ∃ e, Calculation ts e
        · obtain ⟨e, he⟩ := he
          refine .inr ⟨e, he, (calculation_endless_exact env e).mp fun n => ?_⟩
          have h1 := h (max (10 * ts.length + 10) n)
          rw [read_text_evaluates env s ts hl e he _ (Nat.le_max_left _ _)] at h1
          have hle := mono_le (x := fun f => evalNode env f e) (fun f => evalNode_mono env f e)
            (Nat.le_max_right (10 * ts.length + 10) n)
          refine Classical.byContradiction fun hne => ?_
          have : evalNode env n e = evalNode env (max (10 * ts.length + 10) n) e := hle.eq hne
          exact hne (this.trans h1)
        · obtain ⟨c, hc⟩ := (calc_crashes_iff ts _ (Nat.le_refl _)).mpr ⟨he, hc⟩
          have := h (10 * ts.length + 10)
          unfold evalCalc at this
          rw [hl, liftR, ev_ok_bind, hc] at this
          cases this
  · rintro ⟨ts, h1, h | ⟨e, h2, h3⟩⟩ fuel
    · unfold evalCalc
      rw [(lexCalc_iff s ts).mpr h1, liftR, ev_ok_bind, comes_parseCalc h]
      rfl
    · have h3 := (calculation_endless_exact env e).mpr h3
      unfold evalCalc
      rw [(lexCalc_iff s ts).mpr h1, liftR, ev_ok_bind]
      cases hp : parseCalc fuel ts with
      | ok e' =>
        rw [ev_ok_bind, calc_reading_unique ts e' e (parseCalc_understood hp) h2]
        exact h3 fuel
      | error q =>
        cases q with
        | fuel => rfl
        | panic c =>
          have := (understood_parseCalc h2)
          obtain ⟨m, hm⟩ := this
          have e1 := (parseCalc_mono ts (Nat.le_max_left fuel m)).eq (by rw [hp]; nofun)
          have e2 : parseCalc (max fuel m) ts = .ok e := hm _ (Nat.le_max_right fuel m)
          rw [hp, e2] at e1
          cases e1

end

section Example
attribute [local instance] toyRt

/-- A single equals sign is skipped: `a = b` is cut into the words `a` and `b`. -/
example : CutInto t!"a = b" [⟨.identifier, t!"a"⟩, ⟨.identifier, t!"b"⟩] := by
  refine .piece (w := t!"a") (r := t!" = b") (ts := [⟨.identifier, t!"a"⟩])
    (.name (by decide) ⟨by intro c h; cases h; decide, by decide⟩ (by intro d h; cases h; decide) (.name (by decide) (by decide))) ?_
  refine .piece (w := t!" ") (r := t!"= b") (ts := []) (.blank (by decide)) ?_
  refine .piece (w := t!"=") (r := t!" b") (ts := []) (.equalsSign (by decide)) ?_
  refine .piece (w := t!" ") (r := t!"b") (ts := []) (.blank (by decide)) ?_
  exact .piece (w := t!"b") (r := []) (ts := [⟨.identifier, t!"b"⟩])
    (.name (by decide) ⟨by intro c h; cases h; decide, by decide⟩ (by intro d h; cases h) (.name (by decide) (by decide))) .nil

/-- `a:b` becomes a name with three colons, which leave out the `b`. -/
example : CutInto t!"a:b" [⟨.identifier, t!"a:::"⟩] :=
  .piece (w := t!"a:b") (r := []) (ts := [⟨.identifier, t!"a:::"⟩])
    (.fieldEnd (w := t!"a") ⟨by intro c h; cases h; decide, by decide⟩ (.other (by decide))) .nil

/-- `a <` and `1st` cannot be cut into words. -/
example : Uncut t!" <" ∧ Uncut t!"1st" :=
  ⟨.piece (w := t!" ") (r := t!"<") (.blank (by decide)) (.here (.last (by decide))),
   .here (.number (w := t!"st") (r := []) (by decide) ⟨by intro c h; cases h; decide, by decide⟩ (by decide)
     (by intro d h; cases h))⟩

end Example

end BurnFm.Props
