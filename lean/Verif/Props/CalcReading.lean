import Verif.Proofs.CalcReading
import Verif.Proofs.CalcGrammar
import Verif.Props.CalcParser

/-! Property C141: how a sequence of words is read as a calculation, for every sequence. -/

namespace BurnFm.Props
open Spec
variable [Rt]

/-- C141: the parser reads exactly what the complete grammar says. -/
theorem calc_reading_iff (ts : List Tok) (e : Node Rt.F) (fuel : Nat) (hf : 10 * ts.length + 10 ≤ fuel) :
    parseCalc fuel ts = .ok e ↔ Calculation ts e := by
  refine ⟨parseCalc_understood, fun h => ?_⟩
  refine (parseCalc_evals (understood_parseCalc h) fuel).eq (fun h' => ?_)
  obtain ⟨n, hn⟩ := understood_parseCalc h
  have h1 : parseCalc n ts = .ok e := hn n (Nat.le_refl _)
  rw [comes_parseCalc (parseCalc_comes hf h') n] at h1
  cases h1

/-- C141: and it crashes exactly where nothing can be read and no opening parenthesis at the end is in the way. -/
theorem calc_crashes_iff (ts : List Tok) (fuel : Nat) (hf : 10 * ts.length + 10 ≤ fuel) :
    (∃ c, parseCalc fuel ts = .error (.panic c)) ↔ (¬ ∃ e, Calculation ts e) ∧ ¬ Comes (some .cmp) ts := by
  constructor
  · rintro ⟨c, hc⟩
    refine ⟨fun ⟨e, he⟩ => ?_, fun h => ?_⟩
    · rw [(calc_reading_iff ts e fuel hf).mpr he] at hc; cases hc
    · rw [comes_parseCalc h] at hc; cases hc
  · rintro ⟨h1, h2⟩
    cases h : parseCalc fuel ts with
    | ok e => exact absurd ⟨e, parseCalc_understood h⟩ h1
    | error e =>
      cases e with
      | fuel => exact absurd (parseCalc_comes hf h) h2
      | panic c => exact ⟨c, rfl⟩

/-- C141: a sequence is read in at most one way. -/
theorem calc_reading_unique (ts : List Tok) (e e' : Node Rt.F) (h : Calculation ts e) (h' : Calculation ts e') : e = e' := by
  have := (understood_parseCalc h).unique (understood_parseCalc h')
  injection this

/-- C141: what is written as documented is read as documented. -/
theorem documented_reading (ts : List Tok) (e : Node Rt.F) (h : Spells .cmp ts e) : Calculation ts e :=
  parseCalc_understood (calc_parses_grammar ts e h _ (Nat.le_refl _))

/-- C141, from the text: a text whose words are read as an expression has the value of this expression. -/
theorem read_text_evaluates (env : CalcEnv) (s : Str) (ts : List Tok) (hs : lexCalc s = .ok ts) (e : Node Rt.F)
    (h : Calculation ts e) (fuel : Nat) (hf : 10 * ts.length + 10 ≤ fuel) : evalCalc env fuel s = evalNode env fuel e := by
  unfold evalCalc
  rw [hs, liftR, ev_ok_bind, (calc_reading_iff ts e fuel hf).mpr h, ev_ok_bind]

/-- `1 ( ` is read as `1`. -/
example (x : Rt.F) (h : parseF64 t!"1" = some x) : Calculation [⟨.numericLiteral, t!"1"⟩, sym .openParen] (.number x) :=
  ⟨[sym .openParen], .alone (by decide) (.alone (by decide) (.alone (by decide) (.alone (by decide) (.number h)
    (by simp [Complete, Level.operators, Level.operand, ahead])) (by simp [Complete, Level.operators, Level.operand, ahead, sym]))
    (by simp [Complete, Level.operators, Level.operand, ahead, sym])) (by simp [Complete, Level.operators, Level.operand, ahead, sym]),
    .inl rfl⟩

/-- `f(a) b` is read as the call `f(a)`. -/
example : Calculation [⟨.identifier, t!"f"⟩, sym .openParen, ⟨.identifier, t!"a"⟩, sym .closeParen, ⟨.identifier, t!"b"⟩]
    (.call t!"f" [.variable t!"a"] : Node Rt.F) := by
  have ha : Understood (.node .cmp (.variable t!"a" : Node Rt.F)) [⟨.identifier, t!"a"⟩, sym .closeParen, ⟨.identifier, t!"b"⟩]
      [sym .closeParen, ⟨.identifier, t!"b"⟩] :=
    .alone (by decide) (.alone (by decide) (.alone (by decide) (.alone (by decide)
      (.name (by decide) (by intro t ht; cases ht; decide)) (by simp [Complete, Level.operators, Level.operand]))
      (by simp [Complete, Level.operators, Level.operand, sym])) (by simp [Complete, Level.operators, Level.operand, sym]))
      (by simp [Complete, Level.operators, Level.operand, sym])
  have hp : Understood (.node .factor (.variable t!"a" : Node Rt.F))
      [sym .openParen, ⟨.identifier, t!"a"⟩, sym .closeParen, ⟨.identifier, t!"b"⟩] [⟨.identifier, t!"b"⟩] :=
    .paren (r' := [sym .closeParen, ⟨.identifier, t!"b"⟩]) rfl ha (by simp [Complete, Level.operators, sym])
  have hc : Understood (.node .factor (.call t!"f" [.variable t!"a"] : Node Rt.F))
      [⟨.identifier, t!"f"⟩, sym .openParen, ⟨.identifier, t!"a"⟩, sym .closeParen, ⟨.identifier, t!"b"⟩] [⟨.identifier, t!"b"⟩] :=
    .call (by decide) rfl (.lastArgument (.alone (by decide) (.alone (by decide) hp
      (by simp [Complete, Level.operators, Level.operand])) (by simp [Complete, Level.operators, Level.operand]))
      (by simp [Complete, Level.operators]) (by intro t ht; cases ht; decide))
  exact ⟨_, .alone (by decide) (.alone (by decide) (.alone (by decide) (.alone (by decide) hc
    (by simp [Complete, Level.operators, Level.operand])) (by simp [Complete, Level.operators, Level.operand]))
    (by simp [Complete, Level.operators, Level.operand])) (by simp [Complete, Level.operators, Level.operand]), .inl rfl⟩

end BurnFm.Props
