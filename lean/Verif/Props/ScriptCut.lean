import Mathlib.Logic.ExistsUnique
import Verif.Proofs.ScriptCut

/-! Property C143: how a script text is cut into tokens, for every text. -/

namespace BurnFm.Props
open Spec

/-- C143: the lexer cuts a script text into exactly the tokens of the specification. -/
theorem script_tokens_iff (s : Str) (ts : List ScriptTok) : lexScript s = .ok ts ↔ ScriptCut s ts := lexScript_iff s ts

/-- C143: it crashes exactly if it gets to one of `! = < >` as the last character of the text. -/
theorem script_uncut_iff (s : Str) (p : Panic) : lexScript s = .error p ↔ p = .unwrap ∧ ScriptUncut s := lexScript_error_iff s p

/-- C143: a text is cut in exactly one way, or not at all because of its last character. -/
theorem script_tokens_unique (s : Str) : (∃! ts, ScriptCut s ts) ∧ ¬ ScriptUncut s ∨ (∀ ts, ¬ ScriptCut s ts) ∧ ScriptUncut s := by
  cases h : lexScript s with
  | ok ts =>
    refine .inl ⟨⟨ts, (lexScript_iff s ts).mp h, fun us hu => ?_⟩, fun hu => ?_⟩
    · have := (lexScript_iff s us).mpr hu
      rw [h] at this; cases this; rfl
    · have := (lexScript_error_iff s .unwrap).mpr ⟨rfl, hu⟩
      rw [h] at this; cases this
  | error p =>
    refine .inr ⟨fun us hu => ?_, ((lexScript_error_iff s p).mp h).2⟩
    have := (lexScript_iff s us).mpr hu
    rw [h] at this; cases this

/-- C143: a text as documented is cut into the tokens it spells. -/
theorem documented_script_tokens (ts : List ScriptTok) (s : Str) (h : ScriptText ts s) : ScriptCut s ts :=
  (lexScript_iff s ts).mp (by rw [lexScript, blex_scriptText h]; rfl)

/-- A text that is not as documented: the parenthesis is not closed, and the last argument is lost. -/
example : ScriptCut t!"f (a, b(c,d" [tName t!"f", tArg t!"a"] :=
  (script_tokens_iff _ _).mp (by decide)

example : ScriptPiece t!"(a, b" [tArg t!"a"] [] := by
  refine .unclosed (as := [t!"a"]) (b := t!" b") (by
    intro a ha
    simp only [List.mem_cons, List.not_mem_nil, or_false] at ha
    subst ha
    exact .char (by decide) (by decide) (by decide) .nil) ?_
  intro x c y e _
  have : c ∈ t!" b" := by rw [e]; simp
  revert this
  simp only [List.mem_cons, List.not_mem_nil, or_false]
  rintro (rfl | rfl) <;> decide

/-- A word at the end of the text is lost, and the character after a comparison sign is skipped. -/
example : ScriptCut t!"a<b c" [tName t!"a", ⟨.lt, []⟩] := (script_tokens_iff _ _).mp (by decide)

example : ScriptUncut t!"a =" := ((script_uncut_iff _ .unwrap).mp (by decide)).2

example : ScriptText [tName t!"f", tArg t!"a", tSemi] t!"f(a);" :=
  .name (w := t!"f") (d := '(') (by decide) (by decide) (by decide) (by decide) (by decide)
    (.args (as := [(0, t!"a")]) (by decide)
      (by
        intro a ha
        simp only [List.mem_cons, List.not_mem_nil, or_false] at ha
        subst ha
        exact ⟨.char (by decide) (by decide) (by decide) .nil, by decide, by decide⟩)
      (.semi .nil))

end BurnFm.Props
