import Verif.Proofs.ScriptGrammar
import Verif.Props.ScriptCut
import Verif.Props.BurnScript

/-! Property C144: what a script text compiles to, for every text. -/

namespace BurnFm.Props
open Spec

/-- C144: the parser reads exactly the scripts of the specification from any tokens. -/
theorem script_grammar_iff (ts : List ScriptTok) (fs : List FScript) :
    parseScripts .top [] {} [] ts = .ok (some fs) ↔ ScriptsOf [] ts fs := parseScripts_iff ts fs

/-- C144: and it crashes exactly for the stated reasons. -/
theorem script_grammar_breaks_iff (ts : List ScriptTok) (p : Panic) :
    parseScripts .top [] {} [] ts = .error p ↔ ScriptsBreak [] ts p := parseScripts_error_iff ts p

/-- C144: what a text compiles to, for every text: it is cut into tokens, and the tokens give the scripts. -/
theorem script_text_compiles_exact (s : Str) (fs : List FScript) :
    compileScripts s = .ok fs ↔ ∃ ts, ScriptCut s ts ∧ ScriptsOf [] ts fs := by
  constructor
  · intro h
    unfold compileScripts at h
    cases hl : lexScript s with
    | error p => rw [hl] at h; cases h
    | ok ts =>
      rw [hl, ok_bind] at h
      refine ⟨ts, (script_tokens_iff s ts).mp hl, ?_⟩
      cases hp : parseScripts .top [] {} [] ts with
      | error p => rw [hp] at h; cases h
      | ok o =>
        rw [hp, ok_bind] at h
        cases o with
        | none => cases h
        | some gs => cases h; exact (script_grammar_iff ts _).mp hp
  · rintro ⟨ts, h1, h2⟩
    unfold compileScripts
    rw [(script_tokens_iff s ts).mpr h1, ok_bind, (script_grammar_iff ts fs).mpr h2, ok_bind]
    rfl

/-- C144: compiling a text crashes exactly if its last character needs another one after it, or if its tokens break. -/
theorem script_text_crashes_exact (s : Str) (p : Panic) : compileScripts s = .error p ↔
    p = .unwrap ∧ ScriptUncut s ∨ ∃ ts, ScriptCut s ts ∧ ScriptsBreak [] ts p := by
  constructor
  · intro h
    unfold compileScripts at h
    cases hl : lexScript s with
    | error q => rw [hl] at h; cases h; exact .inl ((script_uncut_iff s _).mp hl)
    | ok ts =>
      rw [hl, ok_bind] at h
      refine .inr ⟨ts, (script_tokens_iff s ts).mp hl, ?_⟩
      cases hp : parseScripts .top [] {} [] ts with
      | error q => rw [hp] at h; cases h; exact (script_grammar_breaks_iff ts _).mp hp
      | ok o =>
        rw [hp, ok_bind] at h
        cases o with
        | none => exact absurd hp (script_parser_never_reports ts)
        | some gs => cases h
  · rintro (⟨rfl, h⟩ | ⟨ts, h1, h2⟩)
    · unfold compileScripts
      rw [(script_uncut_iff s .unwrap).mpr ⟨rfl, h⟩]; rfl
    · unfold compileScripts
      rw [(script_tokens_iff s ts).mpr h1, ok_bind, (script_grammar_breaks_iff ts p).mpr h2]; rfl

/-- C144: tokens give scripts in exactly one way, or they break in exactly one way. -/
theorem script_grammar_unique (ts : List ScriptTok) :
    (∃! fs, ScriptsOf [] ts fs) ∧ (∀ p, ¬ ScriptsBreak [] ts p) ∨ (∀ fs, ¬ ScriptsOf [] ts fs) ∧ ∃! p, ScriptsBreak [] ts p := by
  cases h : parseScripts .top [] {} [] ts with
  | ok o =>
    cases o with
    | none => exact absurd h (script_parser_never_reports ts)
    | some fs =>
      refine .inl ⟨⟨fs, (script_grammar_iff ts fs).mp h, fun gs hg => ?_⟩, fun p hp => ?_⟩
      · have := (script_grammar_iff ts gs).mpr hg
        rw [h] at this; cases this; rfl
      · have := (script_grammar_breaks_iff ts p).mpr hp
        rw [h] at this; cases this
  | error p =>
    refine .inr ⟨fun gs hg => ?_, p, (script_grammar_breaks_iff ts p).mp h, fun q hq => ?_⟩
    · have := (script_grammar_iff ts gs).mpr hg
      rw [h] at this; cases this
    · have := (script_grammar_breaks_iff ts q).mpr hq
      rw [h] at this; cases this; rfl

/-- C144: definitions as documented are among them. -/
theorem documented_scripts (ds : List ScriptDef) (ts : List ScriptTok) (h : WrittenDefs false ds ts) :
    ScriptsOf [] ts (ds.map ScriptDef.script) := (script_grammar_iff ts _).mp (structured_tokens_parse ds ts h)

example : ScriptsOf [] nestedToks [nestedDef.script] := documented_scripts [nestedDef] nestedToks nestedToks_written

/-- A block that is left open goes on in the next script: here the second script ends with an end of a condition that is not in it. -/
theorem open_block_leaks : compileScripts t!"define a() { if(x) { loop; } define b() { perform_find(); } }" =
    .ok [{ name := t!"a", arguments := [t!""], instructions := [⟨.if, 0, [t!"x"]⟩] },
      { name := t!"b", arguments := [t!""], instructions := [⟨.performFind, 0, [t!""]⟩, ⟨.endIf, 0, []⟩] }] := by decide +kernel

/-- The same from the specification: tokens that are not as documented. -/
example : ScriptsOf [] [tDefine, tName t!"a", tOpen, tLoop, tSemi, tClose, tDefine, tName t!"b"]
    [{ name := t!"a" }, { name := t!"b" }] :=
  .define (hs := []) (b := [tLoop, tSemi, tClose, tDefine, tName t!"b"]) rfl (by simp) rfl
    (.ends (w := [tLoop, tSemi]) (.noBracket (.inl rfl) (by decide)))
    (.skip (by decide) (.noBody (hs := []) rfl (by simp)))

example : ScriptsBreak [] [tDefine, tName t!"a", tOpen, tName t!"perform_find", tClose] .explicit :=
  .body (hs := []) rfl (by simp) rfl (.here (.step (args := []) (by decide) (by decide) (by decide)))

end BurnFm.Props
