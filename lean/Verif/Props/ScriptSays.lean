import Verif.Proofs.ScriptSays
import Verif.Props.ProgramGrammar
import Verif.Props.ScriptWarnings

/-! Property C147: which warnings compiling a text prints, for every text. -/

namespace BurnFm.Props
open Spec

/-- C147: reading any tokens of scripts prints exactly the warnings of the specification, also if it crashes. -/
theorem script_warnings_iff (ts : List ScriptTok) (ws : List Warning) :
    (parseScriptsW .top [] {} [] ts).1 = ws ↔ ScriptsSay [] ts ws := scriptsW_iff ts ws

/-- C147: and so does compiling any text of scripts. -/
theorem script_text_warnings_exact (s : Str) (ws : List Warning) : (compileScriptsW s).1 = ws ↔ BlockSays s ws := blockSays_iff s ws

section
variable [Rt]

/-- C147: compiling any text of a program prints exactly the warnings of the blocks of scripts that it comes to, in order; nothing is
printed if the text cannot be cut into tokens. -/
theorem program_text_warnings_exact (p : Profile) (s : Str) (ws : List Warning) : (compileBurnW p s).1 = ws ↔
    (∃ ts, ProgramCut [] 0 s ts ∧ ProgramSays ts ws) ∨ ws = [] ∧ ∃ c, ProgramUncut p [] 0 s c := by
  unfold compileBurnW
  cases hl : lexBurn p s with
  | error c =>
    constructor
    · rintro rfl
      exact .inr ⟨rfl, c, (program_uncut_iff p s c).mp hl⟩
    · rintro (⟨ts, h, _⟩ | ⟨rfl, _⟩)
      · have := (program_tokens_iff p s ts).mpr h
        rw [hl] at this; cases this
      · rfl
  | ok ts =>
    have hc := (program_tokens_iff p s ts).mp hl
    simp only
    rw [programSays_iff ts (programCut_assertions hc)]
    constructor
    · intro h
      exact .inl ⟨ts, hc, h⟩
    · rintro (⟨ts', h, h'⟩ | ⟨_, c, h⟩)
      · have := (program_tokens_iff p s ts').mpr h
        rw [hl] at this; cases this
        exact h'
      · have := (program_uncut_iff p s c).mpr h
        rw [hl] at this; cases this

/-- C147: the warnings do not depend on how the program was built. -/
theorem warnings_same_in_both_builds (s : Str) : (compileBurnW .debug s).1 = (compileBurnW .release s).1 := by
  unfold compileBurnW
  cases hl : lexBurn .debug s with
  | ok ts => rw [(program_tokens_iff .release s ts).mpr ((program_tokens_iff .debug s ts).mp hl)]
  | error c =>
    cases hr : lexBurn .release s with
    | error c' => rfl
    | ok ts =>
      have := (program_tokens_iff .debug s ts).mpr ((program_tokens_iff .release s ts).mp hr)
      rw [hl] at this; cases this

end

/-- C147: every text of scripts prints its warnings in exactly one way. -/
theorem block_warnings_unique (s : Str) : ∃! ws, BlockSays s ws :=
  ⟨_, (blockSays_iff s _).mp rfl, fun ws h => ((blockSays_iff s ws).mpr h).symm⟩

/-- C147: tokens of scripts as documented print nothing. -/
theorem documented_scripts_silent (ds : List ScriptDef) (ts : List ScriptTok) (s : Str) (hs : ScriptText ts s)
    (hw : WrittenDefs false ds ts) : BlockSays s [] := (blockSays_iff s _).mp (good_scripts_no_warnings ds ts s hs hw)

/-- Tokens that are not as documented: the word `please` is no step, the loop has no bracket, and its end is outside of the script. -/
example : ScriptsSay [] [tDefine, tName t!"a", tSemi, tOpen, tName t!"please", tLoop, tSemi, tClose]
    [.invalidToken, .invalidStep t!"please", .expectedBrace, .unrecognized] :=
  .define (hs := [tSemi]) (b := [tName t!"please", tLoop, tSemi, tClose]) (ws := [.invalidStep t!"please", .expectedBrace])
    rfl (by decide) rfl
    (.phrase (w := [tName t!"please"]) (ws := [.invalidStep t!"please"]) (.skip (by simp only [Meaningful]; decide))
      (.skipped (by simp only [Meaningful]; decide))
      (.ends (w := [tLoop, tSemi]) (.noBracket (.inl rfl) (by decide)) (.noBracket (.inl rfl))))
    (.skip (by decide) .nil)

/-- A body that crashes keeps what was printed before. -/
example : ScriptsSay [] [tDefine, tName t!"a", tOpen, tName t!"please", tName t!"perform_find", tClose] [.invalidStep t!"please"] :=
  .breaks (hs := []) (b := [tName t!"please", tName t!"perform_find", tClose]) (ws := [.invalidStep t!"please"]) rfl (by simp) rfl
    (.phrase (w := [tName t!"please"]) (ws := [.invalidStep t!"please"]) (.skip (by simp only [Meaningful]; decide))
      (.skipped (by simp only [Meaningful]; decide)) (.breaks (.step (args := []) (by decide) (by decide) (by decide))))

/-- A program with a block that is read, and one after a mistake that is not. -/
example : ProgramBlocks [⟨.script, []⟩, ⟨.colon, []⟩, ⟨.openSquare, []⟩, ⟨.script, t!";"⟩, ⟨.closeSquare, []⟩, ⟨.semiColon, []⟩,
      ⟨.script, []⟩, ⟨.colon, []⟩, ⟨.openSquare, []⟩, ⟨.script, t!";"⟩] [t!";"] := by
  refine .scripts (fs := []) rfl rfl rfl ((blockOf_iff _ _).mp (by decide +kernel)) rfl (.nothing (by simp) ?_ ?_)
  · rintro w r e h hs
    cases hs <;> simp_all [List.cons_append]
    all_goals grind
  · intro text h; cases h; contradiction

end BurnFm.Props
