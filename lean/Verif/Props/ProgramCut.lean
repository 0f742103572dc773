import Mathlib.Logic.ExistsUnique
import Verif.Proofs.ProgramCut
import Verif.Props.Burn

/-! Property C145: how the text of a program is cut into tokens, for every text. -/

namespace BurnFm.Props
open Spec

section
variable [Rt]

/-- C145: the lexer cuts the text of a program into exactly the tokens of the specification, in debug and in release builds. -/
theorem program_tokens_iff (p : Profile) (s : Str) (ts : List BurnTok) : lexBurn p s = .ok ts ↔ ProgramCut [] 0 s ts :=
  lexBurn_iff p s ts

/-- C145: it crashes exactly for the stated reasons. -/
theorem program_uncut_iff (p : Profile) (s : Str) (c : Panic) : lexBurn p s = .error c ↔ ProgramUncut p [] 0 s c :=
  lexBurn_error_iff p s c

/-- C145: a text is cut in exactly one way, or cutting it crashes in exactly one way. -/
theorem program_tokens_unique (p : Profile) (s : Str) : (∃! ts, ProgramCut [] 0 s ts) ∧ (∀ c, ¬ ProgramUncut p [] 0 s c) ∨
    (∀ ts, ¬ ProgramCut [] 0 s ts) ∧ ∃! c, ProgramUncut p [] 0 s c := by
  cases h : lexBurn p s with
  | ok ts =>
    refine .inl ⟨⟨ts, (lexBurn_iff p s ts).mp h, fun us hu => ?_⟩, fun c hu => ?_⟩
    · have := (lexBurn_iff p s us).mpr hu
      rw [h] at this; cases this; rfl
    · have := (lexBurn_error_iff p s c).mpr hu
      rw [h] at this; cases this
  | error c =>
    refine .inr ⟨fun us hu => ?_, c, (lexBurn_error_iff p s c).mp h, fun d hd => ?_⟩
    · have := (lexBurn_iff p s us).mpr hu
      rw [h] at this; cases this
    · have := (lexBurn_error_iff p s d).mpr hd
      rw [h] at this; cases this; rfl

/-- C145: which texts can be cut does not depend on how the program was built. -/
theorem program_crashes_in_both_builds (s : Str) : (∃ c, ProgramUncut .debug [] 0 s c) ↔ ∃ c, ProgramUncut .release [] 0 s c := by
  rcases program_tokens_unique .debug s with ⟨⟨ts, h, _⟩, hd⟩ | ⟨hn, c, hc, _⟩
  · refine ⟨fun ⟨c, hc⟩ => absurd hc (hd c), fun ⟨c, hc⟩ => ?_⟩
    have h1 := (lexBurn_iff .release s ts).mpr h
    rw [(lexBurn_error_iff .release s c).mpr hc] at h1
    cases h1
  · refine ⟨fun _ => ?_, fun _ => ⟨c, hc⟩⟩
    rcases program_tokens_unique .release s with ⟨⟨ts, h, _⟩, _⟩ | ⟨_, c', hc', _⟩
    · exact absurd h (hn ts)
    · exact ⟨c', hc'⟩

/-- C145: the text of a documented program is cut into the tokens it spells. -/
theorem documented_program_tokens (ds : List Decl) (ts : List BurnTok) (s : Str) (h : ProgramToks ds ts) (hs : BurnText ts s) :
    ProgramCut [] 0 s ts := by
  refine (lexBurn_iff .debug s ts).mp ?_
  unfold lexBurn
  rw [plex_text hs (by intro t ht; cases ht) (fun _ => lateBlocks_program h)
    (by simpa using lateParens_program h [] (fun _ => by intro t ht; simp at ht)), List.nil_append]

end

section
attribute [local instance] toyRt

example : ProgramCut [] 0 smallText smallToks := documented_program_tokens _ _ _ smallToks_ok smallText_ok

/-- A word that begins with a digit is joined with the word after the blank. -/
example : ProgramCut [] 0 t!"1e 5;" [⟨.numericLiteral, Rt.toText (Rt.ofText t!"1e5")⟩, ⟨.semiColon, []⟩] :=
  (program_tokens_iff .debug _ _).mp (by decide +kernel)

/-- A parenthesis before there are two tokens crashes: a debug build with an overflow, a release build with an index. -/
example : ProgramUncut .debug [] 0 t!"table (" .overflow ∧ ProgramUncut .release [] 0 t!"table (" .index :=
  ⟨(program_uncut_iff _ _ _).mp (by decide +kernel), (program_uncut_iff _ _ _).mp (by decide +kernel)⟩

end

end BurnFm.Props
