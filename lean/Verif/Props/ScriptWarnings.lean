import Verif.Proofs.DraftWarnings
import Verif.Props.BurnScript
import Verif.Props.Burn

/-! Property C120 and the parts of C58 and C67 that are about the error output: what the warnings of the compiler tell. -/

namespace BurnFm.Props
open Spec

/-! ### The warnings are those of the same compiler -/

/-- C120: the functions that also give the warnings give the results of those without. -/
theorem warnings_change_nothing [Rt] (p : Profile) (code block : Str) :
    (compileBurnW p code).2 = compileBurn p code ∧ (compileScriptsW block).2 = compileScripts block :=
  ⟨compileBurnW_snd p code, compileScriptsW_snd block⟩

/-! ### No false alarms -/

/-- C120: a program as it should be compiles without a warning. -/
theorem good_program_no_warnings [Rt] (p : Profile) (ds : List Decl) (ts : List BurnTok) (s : Str) (h : ProgramToks ds ts)
    (hs : BurnText ts s) : (compileBurnW p s).1 = [] := by
  rw [compileW_program p h hs]

/-- C120: so do script definitions as they should be. -/
theorem good_scripts_no_warnings (ds : List ScriptDef) (ts : List ScriptTok) (s : Str) (hs : ScriptText ts s)
    (hw : WrittenDefs false ds ts) : (compileScriptsW s).1 = [] := by
  rw [compileW_defs hs hw]

example : (compileScriptsW nestedText).1 = [] := good_scripts_no_warnings _ _ _ nestedText_ok nestedToks_written

/-! ### No warning, no loss -/

theorem compileW_parts {s : Str} {ts : List ScriptTok} (hl : lexScript s = .ok ts) :
    compileScriptsW s = ((parseScriptsW .top [] {} [] ts).1, (parseScriptsW .top [] {} [] ts).2 >>= unwrap) := by
  unfold compileScriptsW
  rw [hl]

theorem parse_of_compile {ts : List ScriptTok} {out : List FScript}
    (h : (parseScriptsW .top [] {} [] ts).2 >>= unwrap = .ok out) : (parseScriptsW .top [] {} [] ts).2 = .ok (some out) := by
  obtain ⟨x, h1, h2⟩ := bind_ok.mp h
  rw [h1]
  cases x with
  | none => cases h2
  | some y => injection h2 with h2; rw [h2]

/-- C120 (partial): if compiling the text of scripts prints no warning, the scripts have everything that is written: every
definition with its name and parameters, and in it every step and block with its arguments, in order; and nothing else but
the ends of blocks. Missing: texts in which `define` is followed by something that is not a name, and texts that end inside
of a step, see `silent_end_refuted` and `silent_keyword_refuted`. -/
theorem no_warning_no_loss_partial (s : Str) (ts : List ScriptTok) (scripts : List FScript) (hl : lexScript s = .ok ts)
    (hn : EveryScriptNamed ts) (hf : Finished ts) (h : compileScriptsW s = ([], .ok scripts)) :
    ScriptsKept (heads ts) scripts := by
  rw [compileW_parts hl] at h
  injection h with h1 h2
  obtain ⟨new, e, hk⟩ := kept_all ts .top [] {} [] scripts (parse_of_compile h2) h1 hn
    ⟨hf, fun _ => trivial⟩ (by simp) (by simp) (.inl rfl)
  rw [List.nil_append] at e
  rw [e]
  exact hk

/-- The tokens of the example of C56 meet the hypotheses. -/
example : ScriptsKept (heads nestedToks) [nestedDef.script] := by
  have hl : lexScript nestedText = .ok nestedToks := by
    have := blex_scriptText nestedText_ok []
    simpa [lexScript] using this
  refine no_warning_no_loss_partial nestedText nestedToks _ hl ?_ ?_ (compileW_defs nestedText_ok nestedToks_written)
  · intro a d t b e hd
    cases a with
    | nil =>
      have e1 : nestedToks[1]? = some t := by rw [e]; rfl
      have e2 : nestedToks[1]? = some (tName t!"f") := by decide
      rw [e2] at e1
      have := Option.some.inj e1
      subst this
      rfl
    | cons x a =>
      have hm : d ∈ nestedToks.tail := by rw [e]; simp
      have hall : ∀ x ∈ nestedToks.tail, x.ty ≠ .define := by decide
      exact absurd hd (hall d hm)
  · intro t ht
    have : nestedToks.getLast? = some tClose := by decide
    rw [this] at ht
    injection ht with ht
    subst ht
    decide

/-- C120 is false for a text that ends inside of a step: the step is lost and nothing is printed. -/
theorem silent_end_refuted :
    compileScriptsW t!"define t() { assert(1 == 2) " = ([], .ok [{ name := t!"t", arguments := [t!""], instructions := [] }]) := by
  decide +kernel

/-- C120 is false for a keyword after `define`: the script has no name and nothing is printed. -/
theorem silent_keyword_refuted :
    compileScriptsW t!"define loop { perform_find(); }" =
      ([], .ok [{ name := [], arguments := [], instructions := [⟨.performFind, 0, [t!""]⟩] }]) := by
  decide +kernel

/-! ### Unknown steps -/

/-- C58: the names of unknown steps are printed: all of them and no others, in the order of the text, whatever the text is;
unless a warning says that the parser lost its place. -/
theorem unknown_steps_named (s : Str) (ts : List ScriptTok) (scripts : List FScript) (hl : lexScript s = .ok ts)
    (h : compileScripts s = .ok scripts) (hw : ∀ w ∈ (compileScriptsW s).1, Local w) :
    reportedSteps (compileScriptsW s).1 = unknownSteps ts := by
  rw [← compileScriptsW_snd, compileW_parts hl] at h
  rw [compileW_parts hl] at hw ⊢
  exact reported_unknown ts .top [] {} [] scripts (parse_of_compile h) hw

example : reportedSteps (compileScriptsW t!"define t() { asert(1 == 2); if(x) { perform_find(); foo(); } }").1 =
    [t!"asert", t!"foo"] := by decide +kernel

example : ∀ w ∈ (compileScriptsW t!"define t() { asert(1 == 2); if(x) { perform_find(); foo(); } }").1, Local w := by
  have : (compileScriptsW t!"define t() { asert(1 == 2); if(x) { perform_find(); foo(); } }").1 =
    [.invalidStep t!"asert", .invalidScriptToken (tArg t!"1 == 2"), .invalidScriptToken tSemi, .invalidStep t!"foo",
      .invalidScriptToken (tArg t!""), .invalidScriptToken tSemi] := by decide +kernel
  rw [this]
  intro w hw
  simp only [List.mem_cons, List.not_mem_nil, or_false] at hw
  rcases hw with rfl | rfl | rfl | rfl | rfl | rfl <;> simp [Local]

/-- C58: so a text with an unknown step never compiles without a warning. -/
theorem unknown_steps_warned (s : Str) (ts : List ScriptTok) (scripts : List FScript) (hl : lexScript s = .ok ts)
    (h : compileScripts s = .ok scripts) (hu : unknownSteps ts ≠ []) : (compileScriptsW s).1 ≠ [] := by
  intro e
  have := unknown_steps_named s ts scripts hl h (by rw [e]; simp)
  rw [e] at this
  exact hu this.symm

example : unknownSteps [tDefine, tName t!"t", tArg t!"", tOpen, tName t!"asert", tArg t!"1 == 2", tSemi, tClose] ≠ [] := by
  decide

/-! ### Whole programs -/

/-- C120: a program whose script blocks contain anything prints the warnings of its script blocks, in order: all of them if
it compiles, and if it does not, those of the blocks up to the one it fails at. -/
theorem program_warnings [Rt] (p : Profile) (bs : List Str) (ts : List BurnTok) (s : Str) (h : DraftToks bs ts)
    (hs : BurnText ts s) :
    (∃ f, compileBurn p s = .ok f) ∧ (∀ b ∈ bs, ∃ ss, compileScripts b = .ok ss) ∧
      (compileBurnW p s).1 = bs.flatMap (fun b => (compileScriptsW b).1) ∨
    (∃ e, compileBurn p s = .error e) ∧ ∃ init b after, bs = init ++ b :: after ∧
      (∀ x ∈ init, ∃ ss, compileScripts x = .ok ss) ∧
      (compileBurnW p s).1 = init.flatMap (fun x => (compileScriptsW x).1) ++ (compileScriptsW b).1 := by
  obtain ⟨before, after, h1, h2, ⟨h3, h4, h5⟩ | ⟨h3, init, b, h4, h5⟩⟩ := compileW_draft p h hs <;>
    rw [compileBurnW_snd] at h3
  · subst h4
    rw [List.append_nil] at h1
    exact .inl ⟨h3, by rw [h1]; exact h5, by rw [h1, h2]⟩
  · refine .inr ⟨?_, init, b, after, by rw [h1, h4, List.append_assoc]; rfl, h5, by rw [h2, h4]; simp⟩
    cases hc : compileBurn p s with
    | ok f => exact absurd hc (h3 f)
    | error e => exact ⟨e, rfl⟩

theorem reportedSteps_append (a b : List Warning) : reportedSteps (a ++ b) = reportedSteps a ++ reportedSteps b := by
  induction a with
  | nil => rfl
  | cons w a ih => cases w <;> simp [reportedSteps, ih]

/-- C58 for a program: if it compiles, the unknown steps of all its script blocks are named, in order, unless a warning says
that the parser lost its place. -/
theorem program_unknown_steps_named [Rt] (p : Profile) (bs : List Str) (ts : List BurnTok) (s : Str) (f : FmpFile)
    (h : DraftToks bs ts) (hs : BurnText ts s) (hc : compileBurn p s = .ok f) (toks : Str → List ScriptTok)
    (hl : ∀ b ∈ bs, lexScript b = .ok (toks b))
    (hw : ∀ w ∈ (compileBurnW p s).1, Local w) :
    reportedSteps (compileBurnW p s).1 = bs.flatMap (fun b => unknownSteps (toks b)) := by
  rcases program_warnings p bs ts s h hs with ⟨-, hok, h1⟩ | ⟨⟨e, he⟩, -⟩
  · rw [h1] at hw ⊢
    clear h h1
    induction bs with
    | nil => rfl
    | cons b bs ih =>
      obtain ⟨ss, h3⟩ := hok b (by simp)
      rw [List.flatMap_cons] at hw ⊢
      rw [List.flatMap_cons, ← unknown_steps_named b (toks b) ss (hl b (by simp)) h3 (fun w hh => hw w (by simp [hh])),
        ← ih (fun x hx => hl x (by simp [hx])) (fun w hh => hw w (List.mem_append_right _ hh))
          (fun x hx => hok x (by simp [hx])), reportedSteps_append]
  · rw [hc] at he; cases he

section Example
attribute [local instance] toyRt

/-- Two script blocks, with an unknown step in each. -/
def draftText : Str := t!"script: [define a() { foo(); }] script: [define b() { perform_find(); bar(); }]"

def draftBlocks : List Str := [t!"define a() { foo(); }", t!"define b() { perform_find(); bar(); }"]

def draftToks : List BurnTok :=
  [⟨.script, []⟩, ⟨.colon, []⟩, ⟨.openSquare, []⟩, ⟨.script, t!"define a() { foo(); }"⟩, ⟨.closeSquare, []⟩,
    ⟨.script, []⟩, ⟨.colon, []⟩, ⟨.openSquare, []⟩, ⟨.script, t!"define b() { perform_find(); bar(); }"⟩, ⟨.closeSquare, []⟩]

theorem draftToks_ok : DraftToks draftBlocks draftToks := .cons .scripts (.cons .scripts .nil)

theorem draftText_ok : BurnText draftToks draftText := by
  refine .keyword (w := t!"script") (by decide) (by decide) (.mark (by decide) (.space (by decide)
    (.block (q := t!"define a() { foo(); }") (by decide) (.space (by decide)
      (.keyword (w := t!"script") (by decide) (by decide) (.mark (by decide) (.space (by decide)
        (.block (q := t!"define b() { perform_find(); bar(); }") (by decide) .nil))))))))

/-- It compiles, and both unknown steps are named. -/
example : (compileBurnW .debug draftText).2.isOk = true ∧
    (compileBurnW .debug draftText).1 =
      draftBlocks.flatMap (fun b => (compileScriptsW b).1) ∧
    reportedSteps (compileBurnW .debug draftText).1 = [t!"foo", t!"bar"] := by decide +kernel

/-- A program that fails at its second block still prints the warnings of the first. -/
example : reportedSteps (compileBurnW .debug t!"script: [define a() { foo(); }] script: [define b() { perform_find() } ]").1 =
      [t!"foo"] ∧
    (compileBurnW .debug t!"script: [define a() { foo(); }] script: [define b() { perform_find() } ]").2.isOk = false := by
  decide +kernel

end Example

/-! ### Missing braces -/

/-- C67 (partial): unless a warning says otherwise, every definition in the text is a script of its own. So a definition that
is read as part of another because a closing brace is missing is always reported. Missing: the brace of the last script, see
`silent_brace_refuted`. -/
theorem definitions_are_scripts_partial (s : Str) (ts : List ScriptTok) (scripts : List FScript) (hl : lexScript s = .ok ts)
    (hn : EveryScriptNamed ts) (h : compileScripts s = .ok scripts) (hw : ∀ w ∈ (compileScriptsW s).1, Local w) :
    scripts.length = defines ts := by
  rw [← compileScriptsW_snd, compileW_parts hl] at h
  rw [compileW_parts hl] at hw
  have := script_count ts .top [] {} [] scripts (parse_of_compile h) hw hn (by simp)
  simpa using this

example : defines nestedToks = 1 := by decide

/-- C67: the witness of `missing_brace_merges` is reported. -/
example : (compileScriptsW t!"define a() { if(x) { perform_find(); define b() { show_all_records(); }").1 =
    [.invalidScriptToken tDefine, .invalidStep t!"b", .invalidScriptToken (tArg t!"")] := by decide +kernel

/-- C67 is false for the last script of a text: the missing braces are not reported. -/
theorem silent_brace_refuted :
    compileScriptsW t!"define a() { if(x) { perform_find(); " =
      ([], .ok [{ name := t!"a", arguments := [t!""], instructions := [⟨.if, 0, [t!"x"]⟩, ⟨.performFind, 0, [t!""]⟩] }]) := by
  decide +kernel

end BurnFm.Props
