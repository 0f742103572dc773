import Verif.Proofs.Screen
import Verif.Props.Inspect

/-! Property C125: everything that is seen of a run of the program, in order, also if it stops. -/

namespace BurnFm.Props
open Spec

/-- C125: collecting the output changes nothing: the same end, the same files with the same contents in the same order. The verdicts
shown are those of the model without the output; if the program stops, further ones may have been shown. -/
theorem screen_changes_nothing [Rt] (ev : Calculator) (p : Profile) (n : Nat) (s : Surroundings) (args : Args) (printHeader : Bool) :
    let seen := programShown ev p n s args printHeader
    let log := wholeProgram ev p n s args printHeader
    seen.2 = log.2 ∧ savedOf seen.1 = savedEvents log.1 ∧ (runsOf (actionsOf log.1)).flatten <+: verdictsShown seen.1 ∧
      ∀ last, seen.2 = .ok last → verdictsShown seen.1 = (runsOf (actionsOf log.1)).flatten :=
  have h := programShown_matches ev p n s args printHeader
  ⟨h.result, h.saved, h.some, h.all⟩

/-- C125: what is seen of a run of the compiler, however it ends: the warnings about the files given with `-t`; then, for one input
file after the other, its warnings, its JSON file, its tests with their verdicts, and its database file; and of the input file at
which the program stops, if there is one, the same up to there. -/
theorem compile_screen [Rt] (ev : Calculator) (p : Profile) (n : Nat) (s : Surroundings) (hf : Fair s) (inputs : List (Str × Str))
    (test : List Str) (noTesting printHeader : Bool) (given : List FmpFile) (hg : Compiled p test given) :
    ∃ done rest gs bases parts tail, inputs = done ++ rest ∧ Compiled p (done.map (·.2)) gs ∧
      done.map (·.1) = bases.map (· ++ t!".burn") ∧
      List.Forall₂ (fun (x : Str × FmpFile) => SeenWhole ev p n noTesting x.1 x.2) ((done.map (·.2)).zip (snapshots given gs bases)) parts ∧
      (programShown ev p n s ⟨.compile inputs, test, noTesting⟩ printHeader).1 =
        test.flatMap (warningsOf p) ++ parts.flatten ++ tail ∧
      ((rest = [] ∧ tail = [] ∧ ∃ last, (programShown ev p n s ⟨.compile inputs, test, noTesting⟩ printHeader).2 = .ok last) ∨
       ∃ name text rest' e, rest = (name, text) :: rest' ∧
        (programShown ev p n s ⟨.compile inputs, test, noTesting⟩ printHeader).2 = .error e ∧
        SeenUpTo ev p n s.inspectDir noTesting name text (fun g base => combined given (gs ++ [g]) gs.length base) e tail) := by
  unfold programShown
  rw [givenTestsShown_compiled hg, Screen.andThen_of_ok]
  obtain ⟨done, rest, gs, bases, snaps, parts, tail, h1, h2, h3, h4, h5, h6⟩ :=
    compileAllShown_seen ev p n hf noTesting inputs { tests := given.flatMap (·.tests) }
  obtain ⟨c1, c2, c3, c4⟩ := h2.spec
  have hs : snaps = snapshots given gs bases := by
    rw [c4, snapshots]
    apply List.map_congr_left
    rintro ⟨x, i⟩ _
    exact fold_merge_tests _ _ _
  subst hs
  rw [h3, List.take_length] at c2 c3
  refine ⟨done, rest, gs, bases, parts, tail, h1, c2, c3, h4, ?_, ?_⟩
  · dsimp only at h5 ⊢
    simp only [List.nil_append]
    rw [h5, List.append_assoc]
  · have hc : (fun g base => { (gs.foldl FmpFile.merge { tests := given.flatMap (·.tests) }).merge g with name := base }) =
        fun g base => combined given (gs ++ [g]) gs.length base := by
      funext g base
      have := fold_merge_tests (gs ++ [g]) (given.flatMap (·.tests)) base
      rw [List.foldl_append] at this
      unfold combined
      rw [List.take_of_length_le (by simp)]
      exact this
    rw [hc] at h6
    exact h6

/-- C125: if a file given with `-t` does not compile, the warnings about it and those before it are all that is seen. -/
theorem test_file_screen [Rt] (ev : Calculator) (p : Profile) (n : Nat) (s : Surroundings) (op : Operation) (before after : List Str)
    (text : Str) (noTesting printHeader : Bool) (given : List FmpFile) (hg : Compiled p before given) (r : Panic)
    (hr : compileBurn p text = .error r) :
    programShown ev p n s ⟨op, before ++ text :: after, noTesting⟩ printHeader =
      (before.flatMap (warningsOf p) ++ warningsOf p text, .error (.panic r)) := by
  have key : ∀ {before : List Str} {given : List FmpFile} (_ : Compiled p before given) (f : FmpFile),
      givenTestsShown p (before ++ text :: after) f = (before.flatMap (warningsOf p) ++ warningsOf p text, .error (.panic r)) := by
    intro before given hg
    induction hg with
    | nil =>
      intro f
      unfold givenTestsShown
      dsimp only [List.nil_append]
      rw [screen_warned_error ((compileBurnW_snd p text).trans hr), Screen.andThen_of_error]
      rfl
    | @cons x g _ _ h1 _ ih =>
      intro f
      show givenTestsShown p (x :: (_ ++ text :: after)) f = _
      unfold givenTestsShown
      rw [screen_warned_ok ((compileBurnW_snd p x).trans h1), Screen.andThen_of_ok, ih]
      simp [warningsOf]
  unfold programShown
  dsimp only
  rw [key hg, Screen.andThen_of_error]

/-- C125: a database file is written only after all its tests have ended: the lines since the JSON file of the same input show every
test and its verdict. (From `compile_screen`; the tests may have failed.) -/
theorem database_after_tests [Rt] (ev : Calculator) (p : Profile) (n : Nat) (text : Str) (f : FmpFile) (es : List Output)
    (h : SeenWhole ev p n false text f es) : 
    (∃ vs, Verdicts ev p n f vs ∧ verdictsShown es = vs) ∨ f.tests = [] ∧ verdictsShown es = [] := by
  obtain ⟨json, ls, content, -, h2, -, rfl⟩ := h
  have e : verdictsShown (warningsOf p text ++ .inspected t!"inspect_output/test_compile" json :: ls.map .line ++
      [.wrote (f.name ++ t!".fmp12") content]) = verdictsShown (ls.map .line) := by
    rw [verdictsShown_append, verdictsShown_append]
    have : verdictsShown (warningsOf p text) = [] := verdictsShown_warned _
    rw [this]
    show [] ++ verdictsShown (ls.map .line) ++ [] = _
    simp
  rw [e]
  rcases h2 with ⟨h2 | h2, rfl⟩ | ⟨-, vs, h3, h4⟩
  · cases h2
  · exact .inr ⟨h2, rfl⟩
  · refine .inl ⟨vs, h3, ?_⟩
    rw [verdictsShown_lines, h4, verdictsShown_report _ _ (Verdicts.length h3)]

/-- C125: what is seen of a run of the decompiler, however it ends: the warnings about the files given with `-t`; then, for one input
file after the other, `header.log` if it is wanted, the JSON file, and the tests with their verdicts; and of the input file at which
the program stops, if there is one, the same up to there. -/
theorem decompile_screen [Rt] (ev : Calculator) (p : Profile) (n : Nat) (s : Surroundings) (hf : Fair s) (inputs : List Bytes)
    (test : List Str) (noTesting printHeader : Bool) (given : List FmpFile) (hg : Compiled p test given) :
    ∃ done rest gs parts tail, inputs = done ++ rest ∧ Decompiled p n done gs ∧
      List.Forall₂ (fun (x : Bytes × FmpFile × FmpFile) => SeenFile ev p n noTesting printHeader x.1 x.2.1 x.2.2)
        (done.zip (gs.zip (sofar given gs))) parts ∧
      (programShown ev p n s ⟨.decompile inputs, test, noTesting⟩ printHeader).1 =
        test.flatMap (warningsOf p) ++ parts.flatten ++ tail ∧
      ((rest = [] ∧ tail = [] ∧ ∃ last, (programShown ev p n s ⟨.decompile inputs, test, noTesting⟩ printHeader).2 = .ok last) ∨
       ∃ buf rest' e, rest = buf :: rest' ∧
        (programShown ev p n s ⟨.decompile inputs, test, noTesting⟩ printHeader).2 = .error e ∧
        SeenFileUpTo ev p n s.inspectDir noTesting printHeader buf (fun g => testedWith given (gs ++ [g])) e tail) := by
  unfold programShown
  rw [givenTestsShown_compiled hg, Screen.andThen_of_ok]
  obtain ⟨done, rest, gs, parts, tail, h1, h2, h4, h5, h6⟩ :=
    decompileAllShown_seen ev p n hf noTesting printHeader inputs { tests := given.flatMap (·.tests) }
  have no_tests : ∀ g ∈ gs, g.tests = [] := by
    clear h4 h5 h6 h1
    induction h2 with
    | nil => intro g hg; cases hg
    | cons h1 _ ih =>
      intro g hg
      rcases List.mem_cons.mp hg with rfl | hg
      · exact decompile_tests h1
      · exact ih g hg
  have hfold : ∀ l : List FmpFile, (∀ g ∈ l, g.tests = []) →
      l.foldl FmpFile.merge { tests := given.flatMap (·.tests) } = testedWith given l := by
    intro l hl
    have : l.flatMap (·.tests) = [] := by rw [List.flatMap_eq_nil_iff]; exact hl
    rw [fold_merge_keep, this, List.append_nil]
    rfl
  have hs : (List.range gs.length).map (fun i => (gs.take (i + 1)).foldl FmpFile.merge { tests := given.flatMap (·.tests) }) =
      sofar given gs := by
    apply List.map_congr_left
    intro i _
    exact hfold _ fun g hg => no_tests g (List.mem_of_mem_take hg)
  rw [hs] at h4
  refine ⟨done, rest, gs, parts, tail, h1, h2, h4, ?_, ?_⟩
  · dsimp only at h5 ⊢
    simp only [List.nil_append]
    rw [h5, List.append_assoc]
  · rcases h6 with h6 | ⟨buf, rest', e, h6, h7, h8⟩
    · exact .inl h6
    · refine .inr ⟨buf, rest', e, h6, h7, ?_⟩
      have hc : ∀ g, decompile p buf n = .ok (some g) →
          (gs.foldl FmpFile.merge { tests := given.flatMap (·.tests) }).merge g = testedWith given (gs ++ [g]) := by
        intro g hd
        rw [← hfold (gs ++ [g])]
        · rw [List.foldl_append]; rfl
        · intro x hx
          rcases List.mem_append.mp hx with hx | hx
          · exact no_tests x hx
          · rw [List.mem_singleton.mp hx]; exact decompile_tests hd
      cases h8 with
      | reading h => exact .reading h
      | saving h h' => exact .saving h h'
      | generating h a b c d => rw [hc _ h] at c d; exact .generating h a b c d
      | testing h a b => rw [hc _ h] at b; exact .testing h a b

/-! ### Examples -/

section Example
attribute [local instance] toyRt

/-- A test with a step that does not exist. -/
def warnedText : Str := t!"test T:\n script: [ define t() { foo; }],\nend test;\n"

theorem warnedText_compiles : compileBurnW .debug warnedText =
    ([.invalidStep t!"foo", .invalidScriptToken ⟨.semiColon, []⟩], .ok testCompiled) := by decide +kernel

/-- Everything that is seen of a run with two input files of which the second has the wrong name. -/
theorem example_screen (ev : Calculator) : ∃ b json, Shows json { name := t!"a", tests := testCompiled.tests } ∧
    programShown ev .debug 5 plainOrder ⟨.compile [(t!"a.burn", warnedText), (t!"b.txt", warnedText)], [], false⟩ false =
      ([.warned (.invalidStep t!"foo"), .warned (.invalidScriptToken ⟨.semiColon, []⟩)] ++
        .inspected t!"inspect_output/test_compile" json :: [.line (.running t!"T"), .line (.popping t!"t"), .line (.outcome t!"T" true)] ++
        [.wrote t!"a.fmp12" b] ++
        [.warned (.invalidStep t!"foo"), .warned (.invalidScriptToken ⟨.semiColon, []⟩)], .error (.panic .unwrap)) := by
  obtain ⟨b, hb⟩ := testsOnly_assemble .debug testCompiled.tests t!"a" (by decide)
  refine ⟨b, inspectText { name := t!"a", tests := testCompiled.tests }, json_shows_file _, ?_⟩
  have hm : ({ FmpFile.merge {} testCompiled with name := t!"a" } : FmpFile) = { name := t!"a", tests := testCompiled.tests } := by decide
  have ht : maybeTestShown ev .debug 5 false { name := t!"a", tests := testCompiled.tests } =
      ([.line (.running t!"T"), .line (.popping t!"t"), .line (.outcome t!"T" true)], .ok ()) := rfl
  exact programShown_two
    (compileShown_of (base := t!"a") (s := plainOrder) warnedText_compiles (by decide) rfl hm ht hb)
    (compileShown_name warnedText_compiles (by decide))

/-- A test that crashes. -/
def crashText : Str := t!"test C:\n script: [ define t() { go_to_record(1); }],\nend test;\n"

/-- What is seen of it: the JSON file and the name of the test. -/
example : let seen := programShown toyCalc .debug 5 plainOrder ⟨.compile [(t!"a.burn", crashText)], [], false⟩ false
    seen.1.length = 2 ∧ seen.1.getLast? = some (.line (.running t!"C")) ∧ seen.2.isOk = false := by decide +kernel

end Example

end BurnFm.Props
