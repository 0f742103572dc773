import Verif.Proofs.Main
import Verif.Props.Assemble
import Verif.Props.Burn

/-! Properties C80 to C84: runs of the whole program. -/

namespace BurnFm.Props
open Spec

/-! ### C80 -/

/-- C80: if the compiler ends, every input file was named `….burn` and compiled, and for each of them, in order, one file
named `….fmp12` was written. It contains the assembled components of this input file and those before it; the tests run
on the same. -/
theorem compile_run [Rt] (ev : Calculator) (p : Profile) (n : Nat) (inputs : List (Str × Str)) (test : List Str)
    (noTesting : Bool) (as : List Action) (last : FmpFile)
    (h : mainProgram ev p n ⟨.compile inputs, test, noTesting⟩ = (as, .ok last)) :
    ∃ given gs bases, Compiled p test given ∧ Compiled p (inputs.map (·.2)) gs ∧
      inputs.map (·.1) = bases.map (· ++ t!".burn") ∧
      List.Forall₂ (fun f (o : Str × Bytes) => o.1 = f.name ++ t!".fmp12" ∧ assemble p f = .ok o.2)
        (snapshots given gs bases) (outputsOf as) ∧
      List.Forall₂ (Verdicts ev p n)
        (if noTesting then [] else (snapshots given gs bases).filter (fun f => !f.tests.isEmpty)) (runsOf as) := by
  obtain ⟨given, g1, h2⟩ := main_ok h
  obtain ⟨gs, bases, snaps, hr⟩ := compileInputs_ran h2
  obtain ⟨r1, r2, r3, r4, r5, r6⟩ := hr.spec
  have : snaps = snapshots given gs bases := by
    rw [r4, snapshots]
    apply List.map_congr_left
    rintro ⟨x, i⟩ _
    exact fold_merge_tests _ _ _
  subst this
  exact ⟨given, gs, bases, g1, r1, r2, r6, r5⟩

/-- C80: so the outputs have the names of the inputs, in order. -/
theorem output_names [Rt] (ev : Calculator) (p : Profile) (n : Nat) (inputs : List (Str × Str)) (test : List Str)
    (noTesting : Bool) (as : List Action) (last : FmpFile)
    (h : mainProgram ev p n ⟨.compile inputs, test, noTesting⟩ = (as, .ok last)) :
    ∃ bases : List Str, inputs.map (·.1) = bases.map (· ++ t!".burn") ∧
      (outputsOf as).map (·.1) = bases.map (· ++ t!".fmp12") := by
  obtain ⟨given, gs, bases, h1, h2, h3, h4, h5⟩ := compile_run ev p n inputs test noTesting as last h
  refine ⟨bases, h3, ?_⟩
  have e : (snapshots given gs bases).map (·.name) = bases := by
    simp [snapshots, combined, Function.comp_def]
  conv => rhs; rw [← e]
  clear e h1 h2 h3 h5 h
  generalize snapshots given gs bases = snaps at h4
  generalize outputsOf as = os at h4
  induction h4 with
  | nil => rfl
  | cons a _ ih => simp [ih, a.1]

/-- C80: what is assembled for an input file includes its own tables, unless it repeats a number. -/
theorem output_has_tables [Rt] (given gs : List FmpFile) (i : Nat) (base : Str) (hu : ∀ g ∈ gs, UniqueKeys g) (hi : i < gs.length)
    (k : Nat) (t : FTable) (ht : gs[i].tables.get k = some t) : (combined given gs i base).tables.get k = some t := by
  have : gs.take (i + 1) = gs.take i ++ gs[i] :: [] := by rw [List.take_succ_eq_append_getElem hi]
  change (mergeFiles (gs.take (i + 1))).tables.get k = some t
  rw [this]
  exact merge_keeps_partial _ [] _ (fun g hg => hu g (by
    rw [← this] at hg; exact List.mem_of_mem_take hg)) k t ht (by simp)

/-- C80: an input file with another name stops the compiler. -/
theorem other_names_fail [Rt] (ev : Calculator) (p : Profile) (n : Nat) (inputs : List (Str × Str)) (test : List Str)
    (noTesting : Bool) (name text : Str) (hi : (name, text) ∈ inputs) (hn : ¬ t!".burn" <:+ name) :
    ∃ e, (mainProgram ev p n ⟨.compile inputs, test, noTesting⟩).2 = .error e := by
  rcases h : mainProgram ev p n ⟨.compile inputs, test, noTesting⟩ with ⟨as, r⟩
  cases r with
  | error e => exact ⟨e, rfl⟩
  | ok last =>
    obtain ⟨bases, h1, _⟩ := output_names ev p n inputs test noTesting as last h
    have : name ∈ inputs.map (·.1) := List.mem_map.mpr ⟨_, hi, rfl⟩
    rw [h1, List.mem_map] at this
    obtain ⟨b, _, rfl⟩ := this
    exact absurd (List.suffix_append _ _) hn

/-- C80, C85: a written program, with fewer than 256 tables and short names, is compiled to a file named after it exactly
if it fits: the tables need 25 bytes and the occurrences 20 bytes each, besides twice the length of their names. -/
theorem program_output [Rt] (ev : Calculator) (p : Profile) (n : Nat) (ds : List Decl) (ts : List BurnTok) (s base : Str)
    (h : ProgramToks ds ts) (hs : BurnText ts s) (hc : tableCount ds < 256)
    (ht : ∀ t ∈ ds.filterMap Decl.table?, t.name.length ≤ 126)
    (hoc : (ds.filterMap Decl.occurrence?).length < 2 ^ 24)
    (ho : ∀ o ∈ ds.filterMap Decl.occurrence?, o.name.length ≤ 125) :
    (∃ b last, mainProgram ev p n ⟨.compile [(base ++ t!".burn", s)], [], true⟩ =
      ([.wrote (base ++ t!".fmp12") b], .ok last)) ↔
    (utf8 base).length ≤ 1012 ∧ ((ds.filterMap Decl.table?).map fun t => 25 + 2 * t.name.length).sum +
      ((ds.filterMap Decl.occurrence?).map fun o => 20 + 2 * o.name.length).sum ≤ 3249 := by
  have hsum : ∀ {α : Type} (l : List α) (k : Nat) (g : α → Nat), ((numbered k l).map fun e => g e.2).sum = (l.map g).sum := by
    intro α l
    induction l with
    | nil => intro k g; rfl
    | cons a l ih => intro k g; simp [numbered, ih]
  have hid : ∀ {α : Type} (l : List α) (k : Nat) (e : Nat × α), e ∈ numbered k l → e.1 < k + l.length := by
    intro α l
    induction l with
    | nil => intro k e he; cases he
    | cons a l ih =>
      intro k e he
      rcases List.mem_cons.mp he with rfl | he
      · simp
      · have := ih (k + 1) e he; simp; omega
  have hcomp := compile_program p h hs
  have hf : ∃ f : FmpFile, f = { FmpFile.merge {} (ds.foldl addDecl {}) with name := base } := ⟨_, rfl⟩
  obtain ⟨f, hf⟩ := hf
  have htab : f.tables = numbered 1 (ds.filterMap Decl.table?) := by
    rw [hf, ← file_tables]; exact extend_nil _ (by rw [file_tables]; exact numbered_nodup _ _)
  have hocc : f.tableOccurrences = numbered 0 (ds.filterMap Decl.occurrence?) := by
    rw [hf, ← file_occurrences]; exact extend_nil _ (by rw [file_occurrences]; exact numbered_nodup _ _)
  have hname : f.name = base := by rw [hf]
  have hr : InRange f := by
    constructor
    · intro e he
      rw [htab] at he
      have := hid _ _ e he
      unfold tableCount at hc
      by_cases h0 : e.1 < 256
      · exact h0
      · omega
    · intro e he; rw [htab] at he; exact ht _ (mem_numbered he)
    · rw [htab, numbered_length]; unfold tableCount at hc; omega
    · intro e he; rw [hocc] at he; have := hid _ _ e he; omega
    · intro e he; rw [hocc] at he; exact ho _ (mem_numbered he)
  have key := assembles_iff p f hr
  rw [hname, htab, hocc, hsum _ _ (fun t : FTable => 25 + 2 * t.name.length),
    hsum _ _ (fun o : FOccurrence => 20 + 2 * o.name.length)] at key
  rw [← key]
  constructor
  · rintro ⟨b, last, hm⟩
    rw [main_compile] at hm
    obtain ⟨gs, bases, snaps, hran⟩ := compileInputs_ran hm
    generalize hi : [(base ++ t!".burn", s)] = inputs at hran
    generalize [Action.wrote (base ++ t!".fmp12") b] = acts at hran
    cases hran with
    | nil => cases hi
    | @cons text base' rest g f0 f' gs snaps bases ts as b' h1 h2 h3 h4 =>
      simp only [List.cons.injEq, Prod.mk.injEq] at hi
      obtain ⟨⟨e1, rfl⟩, _⟩ := hi
      have := List.append_cancel_right e1
      subst this
      rw [hcomp] at h1
      cases h1
      rw [← hf] at h3
      exact ⟨b', h3⟩
  · rintro ⟨b, hb⟩
    refine ⟨b, f, ?_⟩
    rw [main_compile]
    exact Trace.andThen_pair (compileInput_of hcomp hf (maybeTest_off ..) hb) rfl

/-! ### C81 -/

/-- C81, exactly: after each input file all tests read so far are run, those given with `-t` and those of the earlier
input files again. -/
theorem test_counts [Rt] (ev : Calculator) (p : Profile) (n : Nat) (inputs : List (Str × Str)) (test : List Str)
    (as : List Action) (last : FmpFile) (given gs : List FmpFile) (hg : Compiled p test given)
    (hgs : Compiled p (inputs.map (·.2)) gs) (h : mainProgram ev p n ⟨.compile inputs, test, false⟩ = (as, .ok last)) :
    (runsOf as).map List.length =
      (totals (given.flatMap (·.tests)).length (gs.map (·.tests.length))).filter (· ≠ 0) := by
  obtain ⟨given', gs', bases, h1, h2, h3, h4, h5⟩ := compile_run ev p n inputs test false as last h
  cases compiled_unique hg h1
  cases compiled_unique hgs h2
  have hb : bases.length = gs.length := by
    have e1 := congrArg List.length h3
    have e2 := h2.length_eq
    simp only [List.length_map] at e1 e2
    omega
  rw [← snapshots_tests given gs bases hb]
  rw [if_neg (by simp)] at h5
  clear h4
  have key : ∀ {fs : List FmpFile} {rs : List (List Bool)}, List.Forall₂ (Verdicts ev p n) fs rs →
      rs.map List.length = fs.map (·.tests.length) := by
    intro fs rs hf
    induction hf with
    | nil => rfl
    | cons a _ ih => rw [List.map_cons, List.map_cons, ih, Verdicts.length a]
  rw [key h5, List.filter_map]
  congr 1
  apply List.filter_congr
  intro f _
  cases hf : f.tests <;> simp [hf]

/-- C81 (partial): with one input file every test, of this file and given with `-t`, is run exactly once, in order.
Missing: more input files; then the tests of all but the last one are run again, see `test_counts`,
`tests_once_refuted`. -/
theorem tests_once_partial [Rt] (ev : Calculator) (p : Profile) (n : Nat) (name text : Str) (test : List Str)
    (as : List Action) (last : FmpFile) (given : List FmpFile) (g : FmpFile) (hg : Compiled p test given)
    (hgs : compileBurn p text = .ok g) (h : mainProgram ev p n ⟨.compile [(name, text)], test, false⟩ = (as, .ok last)) :
    ((runsOf as).map List.length).sum = (given.flatMap (·.tests) ++ g.tests).length ∧
      last.tests = given.flatMap (·.tests) ++ g.tests ∧
      ∀ vs ∈ runsOf as, Verdicts ev p n last vs := by
  have hc := test_counts ev p n [(name, text)] test as last given [g] hg (.cons hgs .nil) h
  refine ⟨?_, ?_⟩
  · rw [hc]
    simp only [List.map_cons, List.map_nil, totals, List.filter_cons, List.filter_nil, List.length_append]
    split <;> rename_i h0
    · simp
    · simp at h0; simp [h0]
  · obtain ⟨given', g1, h2⟩ := main_ok h
    cases compiled_unique hg g1
    dsimp only [compileInputs] at h2
    obtain ⟨f2, as3, as4, h3, h4, rfl⟩ := Trace.andThen_ok h2
    cases h4
    obtain ⟨g', base, ts, b, c1, rfl, rfl, c4, c5, rfl⟩ := compileInput_ok h3
    rw [hgs] at c1
    cases c1
    refine ⟨by simp [FmpFile.merge], ?_⟩
    intro vs hvs
    rcases c4 with ⟨_, rfl⟩ | ⟨_, vs', hv, rfl⟩
    · simp [runsOf] at hvs
    · simp [runsOf] at hvs
      rw [hvs]; exact hv

/-! ### C82 -/

/-- C82: what is done for the first input files does not depend on those that follow. If the compiler stops at one of
them, nothing is done for those after it. -/
theorem inputs_in_order [Rt] (ev : Calculator) (p : Profile) (n : Nat) (test : List Str) (noTesting : Bool)
    (xs ys : List (Str × Str)) :
    (mainProgram ev p n ⟨.compile xs, test, noTesting⟩).1 <+: (mainProgram ev p n ⟨.compile (xs ++ ys), test, noTesting⟩).1 ∧
    ∀ e, (mainProgram ev p n ⟨.compile xs, test, noTesting⟩).2 = .error e →
      mainProgram ev p n ⟨.compile (xs ++ ys), test, noTesting⟩ = mainProgram ev p n ⟨.compile xs, test, noTesting⟩ := by
  rw [main_append]
  rcases mainProgram ev p n ⟨.compile xs, test, noTesting⟩ with ⟨as, r⟩
  cases r with
  | ok f => exact ⟨List.prefix_append _ _, fun e he => by cases he⟩
  | error e => exact ⟨List.prefix_rfl, fun e' he => rfl⟩

/-- C82: an input file at which the compiler stops, because the file is wrong, a test panics or does not end, or it does
not assemble, writes nothing; the outputs of those before it are complete. -/
theorem failed_input_writes_nothing [Rt] (ev : Calculator) (p : Profile) (n : Nat) (test : List Str) (noTesting : Bool)
    (xs : List (Str × Str)) (x : Str × Str) (e : Stop)
    (h : (mainProgram ev p n ⟨.compile (xs ++ [x]), test, noTesting⟩).2 = .error e) :
    outputsOf (mainProgram ev p n ⟨.compile (xs ++ [x]), test, noTesting⟩).1 =
      outputsOf (mainProgram ev p n ⟨.compile xs, test, noTesting⟩).1 := by
  rw [main_append] at h ⊢
  rcases hx : mainProgram ev p n ⟨.compile xs, test, noTesting⟩ with ⟨as, r⟩
  rw [hx] at h
  cases r with
  | error e => rfl
  | ok f =>
    obtain ⟨name, text⟩ := x
    rw [Trace.andThen_of_ok] at h ⊢
    rw [outputsOf_append]
    have : outputsOf (compileInputs ev p n noTesting [(name, text)] f).1 = [] := by
      rcases hc : compileInput ev p n noTesting f name text with ⟨as, r⟩
      unfold compileInputs at h ⊢
      rw [hc] at h ⊢
      cases r with
      | ok f => cases h
      | error e =>
        have := compileInput_fails (e := e) (by rw [hc])
        rwa [hc] at this
    rw [this, List.append_nil]

/-! ### C83 -/

/-- C83: with `--no-testing` no test is run, whatever the input. -/
theorem no_testing [Rt] (ev : Calculator) (p : Profile) (n : Nat) (op : Operation) (test : List Str) :
    runsOf (mainProgram ev p n ⟨op, test, true⟩).1 = [] := by
  refine andThen_runs rfl fun f => ?_
  cases op with
  | compile inputs => exact compileInputs_off ev p n inputs f
  | decompile inputs => exact decompileInputs_off ev p n inputs f

/-- C83: and the outputs are the same as with testing, if that ends. -/
theorem no_testing_outputs [Rt] (ev : Calculator) (p : Profile) (n : Nat) (op : Operation) (test : List Str) (as : List Action)
    (last : FmpFile) (h : mainProgram ev p n ⟨op, test, false⟩ = (as, .ok last)) :
    ∃ as', mainProgram ev p n ⟨op, test, true⟩ = (as', .ok last) ∧ outputsOf as' = outputsOf as := by
  unfold mainProgram at h ⊢
  obtain ⟨f, as1, as2, h1, h2, rfl⟩ := Trace.andThen_ok h
  rw [h1, Trace.andThen_of_ok]
  obtain ⟨rfl, _⟩ := Trace.quiet_ok h1
  cases op with
  | compile inputs => obtain ⟨as', e1, e2⟩ := compileInputs_quiet h2; exact ⟨as', by dsimp only; rw [e1]; rfl, e2⟩
  | decompile inputs => obtain ⟨as', e1, e2⟩ := decompileInputs_quiet h2; exact ⟨as', by dsimp only; rw [e1]; rfl, e2⟩

/-! ### C84 -/

/-- C84: the tests given with `-t` are run once after each decompiled file, in order, on the components of the files so
far; nothing is written. -/
theorem decompile_run [Rt] (ev : Calculator) (p : Profile) (n : Nat) (bufs : List Bytes) (test : List Str)
    (as : List Action) (last : FmpFile) (h : mainProgram ev p n ⟨.decompile bufs, test, false⟩ = (as, .ok last)) :
    ∃ given gs, Compiled p test given ∧ Decompiled p n bufs gs ∧ outputsOf as = [] ∧
      (given.flatMap (·.tests) = [] → runsOf as = []) ∧
      (given.flatMap (·.tests) ≠ [] → List.Forall₂ (Verdicts ev p n)
        ((List.range bufs.length).map fun i =>
          { mergeFiles (gs.take (i + 1)) with tests := given.flatMap (·.tests) }) (runsOf as)) := by
  obtain ⟨given, g1, h2⟩ := main_ok h
  obtain ⟨gs, d1, d2, d3⟩ := decompileInputs_spec h2
  refine ⟨given, gs, g1, d1, d2, fun h0 => ?_, fun h0 => ?_⟩
  · rw [h0] at d3
    cases hr : runsOf as with
    | nil => rfl
    | cons => rw [hr] at d3; cases d3
  · rw [if_neg (by simpa using h0)] at d3
    rw [d1.length_eq]
    have no_tests : ∀ g ∈ gs, g.tests = [] := by
      clear d2 d3 h2 h
      induction d1 with
      | nil => intro g hg; cases hg
      | cons h1 _ ih =>
        intro g hg
        rcases List.mem_cons.mp hg with rfl | hg
        · exact decompile_tests h1
        · exact ih g hg
    have : ((List.range gs.length).map fun i => { mergeFiles (gs.take (i + 1)) with tests := given.flatMap (·.tests) }) =
        ((List.range gs.length).map fun i => (gs.take (i + 1)).foldl FmpFile.merge { tests := given.flatMap (·.tests) }) := by
      apply List.map_congr_left
      intro i _
      have : (gs.take (i + 1)).flatMap (·.tests) = [] := by
        rw [List.flatMap_eq_nil_iff]
        intro g hg
        exact no_tests g (List.mem_of_mem_take hg)
      rw [fold_merge_keep, this, List.append_nil]
    rw [this]
    exact d3

/-! ### Examples -/

section Example
attribute [local instance] toyRt

/-- A program with one test. -/
def testText : Str := t!"test T:\n script: [ define t() { }],\nend test;\n"

/-- The file it compiles to. -/
def testCompiled : FmpFile := { tests := [{ name := t!"T", script := { name := t!"t", arguments := [t!""] } }] }

theorem testText_compiles (p : Profile) : compileBurn p testText = .ok testCompiled := by
  cases p <;> decide +kernel

theorem testCompiled_verdict (ev : Calculator) (p : Profile) : testFile ev p 5 testCompiled = .ok [true] := by
  rfl

attribute [local irreducible] assemble

set_option maxRecDepth 20000 in
theorem testsOnly_assemble (p : Profile) (T : List FTest) (name : Str) (hn : (utf8 (name ++ ['/'])).length ≤ 1013) :
    ∃ buf, assemble p { name := name, tests := T } = .ok buf := by
  apply assemble_fits p _ _ hn
  · change ((fileRecords {}).map fun r => (encRecord r).length + gapRecord r).sum ≤ 4074
    decide
  · constructor <;> simp

/-- A run with two input files. -/
theorem example_run (ev : Calculator) (p : Profile) : ∃ b₁ b₂ last,
    mainProgram ev p 5 ⟨.compile [(t!"a.burn", testText), (t!"b.burn", testText)], [], false⟩ =
      ([.tested [true], .wrote t!"a.fmp12" b₁, .tested [true, true], .wrote t!"b.fmp12" b₂], .ok last) := by
  obtain ⟨b₁, h1⟩ := testsOnly_assemble p testCompiled.tests t!"a" (by decide)
  obtain ⟨b₂, h2⟩ := testsOnly_assemble p (testCompiled.tests ++ testCompiled.tests) t!"b" (by decide)
  refine ⟨b₁, b₂, { name := t!"b", tests := testCompiled.tests ++ testCompiled.tests }, ?_⟩
  have s1 : compileInput ev p 5 false {} t!"a.burn" testText =
      ([.tested [true], .wrote t!"a.fmp12" b₁], .ok { name := t!"a", tests := testCompiled.tests }) :=
    compileInput_of (base := t!"a") (ts := [.tested [true]]) (testText_compiles p) rfl rfl h1
  have s2 : compileInput ev p 5 false { name := t!"a", tests := testCompiled.tests } t!"b.burn" testText =
      ([.tested [true, true], .wrote t!"b.fmp12" b₂],
        .ok { name := t!"b", tests := testCompiled.tests ++ testCompiled.tests }) :=
    compileInput_of (base := t!"b") (ts := [.tested [true, true]]) (testText_compiles p) rfl rfl h2
  exact (main_compile ..).trans (Trace.andThen_pair s1 (Trace.andThen_pair s2 rfl))

/-- C81 is false: two input files with one test each give three verdicts. -/
theorem tests_once_refuted (ev : Calculator) (p : Profile) : ∃ inputs gs as last,
    mainProgram ev p 5 ⟨.compile inputs, [], false⟩ = (as, .ok last) ∧ Compiled p (inputs.map (·.2)) gs ∧
      (gs.flatMap (·.tests)).length = 2 ∧ ((runsOf as).map List.length).sum = 3 := by
  obtain ⟨b₁, b₂, last, h⟩ := example_run ev p
  exact ⟨_, [testCompiled, testCompiled], _, last, h,
    .cons (testText_compiles p) (.cons (testText_compiles p) .nil), rfl, rfl⟩

/-- A run that stops at the second of three input files; the hypotheses of `failed_input_writes_nothing`,
`inputs_in_order` and `other_names_fail`. -/
theorem example_failed_run (ev : Calculator) (p : Profile) : ∃ b,
    mainProgram ev p 5 ⟨.compile [(t!"a.burn", testText), (t!"b.txt", testText), (t!"c.burn", testText)], [], false⟩ =
      ([.tested [true], .wrote t!"a.fmp12" b], .error (.panic .unwrap)) := by
  obtain ⟨b₁, h1⟩ := testsOnly_assemble p testCompiled.tests t!"a" (by decide)
  refine ⟨b₁, ?_⟩
  have s1 : compileInput ev p 5 false {} t!"a.burn" testText =
      ([.tested [true], .wrote t!"a.fmp12" b₁], .ok { name := t!"a", tests := testCompiled.tests }) :=
    compileInput_of (base := t!"a") (ts := [.tested [true]]) (testText_compiles p) rfl rfl h1
  have s2 : compileInput ev p 5 false { name := t!"a", tests := testCompiled.tests } t!"b.txt" testText =
      ([], .error (.panic .unwrap)) := compileInput_name (testText_compiles p) rfl
  rw [main_compile]
  dsimp only [compileInputs]
  rw [s1, Trace.andThen_of_ok, s2]
  rfl

/-- A run of the decompiler with a test; the hypothesis of `decompile_run`. -/
theorem example_decompile_run (ev : Calculator) (p : Profile) : ∃ n buf last,
    mainProgram ev p n ⟨.decompile [buf], [testText], false⟩ = ([.tested [true]], .ok last) := by
  obtain ⟨buf, h1⟩ := testsOnly_assemble p [] t!"a" (by decide)
  obtain ⟨n, h2⟩ := assembled_schema_lost p p _ buf (by constructor <;> simp) h1
  refine ⟨n + 5, buf, testCompiled, ?_⟩
  have h3 : decompileInput ev p (n + 5) false testCompiled buf = ([.tested [true]], .ok testCompiled) := by
    unfold decompileInput
    rw [h2 (n + 5) (by omega)]
    exact Trace.andThen_pair (as := []) rfl (Trace.andThen_pair (as := [.tested [true]]) rfl rfl)
  refine Trace.andThen_pair (a := testCompiled) (as := []) ?_ (Trace.andThen_pair (bs := []) h3 rfl)
  unfold givenTests
  dsimp only
  rw [testText_compiles]
  rfl

/-- The hypotheses of `program_output`. -/
example : ∃ b last, mainProgram (fun env => evalCalc env 9) .debug 5 ⟨.compile [(t!"a" ++ t!".burn", smallText)], [], true⟩ =
    ([.wrote (t!"a" ++ t!".fmp12") b], .ok last) :=
  (program_output _ .debug 5 smallProgram smallToks smallText t!"a" smallToks_ok smallText_ok (by decide) (by decide)
    (by decide) (by decide)).mpr (by decide)

end Example

end BurnFm.Props
