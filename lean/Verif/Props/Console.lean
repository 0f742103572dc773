import Verif.Proofs.Console
import Verif.Props.Burn

/-! Properties C121 to C124: what the terminal output of the test runner tells, also when it crashes. -/

namespace BurnFm.Props
open Spec

/-- C121: the functions that collect the output give the results of those without. -/
theorem output_changes_nothing (ev : Calculator) (p : Profile) (scripts : HMap FScript) (n : Nat) (ts : List FTest)
    (punc : List Instruction) (vm : Vm) :
    (vm.runShown ev p scripts n punc).2.map (·.2) = vm.run ev p scripts n ∧
    (vm.runTestsShown ev p scripts n ts punc).2 = vm.runTests ev p scripts n ts :=
  ⟨runShown_run n punc vm, runTestsShown_run n ts punc vm⟩

/-- The output at a crash. -/
theorem shown_at_crash {ev : Calculator} {p : Profile} {scripts : HMap FScript} {u v : Vm} {ms : List (Option ScriptStep)}
    {e : Stop} (h : Executed ev p scripts u ms v) (hc : StepCrashes ev p scripts v e) (punc : List Instruction) {n : Nat}
    (hn : ms.length < n) :
    ∃ ls tail, RunSays punc u v ms ls ∧ (tail = [] ∨ tail = [.badScope] ∧ e = .panic .unwrap) ∧
      (u.runShown ev p scripts ms.length punc).1 = ls ∧ u.runShown ev p scripts n punc = (ls ++ tail, .error e) := by
  obtain ⟨ls, punc', h1, -, h3⟩ := ran_says h punc
  obtain ⟨k, rfl⟩ : ∃ k, n = ms.length + (k + 1) := ⟨n - ms.length - 1, by omega⟩
  have e0 : (u.runShown ev p scripts ms.length punc).1 = ls := by
    have := h3 0
    rw [Nat.add_zero] at this
    rw [this]
    simp [Vm.runShown]
  refine ⟨ls, v.stepLines ev scripts punc', h1, ?_, e0, ?_⟩
  · rcases step_error_says (punc := punc') hc.2.2 with h | ⟨h, -, h', -⟩
    · exact .inl h
    · exact .inr ⟨h, h'⟩
  · rw [h3, runShown_error (running_iff.mpr ⟨hc.1, hc.2.1⟩) hc.2.2]

/-! ### C121: calls -/

/-- C121: at any time the scripts that were called and not popped, according to the output, are the active ones, in the right
order. -/
theorem output_shows_active (ev : Calculator) (p : Profile) (scripts : HMap FScript) (u v : Vm)
    (ms : List (Option ScriptStep)) (punc : List Instruction) (h : Executed ev p scripts u ms v) :
    openCalls (active u) (u.runShown ev p scripts ms.length punc).1 = some (active v) := by
  obtain ⟨ls, punc', h1, -, h3⟩ := ran_says h punc
  have := h3 0
  rw [Nat.add_zero] at this
  rw [this]
  simpa [Vm.runShown] using h1.calls

/-- C121: this is also so when the run crashes. -/
theorem crash_shows_active (ev : Calculator) (p : Profile) (scripts : HMap FScript) (u v : Vm)
    (ms : List (Option ScriptStep)) (punc : List Instruction) (e : Stop) (n : Nat) (h : Executed ev p scripts u ms v)
    (hc : StepCrashes ev p scripts v e) (hn : ms.length < n) :
    (u.runShown ev p scripts n punc).2 = .error e ∧
    openCalls (active u) (u.runShown ev p scripts n punc).1 = some (active v) := by
  obtain ⟨ls, tail, h1, h2, -, h4⟩ := shown_at_crash h hc punc hn
  rw [h4]
  refine ⟨rfl, ?_⟩
  dsimp only
  rw [openCalls_append _ _ _ _ h1.calls]
  rcases h2 with rfl | ⟨rfl, -⟩ <;> rfl

/-- C121: in the output of a test that passes, every call is followed by the end of the script that was called, and the script
of the test ends last. -/
theorem passed_test_balanced (ev : Calculator) (p : Profile) (scripts : HMap FScript) (n : Nat) (punc punc' : List Instruction)
    (t : FTest) (vm vm' : Vm) (ls : List Line) (hvm : vm.frames = [])
    (h : (vm.loadTest t).runShown ev p scripts n punc = (ls, .ok (punc', vm'))) (hv : vm'.world.failed = false) :
    openCalls [t.script.name] ls = some [] := by
  obtain ⟨ms, v, h1, h2, h3⟩ := runShown_ran (ev := ev) (p := p) (scripts := scripts) n punc (vm.loadTest t)
  rw [h] at h3
  rcases h3 with ⟨hr, q, h3⟩ | ⟨-, -, h3⟩ | ⟨e, -, -, h3⟩
  · injection h3 with h3
    injection h3 with h3 h4
    subst h4
    obtain ⟨ls', punc2, h5, -, h6⟩ := ran_says h1 punc
    obtain ⟨k, rfl⟩ : ∃ k, n = ms.length + k := ⟨n - ms.length, by omega⟩
    rw [h6, runShown_stopped hr] at h
    injection h with h _
    have hf : vm'.frames = [] := by
      cases hx : vm'.frames with
      | nil => rfl
      | cons a b => exact absurd (running_iff.mpr ⟨hv, by rw [hx]; simp⟩) hr
    have := h5.calls
    rw [List.append_nil] at h
    rw [h] at this
    simpa [active, Vm.loadTest, hvm, hf] using this
  · cases h3
  · cases h3

/-! ### C122: steps that are not implemented -/

/-- C122: the steps executed that the test runner does not know are reported: all of them and no others, in order. -/
theorem unknown_steps_reported (ev : Calculator) (p : Profile) (scripts : HMap FScript) (u v : Vm)
    (ms : List (Option ScriptStep)) (punc : List Instruction) (h : Executed ev p scripts u ms v) :
    reported (u.runShown ev p scripts ms.length punc).1 = unknown ms := by
  obtain ⟨ls, punc', h1, -, h3⟩ := ran_says h punc
  have := h3 0
  rw [Nat.add_zero] at this
  rw [this]
  simpa [Vm.runShown] using h1.ops

/-- C122: this is also so when the run crashes: the step it crashes at is one that the test runner knows. -/
theorem crash_reports_unknown_steps (ev : Calculator) (p : Profile) (scripts : HMap FScript) (u v : Vm)
    (ms : List (Option ScriptStep)) (punc : List Instruction) (e : Stop) (n : Nat) (h : Executed ev p scripts u ms v)
    (hc : StepCrashes ev p scripts v e) (hn : ms.length < n) :
    reported (u.runShown ev p scripts n punc).1 = unknown ms ∧ ∀ s, nextStep scripts v = some s → s.opcode ∈ supported := by
  obtain ⟨ls, tail, h1, h2, -, h4⟩ := shown_at_crash h hc punc hn
  constructor
  · rw [h4]
    dsimp only
    rw [reported_append, h1.ops]
    rcases h2 with rfl | ⟨rfl, -⟩ <;> simp [reported]
  · intro s hs
    by_cases hm : s.opcode ∈ supported
    · exact hm
    · exfalso
      obtain ⟨-, h6, h7⟩ := hc
      cases hfr : v.frames with
      | nil => exact h6 hfr
      | cons f below =>
        obtain ⟨name, ip⟩ := f
        rw [nextStep_eq hfr] at hs
        rcases step_error_says (punc := []) h7 with h8 | ⟨-, -, -, s', h8, h9⟩
        · rw [stepLines_eq hfr hs] at h8
          have hb : s.opcode.hasBranch = false := by
            cases hx : s.opcode.hasBranch with
            | false => rfl
            | true => exact absurd ((hasBranch_iff _).mp hx) hm
          split at h8
          · rename_i ho; exact hm (by rw [ho]; decide)
          · rename_i ho; exact hm (by rw [ho]; decide)
          · rename_i ho; exact hm (by rw [ho]; decide)
          · rename_i ho; exact hm (by rw [ho]; decide)
          · rw [hb] at h8; simp at h8
        · rw [nextStep_eq hfr, hs] at h8
          cases h8
          exact hm (by rw [h9]; decide)

/-- C122: of the steps that can be written in a program, `exit_script` is the only one that is not known. -/
theorem only_exit_script_unknown (n : Str) (op : Instruction) (h : Instruction.fromStr n = some op) :
    op ∉ supported ↔ n = t!"exit_script" := by
  unfold Instruction.fromStr at h
  by_cases hx : n = t!"exit_script"
  · subst hx
    rw [if_neg (by decide), if_neg (by decide), if_neg (by decide), if_neg (by decide), if_neg (by decide), if_neg (by decide),
      if_neg (by decide), if_neg (by decide), if_neg (by decide), if_neg (by decide), if_neg (by decide), if_neg (by decide),
      if_neg (by decide), if_neg (by decide), if_pos rfl] at h
    cases h
    simp [supported]
  · simp only [hx, iff_false, not_not]
    rw [if_neg hx] at h
    have H : ∀ {c : Prop} [Decidable c] {x op : Instruction} {r : Option Instruction}, (if c then some x else r) = some op →
        x = op ∨ r = some op := by
      intro c _ x op r h
      split at h
      · left; injection h
      · right; exact h
    iterate 16
      rcases H h with rfl | h
      · decide
    cases h
/-! ### C123: crashes can be located -/

/-- C123: the output up to a crash has all dialogs up to it. -/
theorem output_survives_crash (ev : Calculator) (p : Profile) (scripts : HMap FScript) (u v : Vm)
    (ms : List (Option ScriptStep)) (punc : List Instruction) (e : Stop) (n : Nat) (h : Executed ev p scripts u ms v)
    (hc : StepCrashes ev p scripts v e) (hn : ms.length < n) :
    v.world.out = u.world.out ++ messages (u.runShown ev p scripts n punc).1 := by
  obtain ⟨ls, tail, h1, h2, -, h4⟩ := shown_at_crash h hc punc hn
  rw [h4]
  dsimp only
  rw [messages_append, h1.out]
  rcases h2 with rfl | ⟨rfl, -⟩ <;> simp [messages]

/-- A run prints no line that begins or ends a test. -/
theorem body_has_no_headline {ev : Calculator} {p : Profile} {scripts : HMap FScript} (n : Nat) (punc : List Instruction) (u : Vm) :
    (u.runShown ev p scripts n punc).1.filter isHeadline = [] := by
  obtain ⟨ms, v, h1, h2, h3⟩ := runShown_ran (ev := ev) (p := p) (scripts := scripts) n punc u
  rcases h3 with ⟨hr, -⟩ | ⟨hr, h3, -⟩ | ⟨e, h3, h4, -⟩
  · obtain ⟨ls, punc', h5, -, h6⟩ := ran_says h1 punc
    obtain ⟨k, rfl⟩ : ∃ k, n = ms.length + k := ⟨n - ms.length, by omega⟩
    rw [h6, runShown_stopped hr]
    simpa using h5.body
  · obtain ⟨ls, punc', h5, -, h6⟩ := ran_says h1 punc
    have := h6 0
    rw [Nat.add_zero, h3] at this
    rw [this]
    simpa [Vm.runShown] using h5.body
  · obtain ⟨ls, tail, h5, h6, -, h7⟩ := shown_at_crash h1 h4 punc h3
    rw [h7]
    dsimp only
    rw [List.filter_append, h5.body]
    rcases h6 with rfl | ⟨rfl, -⟩ <;> rfl

/-- C123: the lines that begin and end tests, for every run of a list of tests. If all tests end, every test has its two lines,
with its verdict. If not, so have those before the one that does not end, and the beginning of that one is the last such line. -/
theorem crash_located (ev : Calculator) (p : Profile) (scripts : HMap FScript) (n : Nat) (ts : List FTest)
    (punc : List Instruction) (vm : Vm) :
    (∃ vs last, vm.runTests ev p scripts n ts = .ok (vs, last) ∧
      (vm.runTestsShown ev p scripts n ts punc).1.filter isHeadline = report ts vs) ∨
    (∃ e ended t rest vs last, vm.runTests ev p scripts n ts = .error e ∧ ts = ended ++ t :: rest ∧
      vm.runTests ev p scripts n ended = .ok (vs, last) ∧ (last.loadTest t).run ev p scripts n = .error e ∧
      (vm.runTestsShown ev p scripts n ts punc).1.filter isHeadline = report ended vs ++ [.running t.name]) := by
  induction ts generalizing punc vm with
  | nil => exact .inl ⟨[], vm, rfl, rfl⟩
  | cons t ts ih =>
    have hrun := runShown_run (ev := ev) (p := p) (scripts := scripts) n punc (vm.loadTest t)
    have hbody := body_has_no_headline (ev := ev) (p := p) (scripts := scripts) n punc (vm.loadTest t)
    cases hx : ((vm.loadTest t).runShown ev p scripts n punc).2 with
    | error e =>
      rw [hx] at hrun
      refine .inr ⟨e, [], t, ts, [], vm, ?_, rfl, rfl, hrun.symm, ?_⟩
      · unfold Vm.runTests; rw [← hrun]; rfl
      · unfold Vm.runTestsShown
        dsimp only
        rw [hx]
        dsimp only
        rw [List.filter_cons_of_pos (by rfl), hbody]
        rfl
    | ok r =>
      obtain ⟨punc', vm'⟩ := r
      rw [hx] at hrun
      have hrun' : (vm.loadTest t).run ev p scripts n = .ok vm' := hrun.symm
      have hlines : (vm.runTestsShown ev p scripts n (t :: ts) punc).1.filter isHeadline =
          .running t.name :: .outcome t.name (!vm'.world.failed) ::
            (vm'.runTestsShown ev p scripts n ts punc').1.filter isHeadline := by
        conv => lhs; unfold Vm.runTestsShown
        dsimp only
        rw [hx]
        dsimp only
        rw [List.cons_append, List.filter_cons_of_pos (by rfl), List.filter_append, hbody, List.nil_append,
          List.filter_cons_of_pos (by rfl)]
      have hcons : ∀ l, vm.runTests ev p scripts n (t :: l) =
          (vm'.runTests ev p scripts n l).map fun r => ((!vm'.world.failed) :: r.1, r.2) := by
        intro l
        conv => lhs; unfold Vm.runTests
        rw [hrun', ev_ok_bind]
        cases vm'.runTests ev p scripts n l <;> rfl
      rcases ih punc' vm' with ⟨vs, last, h1, h2⟩ | ⟨e, ended, t', rest, vs, last, h1, h2, h3, h4, h5⟩
      · refine .inl ⟨(!vm'.world.failed) :: vs, last, by rw [hcons, h1]; rfl, ?_⟩
        rw [hlines, h2]; rfl
      · refine .inr ⟨e, t :: ended, t', rest, (!vm'.world.failed) :: vs, last, by rw [hcons, h1]; rfl, by rw [h2]; rfl,
          by rw [hcons, h3]; rfl, h4, ?_⟩
        rw [hlines, h5]; rfl

/-! ### C124: the warning about blocks -/

/-- C124: the warning about loop and if blocks is printed only directly before a crash. -/
theorem block_warning_crashes_partial (ev : Calculator) (p : Profile) (scripts : HMap FScript) (n : Nat) (u : Vm) (hu : u.loops = [])
    (h : .badScope ∈ (u.runShown ev p scripts n []).1) :
    (u.runShown ev p scripts n []).2 = .error (.panic .unwrap) ∧
      (u.runShown ev p scripts n []).1.getLast? = some .badScope := by
  have hi : InStep [] u := .inr ⟨rfl, hu⟩
  obtain ⟨ms, v, h1, h2, h3⟩ := runShown_ran (ev := ev) (p := p) (scripts := scripts) n [] u
  rcases h3 with ⟨hr, -⟩ | ⟨hr, h3, -⟩ | ⟨e, h3, h4, -⟩
  · obtain ⟨ls, punc', h5, -, h6⟩ := ran_says h1 []
    obtain ⟨k, rfl⟩ : ∃ k, n = ms.length + k := ⟨n - ms.length, by omega⟩
    rw [h6, runShown_stopped hr] at h
    exact absurd (by simpa using h) (h5.scope hi)
  · obtain ⟨ls, punc', h5, -, h6⟩ := ran_says h1 []
    have := h6 0
    rw [Nat.add_zero, h3] at this
    rw [this] at h
    exact absurd (by simpa [Vm.runShown] using h) (h5.scope hi)
  · obtain ⟨ls, tail, h5, h6, -, h7⟩ := shown_at_crash h1 h4 [] h3
    rw [h7] at h ⊢
    rcases h6 with rfl | ⟨rfl, rfl⟩
    · exact absurd (by simpa using h) (h5.scope hi)
    · exact ⟨rfl, by simp⟩

/-- The steps of `if(1 == 2) { loop { if(1 == 1) { show_all_records(); } exit_loop_if(1 == 3); } }`. -/
def nestedBlocks : List (Instruction × List Str) :=
  [(.if, [t!"1 == 2"]), (.loop, []), (.if, [t!"1 == 1"]), (.showAllRecords, [t!""]), (.endIf, []), (.exitLoopIf, [t!"1 == 3"]),
    (.endLoop, []), (.endIf, [])]

/-- They are what the compiler makes of that text. -/
example : compileScripts t!"define t() { if(1 == 2) { loop { if(1 == 1) { show_all_records(); } exit_loop_if(1 == 3); } } }" =
    .ok [{ (testOf t!"t" nestedBlocks).script with arguments := [t!""] }] := by decide +kernel

/-- C124 is false: blocks that are terminated correctly are reported, and the test runner crashes. -/
theorem block_warning_false_alarm_refuted [LawfulRt] (fuel : Nat) (hf : 40 ≤ fuel) (p : Profile) :
    Vm.runTestsShown (fun env => evalCalc env fuel) p [] 10 [testOf t!"t" nestedBlocks] [] {} =
      ([.running t!"t", .badScope], .error (.panic .unwrap)) := by
  obtain ⟨ev, hev⟩ : ∃ ev : Calculator, ev = fun env => evalCalc env fuel := ⟨_, rfl⟩
  have h2 : ∀ env, ev env t!"1 == 2" = .ok t!"false" := fun env => by rw [hev]; exact evalCalc_false env hf
  have h3 : ∀ env, ev env t!"1 == 3" = .ok t!"false" := fun env => by
    rw [hev]; exact evalCalc_numerals (n := 1) (m := 3) (by decide) (by decide) env hf
  rw [← hev]
  simp [Vm.runTestsShown, Vm.runShown, Vm.stepLines, Vm.stepPunc, Instruction.hasBranch, Vm.loadTest, testOf, nestedBlocks,
    Vm.running, Vm.step, Vm.script, Vm.exec, World.eval, ScriptStep.switch, idx, liftR, ev_ok_bind, ev_pure, h2, h3, seek, isBranch,
    unwrap]
  rfl

/-- The steps of a loop and an if that are not terminated in the right order. -/
def crossedBlocks : List (Instruction × List Str) :=
  [(.loop, []), (.exitLoopIf, [t!"1 == 1"]), (.if, [t!"1 == 1"]), (.endLoop, []), (.endIf, [])]

/-- C124 is false: blocks that are not terminated correctly are not reported. -/
theorem block_warning_missing_refuted [LawfulRt] (fuel : Nat) (hf : 40 ≤ fuel) (p : Profile) :
    (Vm.runTestsShown (fun env => evalCalc env fuel) p [] 10 [testOf t!"t" crossedBlocks] [] {}).1 =
      [.running t!"t", .popping t!"t", .outcome t!"t" true] := by
  obtain ⟨ev, hev⟩ : ∃ ev : Calculator, ev = fun env => evalCalc env fuel := ⟨_, rfl⟩
  have h1 : ∀ env, ev env t!"1 == 1" = .ok t!"true" := fun env => by rw [hev]; exact evalCalc_true env hf
  rw [← hev]
  simp [Vm.runTestsShown, Vm.runShown, Vm.stepLines, Vm.stepPunc, Instruction.hasBranch, Vm.loadTest, testOf, crossedBlocks,
    Vm.running, Vm.step, Vm.script, Vm.exec, World.eval, ScriptStep.switch, idx, liftR, ev_ok_bind, ev_pure, h1, seek, isEndLoop,
    afterLoop]

/-! ### Scripts that do not exist -/

/-- C53: a call of a script that does not exist prints nothing: the output just ends there. -/
theorem missing_script_silent (ev : Calculator) (hown : OwnVariables ev) (p : Profile) (scripts : HMap FScript) (u : Vm)
    (s : ScriptStep) (hs : AtStep scripts u s) (ho : s.opcode = .performScript) (c name : Str)
    (hc : s.switches[0]? = some c) (he : u.world.eval ev u.frames.length c = .ok ('"' :: name ++ ['"']))
    (hmiss : ∀ e ∈ scripts, e.2.name ≠ name) (hf : u.world.failed = false)
    (hvars : u.frames.length ≤ u.world.vars.length) (punc : List Instruction) (n : Nat) :
    u.runShown ev p scripts n punc = ([], .error .fuel) := by
  have hst : stripQuotes ('"' :: name ++ ['"']) = .ok name := by simp [stripQuotes]
  have hany : scripts.any (fun e => e.2.name == name) = false := by
    rw [List.any_eq_false]
    intro e h
    simpa using hmiss e h
  induction n generalizing u punc with
  | zero =>
    obtain ⟨sname, ip, below, hfr, hi⟩ := hs
    unfold Vm.runShown
    rw [if_pos (running_iff.mpr ⟨hf, by rw [hfr]; simp⟩)]
  | succ n ih =>
    obtain ⟨sname, ip, below, hfr, hi⟩ := hs
    have hlen : u.frames.length = below.length + 1 := by rw [hfr]; rfl
    have hlt : below.length < u.world.vars.length := by omega
    have hstep : u.step ev p scripts = .ok { u with world := { u.world with vars := u.world.vars ++ [[]] } } := by
      unfold Vm.step
      rw [hfr]
      dsimp only
      rw [hi]
      dsimp only
      unfold Vm.exec
      rw [ho]
      dsimp only
      rw [switch_of hc, ev_ok_bind, ← hlen, he, ev_ok_bind, hst]
      simp only [liftR, ev_ok_bind, hany]
      rw [if_neg (by simp), hfr]
      rfl
    have hl : u.stepLines ev scripts punc = [] := by
      rw [stepLines_eq hfr hi, ho]
      dsimp only
      rw [switch_of hc, ev_ok_bind, ← hlen, he, ev_ok_bind, hst]
      simp only [printed, liftR, hany]
      rfl
    rw [runShown_step (running_iff.mpr ⟨hf, by rw [hfr]; simp⟩) hstep, hl, List.nil_append]
    refine ih { u with world := { u.world with vars := u.world.vars ++ [[]] } } ⟨sname, ip, below, hfr, hi⟩ ?_ hf ?_ _
    · rw [← he]
      simp only [World.eval]
      rw [hlen]
      exact hown _ _ _ _ _ (List.getElem?_append_left hlt)
    · simp only [List.length_append, List.length_cons, List.length_nil]
      omega

/-! ### Examples -/

section Example
attribute [local instance] toyRt

/-- `show_custom_dialog("in") exit_script() go_to_record(1)`, which crashes because there is no layout. -/
def crashing : FScript := (testOf t!"s" [(.showCustomDialog, [t!"\"in\""]), (.exitScript, []), (.goToRecordRequestPage, [t!"1"])]).script

/-- A test that passes, one that calls `crashing`, and one that is never run. -/
def consoleTests : List FTest :=
  [testOf t!"a" [(.assert, [t!"1 == 1"])], testOf t!"b" [(.performScript, [t!"\"s\""])], testOf t!"c" []]

/-- The output of these tests, up to the crash. -/
example : (Vm.runTestsShown toyCalc .debug [(1, crashing)] 20 consoleTests [] {}).1 =
    [.running t!"a", .popping t!"a", .outcome t!"a" true, .running t!"b", .calling t!"s", .dialog t!"\"in\"",
      .unimplemented .exitScript] := by decide +kernel

/-- It is a crash, and the output tells which scripts were active: `s`, called by `b`. -/
example : (Vm.runTestsShown toyCalc .debug [(1, crashing)] 20 consoleTests [] {}).2.isOk = false ∧
    openCalls [t!"b"] [.calling t!"s", .dialog t!"\"in\"", .unimplemented .exitScript] = some [t!"s", t!"b"] := by
  decide +kernel

/-- There is a run with a crash, and what `crash_shows_active`, `crash_reports_unknown_steps` and `output_survives_crash` say of
it. -/
example : ∃ ms v e, Executed toyCalc .debug [(1, crashing)] (({} : Vm).loadTest (testOf t!"b" [(.performScript, [t!"\"s\""])])) ms v ∧
    StepCrashes toyCalc .debug [(1, crashing)] v e ∧ active v = [t!"s", t!"b"] ∧ unknown ms = [.exitScript] ∧
    v.world.out = [.dialog t!"\"in\""] := by
  have h : let r := (({} : Vm).loadTest (testOf t!"b" [(.performScript, [t!"\"s\""])])).runShown toyCalc .debug [(1, crashing)] 20 []
      r.1 = [.calling t!"s", .dialog t!"\"in\"", .unimplemented .exitScript] ∧
      (match r.2 with | .error (.panic _) => true | _ => false) = true := by decide +kernel
  obtain ⟨h1, h2⟩ := h
  obtain ⟨ms, v, h3, -, h5⟩ := runShown_ran (ev := toyCalc) (p := .debug) (scripts := [(1, crashing)]) 20 []
    (({} : Vm).loadTest (testOf t!"b" [(.performScript, [t!"\"s\""])]))
  rcases h5 with ⟨-, q, h5⟩ | ⟨-, -, h5⟩ | ⟨e, h4, h5, -⟩
  · rw [h5] at h2; cases h2
  · rw [h5] at h2; cases h2
  · refine ⟨ms, v, e, h3, h5, ?_, ?_, ?_⟩
    · have := (crash_shows_active _ _ _ _ _ _ [] _ 20 h3 h5 h4).2
      rw [h1] at this
      exact (Option.some.inj this).symm
    · have := (crash_reports_unknown_steps _ _ _ _ _ _ [] _ 20 h3 h5 h4).1
      rw [h1] at this
      exact this.symm
    · have := output_survives_crash _ _ _ _ _ _ [] _ 20 h3 h5 h4
      rw [h1] at this
      exact this

/-- A test that calls a script twice. -/
def callingTwice : FTest := testOf t!"t" [(.performScript, [t!"\"s\""]), (.performScript, [t!"\"s\""])]

/-- The hypotheses of `passed_test_balanced` hold for it. -/
example : ∃ ls punc vm', (({} : Vm).loadTest callingTwice).runShown toyCalc .debug [(1, callee)] 20 [] = (ls, .ok (punc, vm')) ∧
    vm'.world.failed = false ∧
    ls = [.calling t!"s", .popping t!"s", .calling t!"s", .popping t!"s", .popping t!"t"] ∧
    openCalls [t!"t"] ls = some [] := by
  have h : let r := (({} : Vm).loadTest callingTwice).runShown toyCalc .debug [(1, callee)] 20 []
      r.1 = [.calling t!"s", .popping t!"s", .calling t!"s", .popping t!"s", .popping t!"t"] ∧
      (r.2.map fun x => x.2.world.failed) = .ok false := by decide +kernel
  obtain ⟨h1, h2⟩ := h
  cases hr : ((({} : Vm).loadTest callingTwice).runShown toyCalc .debug [(1, callee)] 20 []).2 with
  | error e => rw [hr] at h2; cases h2
  | ok x =>
    obtain ⟨punc, vm'⟩ := x
    rw [hr] at h2
    have h3 : vm'.world.failed = false := Except.ok.inj h2
    have he : (({} : Vm).loadTest callingTwice).runShown toyCalc .debug [(1, callee)] 20 [] =
        ([.calling t!"s", .popping t!"s", .calling t!"s", .popping t!"s", .popping t!"t"], .ok (punc, vm')) := by
      rw [← h1, ← hr]
    exact ⟨_, punc, vm', he, h3, rfl, passed_test_balanced _ _ _ _ _ _ callingTwice {} vm' _ rfl he h3⟩

end Example

end BurnFm.Props
