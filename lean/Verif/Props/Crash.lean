import Verif.Proofs.CrashStep
import Verif.Props.Console

/-! Property C135: the reasons for which a test run stops without a verdict. -/

namespace BurnFm.Props
open Spec

/-- In a run of tests on a generated file, there are at least as many sets of variables as active scripts. -/
theorem run_variables (ev : Calculator) (p : Profile) (scripts : HMap FScript) (ts : List FTest) (file : FmpFile)
    (start u : Vm) (hs : Vm.generate file = .ok start) (h : TestRun ev p scripts ts start u) :
    u.frames.length ≤ u.world.vars.length := by
  induction h with
  | start =>
    unfold Vm.generate at hs
    simp only [ev_bind_ok, ev_pure, liftR_ok] at hs
    obtain ⟨db, -, he⟩ := hs
    injection he with he; subst he
    exact Nat.le_refl _
  | load _ _ ih => simp [Vm.loadTest]; omega
  | step _ _ _ hst ih => exact step_frames_le ih hst

/-- C135: whatever tests are run on a generated file, at every point of the run, the next step crashes or never ends exactly if there is
one of the reasons in `StopReason`. -/
theorem step_stops_iff (ev : Calculator) (p : Profile) (scripts : HMap FScript) (ts : List FTest) (file : FmpFile)
    (start u : Vm) (hs : Vm.generate file = .ok start) (h : TestRun ev p scripts ts start u) :
    (∃ e, StepCrashes ev p scripts u e) ↔
      u.world.failed = false ∧ ∃ s, AtStep scripts u s ∧ StopReason ev p scripts u s := by
  have hv := (run_database_reachable ev p scripts ts file start u hs h).2
  have hvars := run_variables ev p scripts ts file start u hs h
  constructor
  · rintro ⟨e, hf, hfr, he⟩
    refine ⟨hf, ?_⟩
    unfold Vm.step at he
    cases hu : u.frames with
    | nil => exact absurd hu hfr
    | cons f below =>
      obtain ⟨name, ip⟩ := f
      rw [hu] at he
      dsimp only at he
      cases hc : (u.script scripts name below).instructions[ip]? with
      | none => rw [hc] at he; cases he
      | some s =>
        rw [hc] at he
        exact ⟨s, ⟨name, ip, below, hu, hc⟩, (exec_err hu hv hvars hc).mp ⟨e, he⟩⟩
  · rintro ⟨hf, s, ⟨name, ip, below, hu, hc⟩, hr⟩
    obtain ⟨e, he⟩ := (exec_err hu hv hvars hc).mpr hr
    refine ⟨e, hf, by rw [hu]; simp, ?_⟩
    unfold Vm.step
    rw [hu]
    dsimp only
    rw [hc]
    exact he

/-- C135: so if a test panics, one of the reasons holds for a step that is executed in it. -/
theorem panic_has_reason (ev : Calculator) (p : Profile) (scripts : HMap FScript) (ts : List FTest) (file : FmpFile)
    (start u : Vm) (hs : Vm.generate file = .ok start) (h : TestRun ev p scripts ts start u) (n : Nat) (r : Panic)
    (hr : u.run ev p scripts n = .error (.panic r)) :
    ∃ v s, Executes ev p scripts u v ∧ v.world.failed = false ∧ AtStep scripts v s ∧ StopReason ev p scripts v s := by
  induction n generalizing u with
  | zero =>
    unfold Vm.run at hr
    split at hr <;> cases hr
  | succ n ih =>
    unfold Vm.run at hr
    split at hr
    · rename_i hrun
      unfold Vm.running at hrun
      simp only [Bool.and_eq_true, Bool.not_eq_true', List.isEmpty_eq_false_iff] at hrun
      cases hst : u.step ev p scripts with
      | error e =>
        obtain ⟨hf, s, h1, h2⟩ := (step_stops_iff ev p scripts ts file start u hs h).mp ⟨e, hrun.1, hrun.2, hst⟩
        exact ⟨u, s, .here, hf, h1, h2⟩
      | ok v =>
        rw [hst, ev_ok_bind] at hr
        obtain ⟨w, s, h1, h2⟩ := ih v (.step h hrun.1 hrun.2 hst) hr
        exact ⟨w, s, .step hrun.1 hrun.2 hst h1, h2⟩
    · cases hr

/-- C135: and if one of the reasons holds for a step that is executed in a test, the test has no verdict. -/
theorem reason_stops_test (ev : Calculator) (p : Profile) (scripts : HMap FScript) (ts : List FTest) (file : FmpFile)
    (start u v : Vm) (hs : Vm.generate file = .ok start) (h : TestRun ev p scripts ts start u)
    (hv : Executes ev p scripts u v) (hf : v.world.failed = false) (s : ScriptStep) (hat : AtStep scripts v s)
    (hr : StopReason ev p scripts v s) : ∀ n vm, u.run ev p scripts n ≠ .ok vm := by
  induction hv with
  | here =>
    intro n vm hn
    obtain ⟨e, h1, h2, h3⟩ := (step_stops_iff ev p scripts ts file start _ hs h).mpr ⟨hf, s, hat, hr⟩
    cases n with
    | zero => unfold Vm.run at hn; simp [Vm.running, h1, h2] at hn
    | succ n => unfold Vm.run at hn; simp [Vm.running, h1, h2, h3, ev_error_bind] at hn
  | step h1 h2 h3 _ ih =>
    intro n vm hn
    cases n with
    | zero => unfold Vm.run at hn; simp [Vm.running, h1, h2] at hn
    | succ n =>
      unfold Vm.run at hn
      simp only [Vm.running, h1, h2, h3, ev_ok_bind, Bool.not_false, Bool.true_and, List.isEmpty_eq_false_iff.mpr h2, if_true] at hn
      exact ih (.step h h1 h2 h3) hf hat hr n vm hn

/-- C135 for a whole list of tests: if the test runner panics, one of the reasons holds for a step that is executed. -/
theorem tests_panic_has_reason (ev : Calculator) (p : Profile) (scripts : HMap FScript) (ts : List FTest) (file : FmpFile)
    (start : Vm) (hs : Vm.generate file = .ok start) (n : Nat) (r : Panic)
    (hr : start.runTests ev p scripts n ts = .error (.panic r)) :
    ∃ u s, TestRun ev p scripts ts start u ∧ u.world.failed = false ∧ AtStep scripts u s ∧ StopReason ev p scripts u s := by
  rcases crash_located ev p scripts n ts [] start with ⟨vs, last, h, -⟩ | ⟨e, ended, t, rest, vs, last, h1, h2, h3, h4, -⟩
  · rw [hr] at h; cases h
  · rw [hr] at h1; cases h1
    have hrun : TestRun ev p scripts ts start (last.loadTest t) :=
      .load ((run_tests_is_test_run ev p scripts n ended start last vs h3).mono (by rw [h2]; simp; tauto)) (by rw [h2]; simp)
    obtain ⟨v, s, a1, a2, a3, a4⟩ := panic_has_reason ev p scripts ts file start _ hs hrun n r h4
    exact ⟨v, s, a1.testRun hrun, a2, a3, a4⟩

/-- C135: a loop was begun in a run if one of its steps is `loop`: what the reason `noLoop` says. -/
theorem loop_begun_iff (ev : Calculator) (p : Profile) (scripts : HMap FScript) (u v : Vm) (ms : List (Option ScriptStep))
    (h : Executed ev p scripts u ms v) : v.loops = [] ↔ u.loops = [] ∧ ∀ s, some s ∈ ms → s.opcode ≠ .loop := by
  induction h with
  | here => simp
  | step h1 h2 h3 _ ih =>
    rename_i u u' v ms _
    rw [ih]
    unfold nextStep
    unfold Vm.step at h3
    cases hu : u.frames with
    | nil => exact absurd hu h2
    | cons f below =>
      obtain ⟨name, ip⟩ := f
      rw [hu] at h3
      dsimp only at h3 ⊢
      cases hc : (u.script scripts name below).instructions[ip]? with
      | none =>
        rw [hc] at h3
        injection h3 with h3
        subst h3
        simp
      | some s =>
        rw [hc] at h3
        dsimp only at h3
        by_cases hl : s.opcode = .loop
        · unfold Vm.exec at h3
          rw [hl] at h3
          injection h3 with h3
          subst h3
          simp [hl]
        · have : u'.loops = u.loops := exec_loops h3 hl
          rw [this]
          simp [hl]

/-- C135: the name of a field has a second piece exactly if there is `::` in it. -/
theorem no_pair_iff (name : Str) : (splitCC name)[1]? = none ↔ ¬t!"::" <:+: name := by
  fun_induction splitCC name with
  | case1 => simp
  | case2 cs ih =>
    have h1 : t!"::" <:+: ':' :: ':' :: cs := ⟨[], cs, rfl⟩
    have h2 : splitCC cs ≠ [] := by unfold splitCC; split <;> first | (simp; done) | (split <;> simp)
    simp only [h1, not_true_eq_false, iff_false]
    cases h : splitCC cs with
    | nil => exact absurd h h2
    | cons a l => simp
  | case3 c cs hc a l h ih =>
    rw [h] at ih
    simp only [List.getElem?_cons_succ] at ih ⊢
    rw [ih, List.infix_cons_iff]
    refine not_congr (or_iff_right ?_).symm
    intro hp
    obtain ⟨t, ht⟩ := hp
    simp only [List.cons_append, List.nil_append, List.cons.injEq] at ht
    exact hc t ht.1.symm ht.2.symm
  | case4 c cs hc h ih =>
    exfalso
    have h2 : splitCC cs ≠ [] := by unfold splitCC; split <;> first | (simp; done) | (split <;> simp)
    exact h2 h

section Example
attribute [local instance] toyRt

/-- A test that sets a field of a table without records. -/
def stoppingTest : FTest := testOf t!"t" [(.setVariable, [t!"x", t!"1"]), (.setField, [t!"people::name", t!"\"Ann\""])]

/-- The hypotheses of `tests_panic_has_reason` hold for it. -/
example : ∃ r, petVm.runTests toyCalc .debug [] 20 [stoppingTest] = .error (.panic r) := by
  have h : (match petVm.runTests toyCalc .debug [] 20 [stoppingTest] with | .error (.panic _) => true | _ => false) = true := by
    decide +kernel
  cases hr : petVm.runTests toyCalc .debug [] 20 [stoppingTest] with
  | ok x => rw [hr] at h; cases h
  | error e => cases e with
    | fuel => rw [hr] at h; cases h
    | panic r => exact ⟨r, rfl⟩

/-- The state before the second step. -/
def beforeStop : Vm := match (petVm.loadTest stoppingTest).step toyCalc .debug [] with | .ok v => v | .error _ => {}

theorem beforeStop_step : (petVm.loadTest stoppingTest).step toyCalc .debug [] = .ok beforeStop := by
  have h : ((petVm.loadTest stoppingTest).step toyCalc .debug []).toOption.isSome = true := by decide +kernel
  unfold beforeStop
  cases hr : (petVm.loadTest stoppingTest).step toyCalc .debug [] with
  | error e => rw [hr] at h; cases h
  | ok v => rfl

/-- It is a state of the run, and has a reason to stop: so the next step crashes and the test has no verdict. -/
example : TestRun toyCalc .debug [] [stoppingTest] petVm beforeStop ∧
    StopReason toyCalc .debug [] beforeStop (instr .setField [t!"people::name", t!"\"Ann\""]) ∧
    ∀ n vm, (petVm.loadTest stoppingTest).run toyCalc .debug [] n ≠ .ok vm := by
  have h0 : TestRun toyCalc .debug [] [stoppingTest] petVm (petVm.loadTest stoppingTest) := .load .start (by simp)
  have hf0 : (petVm.loadTest stoppingTest).world.failed = false := by decide +kernel
  have hfr : (petVm.loadTest stoppingTest).frames ≠ [] := by decide +kernel
  have hm : beforeStop.world.findMode = false := by decide +kernel
  have hf : beforeStop.world.failed = false := by decide +kernel
  have hat : AtStep [] beforeStop (instr .setField [t!"people::name", t!"\"Ann\""]) :=
    ⟨t!"t", 1, [], by decide +kernel, by decide +kernel⟩
  have hr : StopReason toyCalc .debug [] beforeStop (instr .setField [t!"people::name", t!"\"Ann\""]) := by
    refine .notWritable t!"people::name" rfl hm rfl ?_
    rintro ⟨occ, field, i, o, t, h1, h2, h3, h4, h5, -⟩
    have a1 : (splitCC t!"people::name")[0]? = some t!"people" := by decide
    rw [a1] at h1; cases h1
    have a2 : SMap.get beforeStop.world.db.indices t!"people" = some 1 := by decide +kernel
    rw [a2] at h3; cases h3
    have a3 : (beforeStop.world.db.occs[1]?).map (·.foundSet) = some [] := by decide +kernel
    rw [h4] at a3
    injection a3 with a3
    exact h5 a3
  exact ⟨.step h0 hf0 hfr beforeStop_step, hr,
    reason_stops_test toyCalc .debug [] [stoppingTest] petSchema petVm _ beforeStop petVm_generated h0
      (.step hf0 hfr beforeStop_step .here) hf _ hat hr⟩

/-- A state in which a reason is absent: the first step does not stop. -/
example : ¬∃ s, AtStep [] (petVm.loadTest stoppingTest) s ∧ StopReason toyCalc .debug [] (petVm.loadTest stoppingTest) s := by
  rintro h
  obtain ⟨e, -, -, he⟩ := (step_stops_iff toyCalc .debug [] [stoppingTest] petSchema petVm _ petVm_generated
    (.load .start (by simp))).mpr ⟨by decide +kernel, h⟩
  rw [beforeStop_step] at he
  cases he

end Example

end BurnFm.Props
