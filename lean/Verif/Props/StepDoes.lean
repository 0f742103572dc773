import Verif.Proofs.StepDoes
import Verif.Props.Crash
import Verif.Props.Script
import Verif.Props.FoundSets

/-! Property C149: what every step of every script does, and what a run of tests gives. -/

namespace BurnFm.Props
open Spec

/-- C149: for every script, whether its blocks are in order or not, and every state, the result of executing the next step is the one
that `StepDoes` says. -/
theorem step_exact (ev : Calculator) (p : Profile) (scripts : HMap FScript) (u v : Vm) (s : ScriptStep) (h : AtStep scripts u s) :
    u.step ev p scripts = .ok v ↔ StepDoes ev p scripts u s v := by
  obtain ⟨name, ip, below, hfr, hs⟩ := h
  rw [← exec_iff hfr hs]
  unfold Vm.step
  rw [hfr]
  dsimp only
  rw [hs]

/-- C149: at the end of a script, the one that called it continues where it was. -/
theorem script_end_exact (ev : Calculator) (p : Profile) (scripts : HMap FScript) (u v : Vm) (f : Str × Nat)
    (below : List (Str × Nat)) (hfr : u.frames = f :: below) (hs : (running scripts u)[place u]? = none) :
    u.step ev p scripts = .ok v ↔ v = { u with frames := below } := by
  obtain ⟨name, ip⟩ := f
  unfold running place at hs
  rw [hfr] at hs
  unfold Vm.step
  rw [hfr]
  dsimp only at hs ⊢
  rw [hs]
  simp only [ev_pure, Except.ok.injEq]
  exact eq_comm

/-- A state with an active script is at a step or at the end of its script. -/
theorem at_step_or_end (scripts : HMap FScript) (u : Vm) (hfr : u.frames ≠ []) :
    (∃ s, AtStep scripts u s) ∨ (running scripts u)[place u]? = none := by
  cases hu : u.frames with
  | nil => exact absurd hu hfr
  | cons f below =>
    obtain ⟨name, ip⟩ := f
    have hr : (running scripts u)[place u]? = (u.script scripts name below).instructions[ip]? := by
      unfold running place; rw [hu]
    rw [hr]
    cases hc : (u.script scripts name below).instructions[ip]? with
    | none => exact .inr rfl
    | some s => exact .inl ⟨s, name, ip, below, hu, hc⟩

/-- C149: a run of any script ends in a certain state exactly if `RunOf` says so. -/
theorem run_exact (ev : Calculator) (p : Profile) (scripts : HMap FScript) (u v : Vm) :
    (∃ n, u.run ev p scripts n = .ok v) ↔ RunOf ev p scripts u v := by
  constructor
  · rintro ⟨n, h⟩
    have stop : ∀ u : Vm, ¬u.running = true → RunOf ev p scripts u u := by
      intro u hr
      unfold Vm.running at hr
      by_cases hf : u.world.failed = true
      · exact .failed hf
      · exact .finished (by simpa [hf] using hr)
    induction n generalizing u with
    | zero =>
      unfold Vm.run at h
      split at h
      · cases h
      · rename_i hr; cases h; exact stop _ hr
    | succ n ih =>
      unfold Vm.run at h
      split at h
      · rename_i hr
        obtain ⟨u', h1, h2⟩ := ev_bind_ok.mp h
        unfold Vm.running at hr
        simp only [Bool.and_eq_true, Bool.not_eq_true', List.isEmpty_eq_false_iff] at hr
        rcases at_step_or_end scripts u hr.2 with ⟨s, hs⟩ | hs
        · exact .step hr.1 hs ((step_exact ev p scripts u u' s hs).mp h1) (ih u' h2)
        · cases hu : u.frames with
          | nil => exact absurd hu hr.2
          | cons f below =>
            have := (script_end_exact ev p scripts u u' f below hu hs).mp h1
            subst this
            exact .return hr.1 hu hs (ih _ h2)
      · rename_i hr; cases h; exact stop _ hr
  · intro h
    induction h with
    | failed h => exact ⟨0, run_stopped (.inl h)⟩
    | finished h => exact ⟨0, run_stopped (.inr h)⟩
    | @step u u' v s hf hs hd _ ih =>
      obtain ⟨n, hn⟩ := ih
      refine ⟨n + 1, ?_⟩
      unfold Vm.run
      have hfr : u.frames ≠ [] := by obtain ⟨a, b, c, hu, -⟩ := hs; rw [hu]; simp
      rw [if_pos (by simp [Vm.running, hf, List.isEmpty_eq_false_iff.mpr hfr]), (step_exact ev p scripts u u' s hs).mpr hd]
      exact hn
    | @«return» u v f below hf hfr hs _ ih =>
      obtain ⟨n, hn⟩ := ih
      refine ⟨n + 1, ?_⟩
      unfold Vm.run
      rw [if_pos (by simp [Vm.running, hf, hfr]), (script_end_exact ev p scripts u _ f below hfr hs).mpr rfl]
      exact hn

/-- C149: any tests give certain verdicts, and leave a certain state, exactly if `TestsGive` says so. -/
theorem tests_exact (ev : Calculator) (p : Profile) (scripts : HMap FScript) (ts : List FTest) (u v : Vm) (vs : List Bool) :
    (∃ n, u.runTests ev p scripts n ts = .ok (vs, v)) ↔ TestsGive ev p scripts ts u vs v := by
  constructor
  · rintro ⟨n, h⟩
    induction ts generalizing u vs with
    | nil => cases h; exact .done
    | cons t ts ih =>
      unfold Vm.runTests at h
      obtain ⟨u', h1, h2⟩ := ev_bind_ok.mp h
      obtain ⟨⟨vs', last⟩, h3, h4⟩ := ev_bind_ok.mp h2
      cases h4
      exact .test ((run_exact ev p scripts _ u').mp ⟨n, h1⟩) (ih u' vs' h3)
  · intro h
    induction h with
    | done => exact ⟨0, rfl⟩
    | @test t ts u u' v vs h1 _ ih =>
      obtain ⟨n, hn⟩ := (run_exact ev p scripts _ u').mpr h1
      obtain ⟨m, hm⟩ := ih
      refine ⟨max n m, ?_⟩
      unfold Vm.runTests
      have hn' : (u.loadTest t).run ev p scripts (max n m) = .ok u' := run_mono hn (Nat.le_max_left n m)
      rw [hn', ev_ok_bind, runTests_mono (Nat.le_max_right n m) hm]
      rfl

/-- C149: a step has at most one result. -/
theorem step_does_unique (ev : Calculator) (p : Profile) (scripts : HMap FScript) (u v v' : Vm) (s : ScriptStep)
    (hs : AtStep scripts u s) (h : StepDoes ev p scripts u s v) (h' : StepDoes ev p scripts u s v') : v = v' := by
  have h1 := (step_exact ev p scripts u v s hs).mpr h
  have h2 := (step_exact ev p scripts u v' s hs).mpr h'
  rw [h1] at h2
  exact Except.ok.inj h2

/-- C149: and so do tests: their verdicts are determined. -/
theorem tests_give_unique (ev : Calculator) (p : Profile) (scripts : HMap FScript) (ts : List FTest) (u v v' : Vm)
    (vs vs' : List Bool) (h : TestsGive ev p scripts ts u vs v) (h' : TestsGive ev p scripts ts u vs' v') : vs = vs' ∧ v = v' := by
  obtain ⟨n, hn⟩ := (tests_exact ev p scripts ts u v vs).mpr h
  obtain ⟨m, hm⟩ := (tests_exact ev p scripts ts u v' vs').mpr h'
  have h1 := runTests_mono (Nat.le_max_left n m) hn
  have h2 := runTests_mono (Nat.le_max_right n m) hm
  rw [h1] at h2
  cases h2
  exact ⟨rfl, rfl⟩

/-- C149: in a run of tests on a generated file, the step that is to be executed has a result exactly if none of the reasons to stop
(C135) holds. So `StepDoes` and `StopReason` leave nothing open. -/
theorem step_does_or_stops (ev : Calculator) (p : Profile) (scripts : HMap FScript) (ts : List FTest) (file : FmpFile)
    (start u : Vm) (hg : Vm.generate file = .ok start) (h : TestRun ev p scripts ts start u) (hf : u.world.failed = false)
    (s : ScriptStep) (hs : AtStep scripts u s) : (∃ v, StepDoes ev p scripts u s v) ↔ ¬StopReason ev p scripts u s := by
  have hstop := step_stops_iff ev p scripts ts file start u hg h
  have hfr : u.frames ≠ [] := by obtain ⟨a, b, c, hu, -⟩ := hs; rw [hu]; simp
  constructor
  · rintro ⟨v, hv⟩ hr
    obtain ⟨e, -, -, he⟩ := hstop.mpr ⟨hf, s, hs, hr⟩
    rw [(step_exact ev p scripts u v s hs).mpr hv] at he
    cases he
  · intro hno
    cases hst : u.step ev p scripts with
    | ok v => exact ⟨v, (step_exact ev p scripts u v s hs).mp hst⟩
    | error e =>
      obtain ⟨-, s', hs', hr⟩ := hstop.mp ⟨e, hf, hfr, hst⟩
      rw [atStep_same hs hs'] at hno
      exact absurd hr hno

section Example
attribute [local instance] toyRt

/-- Blocks that cross each other: `if(1 == 2) loop end_if end_loop`, before an assertion that fails. -/
def tangled : FTest := testOf t!"t"
  [(.if, [t!"1 == 2"]), (.loop, []), (.endIf, []), (.assert, [t!"1 == 2"]), (.endLoop, [])]

/-- The verdict of the tangled test is Fail: the `if` continues at the `end_if`, within the loop. -/
example : ∃ v, TestsGive toyCalc .debug [] [tangled] {} [false] v := by
  have h : (match ({} : Vm).runTests toyCalc .debug [] 9 [tangled] with | .ok (vs, _) => vs == [false] | _ => false) = true := by
    decide +kernel
  cases hr : ({} : Vm).runTests toyCalc .debug [] 9 [tangled] with
  | error e => rw [hr] at h; cases h
  | ok x =>
    obtain ⟨vs, v⟩ := x
    rw [hr] at h
    simp at h
    subst h
    exact ⟨v, (tests_exact toyCalc .debug [] [tangled] {} v [false]).mp ⟨9, hr⟩⟩

/-- A call of a script that does not exist stays where it is. -/
example : StepDoes toyCalc .debug [] (({} : Vm).loadTest (testOf t!"t" [(.performScript, [t!"\"none\""])]))
    (instr .performScript [t!"\"none\""])
    { (({} : Vm).loadTest (testOf t!"t" [(.performScript, [t!"\"none\""])])) with
      world := { (({} : Vm).loadTest (testOf t!"t" [(.performScript, [t!"\"none\""])])).world with vars := [[], []] } } := by
  refine ⟨t!"none", _, ⟨_, rfl, ?_⟩, rfl, .inr ⟨by simp, rfl⟩⟩
  decide +kernel

end Example

end BurnFm.Props
