import Verif.Proofs.Endings
import Verif.Props.Verdicts

/-! Property C151: the three endings of a run of tests. -/

namespace BurnFm.Props
open Spec

/-- C151: on a generated file, tests give verdicts, or come to a step with a reason to stop, or go on forever. -/
theorem tests_one_of_three (ev : Calculator) (p : Profile) (scripts : HMap FScript) (ts : List FTest) (file : FmpFile)
    (start : Vm) (hg : Vm.generate file = .ok start) :
    (∃ vs v, TestsGive ev p scripts ts start vs v) ∨ TestsBreak ev p scripts ts start ∨ TestsRunOn ev p scripts ts start := by
  suffices key : ∀ (l : List FTest) (u : Vm), (∀ t ∈ l, t ∈ ts) → TestRun ev p scripts ts start u →
      (∃ vs v, TestsGive ev p scripts l u vs v) ∨ TestsBreak ev p scripts l u ∨ TestsRunOn ev p scripts l u from
    key ts start (fun _ h => h) .start
  intro l
  induction l with
  | nil => intro u _ _; exact .inl ⟨[], u, .done⟩
  | cons t l ih =>
    intro u hl hu
    have hb : TestRun ev p scripts ts start (begun t u) := .load hu (hl t (by simp))
    rcases run_three hg hb with ⟨v, hv⟩ | h | h
    · rcases ih v (fun x hx => hl x (by simp [hx])) (testRun_runOf hb hv) with ⟨vs, w, hw⟩ | h | h
      · exact .inl ⟨_, w, .test hv hw⟩
      · exact .inr (.inl (.later hv h))
      · exact .inr (.inr (.later hv h))
    · exact .inr (.inl (.here h))
    · exact .inr (.inr (.here h))

/-- C151: and only one of these. -/
theorem tests_only_one (ev : Calculator) (p : Profile) (scripts : HMap FScript) (ts : List FTest) (file : FmpFile)
    (start : Vm) (hg : Vm.generate file = .ok start) :
    ¬((∃ vs v, TestsGive ev p scripts ts start vs v) ∧ TestsBreak ev p scripts ts start) ∧
    ¬((∃ vs v, TestsGive ev p scripts ts start vs v) ∧ TestsRunOn ev p scripts ts start) ∧
    ¬(TestsBreak ev p scripts ts start ∧ TestsRunOn ev p scripts ts start) := by
  suffices key : ∀ (l : List FTest) (u : Vm), (∀ t ∈ l, t ∈ ts) → TestRun ev p scripts ts start u →
      ¬((∃ vs v, TestsGive ev p scripts l u vs v) ∧ TestsBreak ev p scripts l u) ∧
      ¬((∃ vs v, TestsGive ev p scripts l u vs v) ∧ TestsRunOn ev p scripts l u) ∧
      ¬(TestsBreak ev p scripts l u ∧ TestsRunOn ev p scripts l u) from
    key ts start (fun _ h => h) .start
  intro l
  induction l with
  | nil =>
    intro u _ _
    refine ⟨?_, ?_, ?_⟩
    · rintro ⟨-, h⟩; cases h
    · rintro ⟨-, h⟩; cases h
    · rintro ⟨h, -⟩; cases h
  | cons t l ih =>
    intro u hl hu
    have hb : TestRun ev p scripts ts start (begun t u) := .load hu (hl t (by simp))
    have ih' := fun v (hv : RunOf ev p scripts (begun t u) v) => ih v (fun x hx => hl x (by simp [hx])) (testRun_runOf hb hv)
    refine ⟨?_, ?_, ?_⟩
    · rintro ⟨⟨vs, w, hw⟩, h⟩
      cases hw with
      | @test _ _ _ v _ vs hv hw =>
        cases h with
        | here h => exact breaks_not_runOf hg hb h hv
        | later hv' h =>
          cases runOf_unique hv' hv
          exact (ih' v hv).1 ⟨⟨_, _, hw⟩, h⟩
    · rintro ⟨⟨vs, w, hw⟩, h⟩
      cases hw with
      | @test _ _ _ v _ vs hv hw =>
        cases h with
        | here h => exact runOf_not_runsOn hv h
        | later hv' h =>
          cases runOf_unique hv' hv
          exact (ih' v hv).2.1 ⟨⟨_, _, hw⟩, h⟩
    · rintro ⟨h, h'⟩
      cases h with
      | here h =>
        cases h' with
        | here h' => exact breaks_not_runsOn hg hb h h'
        | later hv _ => exact breaks_not_runOf hg hb h hv
      | later hv h =>
        cases h' with
        | here h' => exact runOf_not_runsOn hv h'
        | later hv' h' =>
          cases runOf_unique hv' hv
          exact (ih' _ hv).2.2 ⟨h, h'⟩

section
variable [Rt]

/-- C151: tests that go on forever are never finished, whatever time they are given, and never crash. -/
theorem endless_tests_run_on (p : Profile) (scripts : HMap FScript) (ts : List FTest) (u : Vm)
    (h : TestsRunOn trueCalc p scripts ts u) (fuel n : Nat) :
    u.runTests (fun env => evalCalc env fuel) p scripts n ts = .error .fuel := by
  induction h with
  | @here t ts u h =>
    rw [Vm.runTests]
    have := runsOn_bounded fuel n h
    unfold begun at this
    unfold Vm.loadTest
    rw [this]; rfl
  | @later t ts u v hv _ ih =>
    rw [Vm.runTests]
    have := runOf_bounded fuel n hv
    unfold begun at this
    unfold Vm.loadTest
    rcases this with e | e
    · rw [e]; rfl
    · rw [e]
      show (do let (vs, last) ← v.runTests _ p scripts n ts; pure ((!v.world.failed) :: vs, last) : Ev _) = _
      rw [ih]; rfl

/-- C151: if a run crashes, a test comes to a step with a reason to stop. -/
theorem crash_breaks (p : Profile) (scripts : HMap FScript) (ts : List FTest) (file : FmpFile) (start : Vm)
    (hg : Vm.generate file = .ok start) (fuel n : Nat) (r : Panic)
    (h : start.runTests (fun env => evalCalc env fuel) p scripts n ts = .error (.panic r)) :
    TestsBreak trueCalc p scripts ts start := by
  rcases tests_one_of_three trueCalc p scripts ts file start hg with ⟨vs, v, hv⟩ | hb | hb
  · obtain ⟨f, m, hm⟩ := (verdicts_exact p scripts ts start v vs).mpr hv
    have e1 := LeF.eq (runTests_leF (evalCalc_mono (Nat.le_max_left fuel f)) p scripts (Nat.le_max_left n m) ts start)
      (by rw [h]; simp)
    have e2 := LeF.eq (runTests_leF (evalCalc_mono (Nat.le_max_right fuel f)) p scripts (Nat.le_max_right n m) ts start)
      (by rw [hm]; simp)
    rw [h] at e1; rw [hm, ← e1] at e2; cases e2
  · exact hb
  · rw [endless_tests_run_on p scripts ts start hb] at h; cases h

/-- C151: and if it comes to such a step, it has no verdicts, whatever time it is given. -/
theorem break_no_verdicts (p : Profile) (scripts : HMap FScript) (ts : List FTest) (file : FmpFile) (start : Vm)
    (hg : Vm.generate file = .ok start) (h : TestsBreak trueCalc p scripts ts start) (fuel n : Nat) :
    ∃ e, start.runTests (fun env => evalCalc env fuel) p scripts n ts = .error e := by
  refine (no_verdict_iff p scripts ts start).mpr ?_ fuel n
  intro vs v hv
  exact (tests_only_one trueCalc p scripts ts file start hg).1 ⟨⟨vs, v, hv⟩, h⟩

end

section Example

/-- A test with a loop that is never left goes on forever, from every state without active scripts. -/
example (ev : Calculator) (p : Profile) (u : Vm) (hf : u.world.failed = false) (hfr : u.frames = []) :
    TestsRunOn ev p [] [testOf t!"t" [(.loop, []), (.endLoop, [])]] u := by
  let t := testOf t!"t" [(.loop, []), (.endLoop, [])]
  let v : Vm := { begun t u with loops := 0 :: u.loops, frames := [(t!"t", 1)] }
  refine .here ⟨fun i => if i = 0 then begun t u else v, rfl, fun i => ?_⟩
  by_cases hi : i = 0
  · subst hi
    refine .step (s := instr .loop []) hf ⟨t!"t", 0, [], by simp [begun, t, hfr, testOf], rfl⟩ ?_
    show v = goNext _
    simp [v, goNext, goOn, begun, place, t, testOf, hfr]
  · simp only [hi, if_false, Nat.succ_ne_zero, Nat.add_eq_zero_iff, Nat.one_ne_zero, and_false]
    refine .step (s := instr .endLoop []) hf ⟨t!"t", 1, [], rfl, rfl⟩ ?_
    exact ⟨0, u.loops, rfl, rfl⟩

/-- A test that ends a loop that was not begun comes to a reason to stop, after a first test that passes. The hypotheses of
`tests_one_of_three`. -/
example (ev : Calculator) (p : Profile) : ∃ start, Vm.generate {} = .ok start ∧
    TestsBreak ev p [] [testOf t!"a" [], testOf t!"b" [(.endLoop, [])]] start := by
  refine ⟨_, rfl, .later (.return rfl rfl rfl (.finished rfl)) (.here (.here (s := instr .endLoop []) rfl
    ⟨t!"b", 0, [], rfl, rfl⟩ (.noLoop rfl rfl)))⟩

end Example

end BurnFm.Props
