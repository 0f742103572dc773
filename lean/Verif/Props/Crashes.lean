import Verif.Proofs.Crashes

/-! Property C153: exactly which runs of tests crash, and which never end. -/

namespace BurnFm.Props
open Spec

/-- C153: a step of a script never ends for the listed reasons, and for no other. -/
theorem step_hangs_iff (ev : Calculator) (p : Profile) (scripts : HMap FScript) (u : Vm) (s : ScriptStep)
    (h : AtStep scripts u s) : u.step ev p scripts = .error .fuel ↔ HangReason ev scripts u s :=
  fu_step h

section
variable [Rt]

/-- C153: the tests of a generated file crash exactly if one of them comes to a step that crashes. -/
theorem tests_crash_exact (p : Profile) (scripts : HMap FScript) (ts : List FTest) (file : FmpFile) (start : Vm)
    (hg : Vm.generate file = .ok start) :
    (∃ fuel n r, start.runTests (fun env => evalCalc env fuel) p scripts n ts = .error (.panic r)) ↔
      TestsCrash trueCalc p scripts ts start := by
  constructor
  · rintro ⟨fuel, n, r, h⟩
    rcases break_crash_or_hang (crash_breaks p scripts ts file start hg fuel n r h) with hc | ⟨v, s, h1, h2, h3, h4⟩
    · exact hc
    · have hfr : v.frames ≠ [] := by obtain ⟨name, ip, below, hu, -⟩ := h3; rw [hu]; simp
      rw [tests_hang h1 h2 hfr fuel (step_hangs h3 h4 fuel) n] at h
      cases h
  · rintro ⟨v, s, h1, h2, h3, h4, h5⟩
    have hfr : v.frames ≠ [] := by obtain ⟨name, ip, below, hu, -⟩ := h3; rw [hu]; simp
    have hn : ¬∃ w, NextState trueCalc p scripts v w := by
      rintro ⟨w, hw⟩
      exact reason_not_next hg (come_testRun (fun _ h => h) .start h1) h2 h3 h4 hw
    obtain ⟨N, hN⟩ := tests_crash h1 h2 hfr (step_crashes h2 h3 hn h5)
    exact ⟨N, hN N (Nat.le_refl N)⟩

/-- C153: they never end exactly if one of them goes on forever or comes to a step that never ends. -/
theorem tests_endless_exact (p : Profile) (scripts : HMap FScript) (ts : List FTest) (file : FmpFile) (start : Vm)
    (hg : Vm.generate file = .ok start) :
    (∀ fuel n, start.runTests (fun env => evalCalc env fuel) p scripts n ts = .error .fuel) ↔
      TestsRunOn trueCalc p scripts ts start ∨ TestsHang trueCalc p scripts ts start := by
  constructor
  · intro h
    rcases tests_one_of_three trueCalc p scripts ts file start hg with ⟨vs, v, hv⟩ | hb | hb
    · obtain ⟨f, m, hm⟩ := (verdicts_exact p scripts ts start v vs).mpr hv
      rw [h f m] at hm; cases hm
    · rcases break_crash_or_hang hb with hc | hc
      · obtain ⟨f, m, r, hm⟩ := (tests_crash_exact p scripts ts file start hg).mpr hc
        rw [h f m] at hm; cases hm
      · exact .inr hc
    · exact .inl hb
  · rintro (h | ⟨v, s, h1, h2, h3, h4⟩) fuel n
    · exact endless_tests_run_on p scripts ts start h fuel n
    · have hfr : v.frames ≠ [] := by obtain ⟨name, ip, below, hu, -⟩ := h3; rw [hu]; simp
      exact tests_hang h1 h2 hfr fuel (step_hangs h3 h4 fuel) n

/-- C153: the tests of a generated file give verdicts, or crash, or go on forever, or hang in a step, and only one of these. -/
theorem tests_one_of_four (p : Profile) (scripts : HMap FScript) (ts : List FTest) (file : FmpFile) (start : Vm)
    (hg : Vm.generate file = .ok start) :
    ((∃ vs v, TestsGive trueCalc p scripts ts start vs v) ∨ TestsCrash trueCalc p scripts ts start ∨
      TestsRunOn trueCalc p scripts ts start ∨ TestsHang trueCalc p scripts ts start) ∧
    ¬((∃ vs v, TestsGive trueCalc p scripts ts start vs v) ∧ TestsCrash trueCalc p scripts ts start) ∧
    ¬((∃ vs v, TestsGive trueCalc p scripts ts start vs v) ∧
      (TestsRunOn trueCalc p scripts ts start ∨ TestsHang trueCalc p scripts ts start)) ∧
    ¬(TestsCrash trueCalc p scripts ts start ∧
      (TestsRunOn trueCalc p scripts ts start ∨ TestsHang trueCalc p scripts ts start)) := by
  refine ⟨?_, ?_, ?_, ?_⟩
  · rcases tests_one_of_three trueCalc p scripts ts file start hg with h | h | h
    · exact .inl h
    · rcases break_crash_or_hang h with h | h
      · exact .inr (.inl h)
      · exact .inr (.inr (.inr h))
    · exact .inr (.inr (.inl h))
  · rintro ⟨⟨vs, v, hv⟩, hc⟩
    obtain ⟨fuel, n, r, h⟩ := (tests_crash_exact p scripts ts file start hg).mpr hc
    exact (tests_only_one trueCalc p scripts ts file start hg).1
      ⟨⟨vs, v, hv⟩, crash_breaks p scripts ts file start hg fuel n r h⟩
  · rintro ⟨⟨vs, v, hv⟩, hc⟩
    obtain ⟨f, m, hm⟩ := (verdicts_exact p scripts ts start v vs).mpr hv
    rw [(tests_endless_exact p scripts ts file start hg).mpr hc f m] at hm
    cases hm
  · rintro ⟨hc, he⟩
    obtain ⟨f, m, r, hm⟩ := (tests_crash_exact p scripts ts file start hg).mpr hc
    rw [(tests_endless_exact p scripts ts file start hg).mpr he f m] at hm
    cases hm

/-- C153: testing a file crashes exactly if no environment can be made for it or its tests crash. -/
theorem file_crash_exact (p : Profile) (file : FmpFile) :
    (∃ fuel n r, testFile (fun env => evalCalc env fuel) p n file = .error (.panic r)) ↔
      (∀ start, Vm.generate file ≠ .ok start) ∨
      ∃ start, Vm.generate file = .ok start ∧ TestsCrash trueCalc p file.scripts file.tests start := by
  unfold testFile Vm.runTestsWithCleanup
  cases hg : Vm.generate file with
  | error e =>
    refine iff_of_true ⟨0, 0, ?_⟩ (.inl fun start h => by cases h)
    cases e with
    | panic r => exact ⟨r, rfl⟩
    | fuel =>
      exfalso
      unfold Vm.generate at hg
      exact fu_quiet (fun a => fu_pure _) hg
  | ok start =>
    simp only [Except.ok.injEq, exists_eq_left', ← tests_crash_exact p file.scripts file.tests file start hg]
    constructor
    · rintro ⟨fuel, n, r, h⟩
      refine .inr ⟨fuel, n, r, ?_⟩
      rw [ev_ok_bind] at h
      cases hr : start.runTests (fun env => evalCalc env fuel) p file.scripts n file.tests with
      | ok x => rw [hr] at h; cases h
      | error e => rw [hr] at h; cases h; rfl
    · rintro (h | ⟨fuel, n, r, h⟩)
      · exact absurd rfl (h start)
      · refine ⟨fuel, n, r, ?_⟩
        rw [ev_ok_bind, h]; rfl

/-- C153: and never ends exactly if its tests never end. -/
theorem file_endless_exact (p : Profile) (file : FmpFile) :
    (∀ fuel n, testFile (fun env => evalCalc env fuel) p n file = .error .fuel) ↔
      ∃ start, Vm.generate file = .ok start ∧
        (TestsRunOn trueCalc p file.scripts file.tests start ∨ TestsHang trueCalc p file.scripts file.tests start) := by
  unfold testFile Vm.runTestsWithCleanup
  cases hg : Vm.generate file with
  | error e =>
    refine iff_of_false (fun h => ?_) (by rintro ⟨start, h, -⟩; cases h)
    cases h 0 0
    unfold Vm.generate at hg
    exact fu_quiet (fun a => fu_pure _) hg
  | ok start =>
    simp only [Except.ok.injEq, exists_eq_left', ← tests_endless_exact p file.scripts file.tests file start hg]
    refine forall_congr' fun fuel => forall_congr' fun n => ?_
    rw [ev_ok_bind]
    cases hr : start.runTests (fun env => evalCalc env fuel) p file.scripts n file.tests with
    | ok x => exact iff_of_false (fun h => by cases h) (fun h => by cases h)
    | error e =>
      constructor
      · intro h; cases h; rfl
      · intro h; cases h; rfl

end

section Example
attribute [local instance] toyRt

/-- A test that ends a loop that was not begun crashes, after a first test that passes. -/
example (p : Profile) : ∃ start, Vm.generate {} = .ok start ∧ ∃ fuel n r,
    start.runTests (fun env => evalCalc env fuel) p [] n [testOf t!"a" [], testOf t!"b" [(.endLoop, [])]] = .error (.panic r) := by
  refine ⟨_, rfl, (tests_crash_exact p [] _ {} _ rfl).mpr ?_⟩
  exact ⟨_, instr .endLoop [], .later (.return rfl rfl rfl (.finished rfl)) (.here .here), rfl, ⟨t!"b", 0, [], rfl, rfl⟩,
    .noLoop rfl rfl, hang_none (by decide) rfl⟩

/-- A test with an assertion that is a single opening parenthesis never ends, but does not go on to further steps. -/
example (p : Profile) : ∃ start, Vm.generate {} = .ok start ∧
    (∀ fuel n, start.runTests (fun env => evalCalc env fuel) p [] n [testOf t!"a" [(.assert, [t!"("])]] = .error .fuel) ∧
    ¬TestsCrash trueCalc p [] [testOf t!"a" [(.assert, [t!"("])]] start := by
  refine ⟨_, rfl, ?_⟩
  have h : ∀ start : Vm, Vm.generate {} = .ok start → TestsHang trueCalc p [] [testOf t!"a" [(.assert, [t!"("])]] start := by
    intro start hs
    cases hs
    refine ⟨_, instr .assert [t!"("], .here .here, rfl, ⟨t!"a", 0, [], rfl, rfl⟩, .value 0 (by decide) ⟨t!"(", rfl, ?_⟩ ?_⟩
    · refine trueCalc_fuel.mpr ((text_endless_exact _ _).mpr ⟨[⟨.openParen, []⟩], (lexCalc_iff _ _).mp (by decide +kernel), .inl ?_⟩)
      exact .first (by decide) (.first (by decide) (.first (by decide) (.first (by decide) (.here rfl))))
    · intro j _ hj; omega
  exact ⟨(tests_endless_exact p [] _ {} _ rfl).mpr (.inr (h _ rfl)),
    fun hc => (tests_one_of_four p [] _ {} _ rfl).2.2.2 ⟨hc, .inr (h _ rfl)⟩⟩

end Example

end BurnFm.Props
