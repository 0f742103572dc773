import Verif.Proofs.Verdicts
import Verif.Props.ProgramGrammar

/-! Property C150: the verdicts of any tests, from the texts of their calculations. -/

namespace BurnFm.Props
open Spec
variable [Rt]

/-- C150: with `trueCalc` the value of a parameter is what its text means. -/
theorem parameter_value_exact (u : Vm) (s : ScriptStep) (i : Nat) (v : Str) : HasValue trueCalc u s i v ↔
    ∃ c, s.switches[i]? = some c ∧ TextMeans ⟨u.world.db, u.frames.length, u.world.vars⟩ c v := by
  unfold HasValue World.eval
  simp only [trueCalc_iff]

/-- C150: whatever tests are run from whatever state, they give certain verdicts, and leave a certain state, exactly if the specification
of steps (C149) and of calculations (C142) say so. -/
theorem verdicts_exact (p : Profile) (scripts : HMap FScript) (ts : List FTest) (u v : Vm) (vs : List Bool) :
    (∃ fuel n, u.runTests (fun env => evalCalc env fuel) p scripts n ts = .ok (vs, v)) ↔
      TestsGive trueCalc p scripts ts u vs v := by
  constructor
  · rintro ⟨fuel, n, h⟩
    exact tests_true ((tests_exact _ p scripts ts u v vs).mp ⟨n, h⟩)
  · intro h
    obtain ⟨N, hN⟩ := tests_found h
    obtain ⟨n, hn⟩ := (tests_exact _ p scripts ts u v vs).mpr (hN N (Nat.le_refl N))
    exact ⟨N, n, hn⟩

/-- C150: the verdicts that the program shows for a file. -/
theorem file_verdicts_exact (p : Profile) (file : FmpFile) (vs : List Bool) :
    (∃ fuel n, testFile (fun env => evalCalc env fuel) p n file = .ok vs) ↔
      ∃ start v, Vm.generate file = .ok start ∧ TestsGive trueCalc p file.scripts file.tests start vs v := by
  simp only [← verdicts_exact]
  unfold testFile Vm.runTestsWithCleanup
  constructor
  · rintro ⟨fuel, n, h⟩
    simp only [ev_bind_ok] at h
    obtain ⟨start, hs, ⟨vs', w⟩, ⟨⟨vs'', v⟩, hv, e⟩, e'⟩ := h
    cases e; cases e'
    exact ⟨start, v, hs, fuel, n, hv⟩
  · rintro ⟨start, v, hs, fuel, n, hv⟩
    refine ⟨fuel, n, ?_⟩
    simp only [ev_bind_ok]
    exact ⟨start, hs, (vs, _), ⟨(vs, v), hv, rfl⟩, rfl⟩

/-- C150: the verdicts of a program given as a text that can be cut into tokens that declare something: it compiles to a file with
exactly what is declared, and the verdicts shown are exactly those of the tests in it. -/
theorem source_verdicts_exact (p : Profile) (text : Str) (tokens : List BurnTok) (ds : List Declared)
    (hc : ProgramCut [] 0 text tokens) (hd : ProgramOf tokens ds) :
    ∃ file, compileBurn p text = .ok file ∧ DeclaredFile ds file ∧
      ∀ vs, (∃ fuel n, testFile (fun env => evalCalc env fuel) p n file = .ok vs) ↔
        ∃ start v, Vm.generate file = .ok start ∧
          TestsGive trueCalc p file.scripts (ds.filterMap Declared.test?) start vs v := by
  obtain ⟨file, h1, h2⟩ := (program_text_compiles_exact p text).2 tokens ds hc hd
  refine ⟨file, h1, h2, fun vs => ?_⟩
  rw [file_verdicts_exact, h2.tests]

/-- C150: any other text has no verdicts. -/
theorem source_verdicts_only (p : Profile) (text : Str) (vs : List Bool)
    (h : ∃ file fuel n, compileBurn p text = .ok file ∧ testFile (fun env => evalCalc env fuel) p n file = .ok vs) :
    ∃ tokens ds, ProgramCut [] 0 text tokens ∧ ProgramOf tokens ds ∧ vs.length = (ds.filterMap Declared.test?).length := by
  obtain ⟨file, fuel, n, h1, h2⟩ := h
  obtain ⟨ts, ds, a, b, c⟩ := (program_text_compiles_exact p text).1 file h1
  obtain ⟨start, v, d, e⟩ := (file_verdicts_exact p file vs).mp ⟨fuel, n, h2⟩
  refine ⟨ts, ds, a, b, ?_⟩
  rw [← c.tests]
  clear h1 h2 c d
  generalize file.tests = tests at e
  induction e with
  | done => rfl
  | test _ _ ih => simp [ih]

/-- C150: a test has no verdict exactly if no state that the specification allows ends it: it crashes or goes on forever. -/
theorem no_verdict_iff (p : Profile) (scripts : HMap FScript) (ts : List FTest) (u : Vm) :
    (∀ fuel n, ∃ e, u.runTests (fun env => evalCalc env fuel) p scripts n ts = .error e) ↔
      ∀ vs v, ¬TestsGive trueCalc p scripts ts u vs v := by
  constructor
  · intro h vs v ht
    obtain ⟨fuel, n, hn⟩ := (verdicts_exact p scripts ts u v vs).mpr ht
    obtain ⟨e, he⟩ := h fuel n
    rw [hn] at he; cases he
  · intro h fuel n
    cases hr : u.runTests (fun env => evalCalc env fuel) p scripts n ts with
    | error e => exact ⟨e, rfl⟩
    | ok x => exact absurd ((verdicts_exact p scripts ts u x.2 x.1).mp ⟨fuel, n, hr⟩) (h x.1 x.2)

end BurnFm.Props

namespace BurnFm.Props
open Spec
section Example
attribute [local instance] toyRt

/-- The tangled test fails also in this sense. -/
example : ∃ v, TestsGive trueCalc .debug [] [tangled] {} [false] v := by
  have h : (match ({} : Vm).runTests (fun env => evalCalc env 60) .debug [] 9 [tangled] with
      | .ok (vs, _) => vs == [false] | _ => false) = true := by
    decide +kernel
  cases hr : ({} : Vm).runTests (fun env => evalCalc env 60) .debug [] 9 [tangled] with
  | error e => rw [hr] at h; cases h
  | ok x =>
    obtain ⟨vs, v⟩ := x
    rw [hr] at h
    simp at h
    subst h
    exact ⟨v, (verdicts_exact .debug [] [tangled] {} v [false]).mp ⟨60, 9, hr⟩⟩

/-- The example in the repository meets the hypotheses of `source_verdicts_exact`, and its test passes. -/
example : ∃ tokens ds file start v, ProgramCut [] 0 docExample tokens ∧ ProgramOf tokens ds ∧ DeclaredFile ds file ∧
    Vm.generate file = .ok start ∧ TestsGive trueCalc .debug file.scripts file.tests start [true] v := by
  have h : (match compileBurn .debug docExample with
      | .ok f => (match testFile (fun env => evalCalc env 60) .debug 20 f with | .ok vs => vs == [true] | _ => false)
      | _ => false) = true := by
    decide +kernel
  cases hc : compileBurn .debug docExample with
  | error e => rw [hc] at h; cases h
  | ok file =>
    rw [hc] at h
    dsimp only at h
    cases ht : testFile (fun env => evalCalc env 60) .debug 20 file with
    | error e => rw [ht] at h; cases h
    | ok vs =>
      rw [ht] at h
      simp at h
      subst h
      obtain ⟨ts, ds, a, b, c⟩ := (program_text_compiles_exact .debug docExample).1 file hc
      obtain ⟨start, v, d, e⟩ := (file_verdicts_exact .debug file [true]).mp ⟨60, 20, ht⟩
      exact ⟨ts, ds, file, start, v, a, b, c, d, e⟩

end Example
end BurnFm.Props
