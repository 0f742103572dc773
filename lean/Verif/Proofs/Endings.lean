import Verif.Spec.Endings
import Verif.Proofs.Verdicts
import Verif.Props.Crash

/-! The three endings of a run. -/

namespace BurnFm
open Spec

section
variable {ev : Calculator} {p : Profile} {scripts : HMap FScript}

theorem nextState_iff {u v : Vm} :
    NextState ev p scripts u v ↔ u.world.failed = false ∧ u.frames ≠ [] ∧ u.step ev p scripts = .ok v := by
  constructor
  · intro h
    cases h with
    | step hf hs hd =>
      obtain ⟨a, b, c, hu, -⟩ := id hs
      exact ⟨hf, by rw [hu]; simp, (Props.step_exact ev p scripts u v _ hs).mpr hd⟩
    | «return» hf hfr hs =>
      exact ⟨hf, by rw [hfr]; simp, (Props.script_end_exact ev p scripts u _ _ _ hfr hs).mpr rfl⟩
  · rintro ⟨hf, hfr, hv⟩
    rcases Props.at_step_or_end scripts u hfr with ⟨s, hs⟩ | hs
    · exact .step hf hs ((Props.step_exact ev p scripts u v s hs).mp hv)
    · cases hu : u.frames with
      | nil => exact absurd hu hfr
      | cons f below =>
        have := (Props.script_end_exact ev p scripts u v f below hu hs).mp hv
        subst this
        exact .return hf hu hs

theorem nextState_unique {u v v' : Vm} (h : NextState ev p scripts u v) (h' : NextState ev p scripts u v') : v = v' := by
  have h1 := (nextState_iff.mp h).2.2
  rw [(nextState_iff.mp h').2.2] at h1
  exact (Except.ok.inj h1).symm

theorem runOf_next {u v w : Vm} (h : NextState ev p scripts u v) (h' : RunOf ev p scripts v w) : RunOf ev p scripts u w := by
  cases h with
  | step hf hs hd => exact .step hf hs hd h'
  | «return» hf hfr hs => exact .return hf hfr hs h'

/-- A run is over, or has a first step. -/
theorem runOf_cases {u w : Vm} (h : RunOf ev p scripts u w) :
    (u.world.failed = true ∨ u.frames = []) ∧ w = u ∨ ∃ v, NextState ev p scripts u v ∧ RunOf ev p scripts v w := by
  cases h with
  | failed h => exact .inl ⟨.inl h, rfl⟩
  | finished h => exact .inl ⟨.inr h, rfl⟩
  | step hf hs hd hr => exact .inr ⟨_, .step hf hs hd, hr⟩
  | «return» hf hfr hs hr => exact .inr ⟨_, .return hf hfr hs, hr⟩

theorem runOf_unique {u v v' : Vm} (h : RunOf ev p scripts u v) (h' : RunOf ev p scripts u v') : v = v' := by
  obtain ⟨n, hn⟩ := (Props.run_exact ev p scripts u v).mpr h
  obtain ⟨m, hm⟩ := (Props.run_exact ev p scripts u v').mpr h'
  have h1 := run_mono hn (Nat.le_max_left n m)
  rw [run_mono hm (Nat.le_max_right n m)] at h1
  exact (Except.ok.inj h1).symm

theorem not_over_next {u v : Vm} (h : NextState ev p scripts u v) : ¬(u.world.failed = true ∨ u.frames = []) := by
  obtain ⟨h1, h2, -⟩ := nextState_iff.mp h
  rw [h1]; simpa using h2

theorem runOf_not_runsOn {u w : Vm} (h : RunOf ev p scripts u w) : ¬RunsOn ev p scripts u := by
  have key : ∀ n (u : Vm), u.run ev p scripts n = .ok w → ¬RunsOn ev p scripts u := by
    intro n
    induction n with
    | zero =>
      rintro u hn ⟨f, rfl, hf⟩
      obtain ⟨h1, h2, -⟩ := nextState_iff.mp (hf 0)
      unfold Vm.run Vm.running at hn
      simp [h1, h2] at hn
    | succ n ih =>
      rintro u hn ⟨f, rfl, hf⟩
      obtain ⟨h1, h2, h3⟩ := nextState_iff.mp (hf 0)
      unfold Vm.run Vm.running at hn
      simp only [h1, h2, List.isEmpty_iff, Bool.not_false, Bool.true_and, decide_false, Bool.not_eq_true', h3] at hn
      rw [if_pos (by simp [h2])] at hn
      exact ih (f 1) hn ⟨fun i => f (i + 1), rfl, fun i => hf (i + 1)⟩
  obtain ⟨n, hn⟩ := (Props.run_exact ev p scripts u w).mpr h
  exact key n u hn

variable {ts : List FTest} {file : FmpFile} {start : Vm}

theorem testRun_next {u v : Vm} (h : TestRun ev p scripts ts start u) (hn : NextState ev p scripts u v) :
    TestRun ev p scripts ts start v := by
  obtain ⟨h1, h2, h3⟩ := nextState_iff.mp hn
  exact .step h h1 h2 h3

theorem testRun_runOf {u v : Vm} (h : TestRun ev p scripts ts start u) (hr : RunOf ev p scripts u v) :
    TestRun ev p scripts ts start v := by
  induction hr with
  | failed _ => exact h
  | finished _ => exact h
  | step hf hs hd _ ih => exact ih (testRun_next h (.step hf hs hd))
  | «return» hf hfr hs _ ih => exact ih (testRun_next h (.return hf hfr hs))

theorem reason_not_next (hg : Vm.generate file = .ok start) {u v : Vm} {s : ScriptStep} (h : TestRun ev p scripts ts start u)
    (hf : u.world.failed = false) (hs : AtStep scripts u s) (hr : StopReason ev p scripts u s) : ¬NextState ev p scripts u v := by
  intro hn
  obtain ⟨e, -, -, he⟩ := (Props.step_stops_iff ev p scripts ts file start u hg h).mpr ⟨hf, s, hs, hr⟩
  rw [(nextState_iff.mp hn).2.2] at he
  cases he

theorem breaks_not_runOf (hg : Vm.generate file = .ok start) {u w : Vm} (h : TestRun ev p scripts ts start u)
    (hb : Breaks ev p scripts u) : ¬RunOf ev p scripts u w := by
  induction hb with
  | here hf hs hr =>
    intro hw
    rcases runOf_cases hw with ⟨ho, -⟩ | ⟨v, hn, -⟩
    · obtain ⟨a, b, c, hu, -⟩ := hs
      rcases ho with ho | ho
      · rw [hf] at ho; cases ho
      · rw [hu] at ho; cases ho
    · exact reason_not_next hg h hf hs hr hn
  | later hn _ ih =>
    intro hw
    rcases runOf_cases hw with ⟨ho, -⟩ | ⟨v, hn', hv⟩
    · exact not_over_next hn ho
    · rw [nextState_unique hn' hn] at hv
      exact ih (testRun_next h hn) hv

theorem breaks_not_runsOn (hg : Vm.generate file = .ok start) {u : Vm} (h : TestRun ev p scripts ts start u)
    (hb : Breaks ev p scripts u) : ¬RunsOn ev p scripts u := by
  induction hb with
  | here hf hs hr =>
    rintro ⟨f, rfl, hn⟩
    exact reason_not_next hg h hf hs hr (hn 0)
  | later hn _ ih =>
    rintro ⟨f, rfl, hf⟩
    have e := nextState_unique hn (hf 0)
    subst e
    exact ih (testRun_next h hn) ⟨fun i => f (i + 1), rfl, fun i => hf (i + 1)⟩

/-- A run that neither ends nor comes to a reason to stop goes on forever. -/
theorem run_three (hg : Vm.generate file = .ok start) {u : Vm} (h : TestRun ev p scripts ts start u) :
    (∃ v, RunOf ev p scripts u v) ∨ Breaks ev p scripts u ∨ RunsOn ev p scripts u := by
  apply Classical.byContradiction
  intro hno
  have h1 : ¬∃ v, RunOf ev p scripts u v := fun a => hno (.inl a)
  have h2 : ¬Breaks ev p scripts u := fun a => hno (.inr (.inl a))
  refine hno (.inr (.inr ?_))
  let Open := { w : Vm // TestRun ev p scripts ts start w ∧ (¬∃ v, RunOf ev p scripts w v) ∧ ¬Breaks ev p scripts w }
  have next : ∀ w : Open, ∃ w' : Open, NextState ev p scripts w.1 w'.1 := by
    rintro ⟨w, hw, hr, hb⟩
    have hf : w.world.failed = false := by
      cases hf : w.world.failed with
      | false => rfl
      | true => exact absurd ⟨w, .failed hf⟩ hr
    have hfr : w.frames ≠ [] := fun e => hr ⟨w, .finished e⟩
    cases hst : w.step ev p scripts with
    | error e =>
      obtain ⟨-, s, hs, hsr⟩ := (Props.step_stops_iff ev p scripts ts file start w hg hw).mp ⟨e, hf, hfr, hst⟩
      exact absurd (.here hf hs hsr) hb
    | ok v =>
      have hn : NextState ev p scripts w v := nextState_iff.mpr ⟨hf, hfr, hst⟩
      exact ⟨⟨v, testRun_next hw hn, fun ⟨x, hx⟩ => hr ⟨x, runOf_next hn hx⟩, fun hx => hb (.later hn hx)⟩, hn⟩
  let f : Nat → Open := fun i => Nat.rec ⟨u, h, h1, h2⟩ (fun _ w => (next w).choose) i
  exact ⟨fun i => (f i).1, rfl, fun i => (next (f i)).choose_spec⟩

end

section
variable [Rt] {p : Profile} {scripts : HMap FScript}

/-- With too few rounds for a calculation a step is not finished, but it does not do something else. -/
theorem step_bounded {u v : Vm} (fuel : Nat) (h : NextState trueCalc p scripts u v) :
    u.step (fun env => evalCalc env fuel) p scripts = .error .fuel ∨ u.step (fun env => evalCalc env fuel) p scripts = .ok v := by
  have key : ∃ g, fuel ≤ g ∧ NextState (fun env => evalCalc env g) p scripts u v := by
    cases h with
    | step hf hs hd =>
      obtain ⟨N, hN⟩ := step_found hd
      exact ⟨max fuel N, by omega, .step hf hs (hN _ (by omega))⟩
    | «return» hf hfr hs => exact ⟨fuel, Nat.le_refl _, .return hf hfr hs⟩
  obtain ⟨g, hg, hn⟩ := key
  rcases step_leF (evalCalc_mono hg) p scripts u with e | e
  · exact .inl e
  · exact .inr (e.trans (nextState_iff.mp hn).2.2)

theorem runsOn_bounded {u : Vm} (fuel n : Nat) (h : RunsOn trueCalc p scripts u) :
    u.run (fun env => evalCalc env fuel) p scripts n = .error .fuel := by
  induction n generalizing u with
  | zero =>
    obtain ⟨f, rfl, hf⟩ := h
    obtain ⟨h1, h2, -⟩ := nextState_iff.mp (hf 0)
    unfold Vm.run Vm.running
    simp [h1, h2]
  | succ n ih =>
    obtain ⟨f, rfl, hf⟩ := h
    obtain ⟨h1, h2, -⟩ := nextState_iff.mp (hf 0)
    unfold Vm.run Vm.running
    rw [if_pos (by simp [h1, h2])]
    rcases step_bounded fuel (hf 0) with e | e
    · rw [e]; rfl
    · rw [e]; exact ih ⟨fun i => f (i + 1), rfl, fun i => hf (i + 1)⟩

/-- Also a run that ends is not finished or ends so. -/
theorem runOf_bounded {u v : Vm} (fuel n : Nat) (h : RunOf trueCalc p scripts u v) :
    u.run (fun env => evalCalc env fuel) p scripts n = .error .fuel ∨
      u.run (fun env => evalCalc env fuel) p scripts n = .ok v := by
  obtain ⟨N, hN⟩ := run_found h
  obtain ⟨m, hm⟩ := (Props.run_exact _ p scripts u v).mpr (hN (max fuel N) (by omega))
  rcases run_leF (evalCalc_mono (Nat.le_max_left fuel N)) p scripts (Nat.le_max_left n m) u with e | e
  · exact .inl e
  · exact .inr (e.trans (run_mono hm (Nat.le_max_right n m)))

end

end BurnFm
