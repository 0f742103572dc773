import Verif.Proofs.VmBack
import Mathlib.Data.List.Forall2
import Verif.Props.Isolation

/-! Properties C50, C51, C52: branches, loops and structured scripts. -/

namespace BurnFm.Props
open Spec

/-! ### C52 -/

/-- C52 (partial), from the structured script to the interpreter, for the script of a test or a called script: it
is executed as written, with the scripts it calls, and then control returns. Missing: scripts that are not orderly, with
nested loops, with if-chains that are not the last thing in the branch they are nested in, or with an exit in a branch
before an `else`: for these the property is false, see `nested_if_refuted`, `nested_loop_refuted`, `exit_in_if_refuted` and
`exit_flag_refuted`. -/
theorem script_runs_as_written_partial (ev : Calculator) (p : Profile) (scripts : HMap FScript) (env : Str → Option Prog)
    (ok : Bool → Taken → Taken → Str → Prop) (hl : Linked scripts env) (hok : OrderlyScripts ev env ok) (u : Vm) (name : Str)
    (below : List (Str × Nat)) (q : Prog) (a a' : Taken) (hfr : u.frames = (name, 0) :: below) (hb : a.Has u.branchTaken)
    (hf : u.world.failed = false) (hcode : (u.script scripts name below).instructions = q.code)
    (hq : Orderly ev ok true none .free a q a') (o : Outcome) (w' : World)
    (h : Runs ev p env (below.length + 1) q u.world o w') :
    ∃ v, Executes ev p scripts u v ∧ v.world = w' ∧
      (o = .done ∧ w'.failed = false ∧ v.frames = below ∧ a'.Has v.branchTaken ∨ o = .failed ∧ w'.failed = true) := by
  have hC : Code scripts name below u.test = [] ++ q.code ++ [] := by
    rw [List.nil_append, List.append_nil]; exact hcode
  have hu : u = St name below u.test 0 u.world u.loops u.branchTaken := by
    obtain ⟨fr, lo, br, te, wo⟩ := u
    dsimp only at hfr
    subst hfr; rfl
  have := (runs_sim (scripts := scripts) (T := u.test) hl hok h name below true none .free a a' [] [] 0 u.loops u.branchTaken
    rfl hq hf hC hb (fun x hx => by cases hx)).1
  rw [List.length_nil, ← hu, Nat.zero_add] at this
  unfold Gets at this
  cases o with
  | done =>
    obtain ⟨ls', b', h1, h2, -, h3⟩ := this
    exact ⟨_, h1.trans (pop_end h3 (by rw [hC]; simp)), rfl, .inl ⟨rfl, h3, rfl, h2⟩⟩
  | failed =>
    obtain ⟨v, h1, h2, h3⟩ := this
    exact ⟨v, h1, h2, .inr ⟨rfl, h3⟩⟩
  | exited =>
    obtain ⟨x, _, h1, _⟩ := this
    cases h1

/-- The script of a running test. -/
theorem test_code (scripts : HMap FScript) (vm : Vm) (t : FTest) (q : Prog) (hcode : t.script.instructions = q.code) :
    ((vm.loadTest t).script scripts t.script.name []).instructions = q.code := by
  unfold Vm.script
  rw [if_pos (show ([] : List (Str × Nat)).isEmpty = true from rfl)]
  exact hcode

/-- C52 (partial), one test, from the structured script to the run. -/
theorem test_of_runs (ev : Calculator) (p : Profile) (scripts : HMap FScript) (env : Str → Option Prog)
    (ok : Bool → Taken → Taken → Str → Prop) (hl : Linked scripts env) (hok : OrderlyScripts ev env ok) (vm : Vm) (t : FTest)
    (q : Prog) (a a' : Taken) (hcode : t.script.instructions = q.code) (hq : Orderly ev ok true none .free a q a')
    (hfr : vm.frames = []) (hb : a.Has vm.branchTaken) (hf : vm.world.failed = false) (o : Outcome) (w' : World)
    (h : Runs ev p env 1 q (vm.loadTest t).world o w') :
    ∃ n vm', (vm.loadTest t).run ev p scripts n = .ok vm' ∧ vm'.world = w' ∧
      (o = .done ∧ w'.failed = false ∧ vm'.frames = [] ∧ a'.Has vm'.branchTaken ∨ o = .failed ∧ w'.failed = true) := by
  obtain ⟨v, h1, h2, h3⟩ := script_runs_as_written_partial ev p scripts env ok hl hok (vm.loadTest t) t.script.name [] q a a'
    (by show _ :: vm.frames = _; rw [hfr]) hb hf (test_code scripts vm t q hcode) hq o w' h
  obtain ⟨k, hk⟩ := h1.run
  refine ⟨0 + k, v, ?_, h2, h3⟩
  rw [hk]
  apply run_stopped
  rcases h3 with ⟨-, -, h3, -⟩ | ⟨-, h3⟩
  · exact .inr h3
  · rw [h2]; exact .inl h3

/-- C52 (partial), one test, from the run to the structured script. -/
theorem runs_of_test (ev : Calculator) (p : Profile) (scripts : HMap FScript) (env : Str → Option Prog)
    (ok : Bool → Taken → Taken → Str → Prop) (hl : Linked scripts env) (hok : OrderlyScripts ev env ok) (vm : Vm) (t : FTest)
    (q : Prog) (a a' : Taken) (hcode : t.script.instructions = q.code) (hq : Orderly ev ok true none .free a q a')
    (hfr : vm.frames = []) (hb : a.Has vm.branchTaken) (hf : vm.world.failed = false) (n : Nat) (vm' : Vm)
    (h : (vm.loadTest t).run ev p scripts n = .ok vm') :
    ∃ o, Runs ev p env 1 q (vm.loadTest t).world o vm'.world ∧
      (o = .done ∧ vm'.world.failed = false ∧ vm'.frames = [] ∧ a'.Has vm'.branchTaken ∨ o = .failed ∧ vm'.world.failed = true) := by
  have hC : Code scripts t.script.name [] t.script = [] ++ q.code ++ [] := by
    rw [List.nil_append, List.append_nil]; exact test_code scripts vm t q hcode
  have hr' := h
  have hst : vm.loadTest t = St t.script.name [] t.script 0 (vm.loadTest t).world vm.loops vm.branchTaken := by
    unfold Vm.loadTest St; rw [hfr]
  rw [hst] at hr'
  obtain ⟨o, w'', h1⟩ := ((back_all (p := p) (T := t.script) hl hok n).1 q t.script.name [] (vm.loadTest t).world true none .free
    a a' [] [] 0 vm.loops vm.branchTaken vm' hq hf hC hb (fun x hx => by cases hx)).1 hr'
  obtain ⟨n', vm'', h2, h3, h4⟩ := test_of_runs ev p scripts env ok hl hok vm t q a a' hcode hq hfr hb hf o w'' h1
  have e : vm' = vm'' := by
    have h5 := run_mono h (Nat.le_max_left n n')
    have h6 := run_mono h2 (Nat.le_max_right n n')
    rw [h5] at h6
    injection h6
  subst e; subst h3
  exact ⟨o, h1, h4⟩

/-- C52 (partial): for the tests whose script is orderly, the run ends with a certain world (data, variables, verdict)
exactly if executing the structured script as written does. Missing: see `script_runs_as_written_partial`. -/
theorem structured_test_partial (ev : Calculator) (p : Profile) (scripts : HMap FScript) (env : Str → Option Prog)
    (ok : Bool → Taken → Taken → Str → Prop) (hl : Linked scripts env) (hok : OrderlyScripts ev env ok) (vm : Vm) (t : FTest)
    (q : Prog) (a a' : Taken) (hcode : t.script.instructions = q.code) (hq : Orderly ev ok true none .free a q a')
    (hfr : vm.frames = []) (hb : a.Has vm.branchTaken) (hf : vm.world.failed = false) (w' : World) :
    (∃ n vm', (vm.loadTest t).run ev p scripts n = .ok vm' ∧ vm'.world = w') ↔
      ∃ o, Runs ev p env 1 q (vm.loadTest t).world o w' := by
  constructor
  · rintro ⟨n, vm', hr, rfl⟩
    obtain ⟨o, h, -⟩ := runs_of_test ev p scripts env ok hl hok vm t q a a' hcode hq hfr hb hf n vm' hr
    exact ⟨o, h⟩
  · rintro ⟨o, h⟩
    obtain ⟨n, vm', h1, h2, -⟩ := test_of_runs ev p scripts env ok hl hok vm t q a a' hcode hq hfr hb hf o w' h
    exact ⟨n, vm', h1, h2⟩

/-- A test after the run of which the next one starts as described by `a`. -/
def OrderlyTest (ev : Calculator) (ok : Bool → Taken → Taken → Str → Prop) (a : Taken) (t : FTest) (q : Prog) : Prop :=
  t.script.instructions = q.code ∧ Orderly ev ok true none .free a q a

/-- If the verdict is failure, all later ones are. -/
theorem runTests_failed (ev : Calculator) (p : Profile) (scripts : HMap FScript) (n : Nat) (ts : List FTest) (vm : Vm)
    (hf : vm.world.failed = true) : ∃ last, vm.runTests ev p scripts n ts = .ok (ts.map (fun _ => false), last) := by
  induction ts generalizing vm with
  | nil => exact ⟨vm, rfl⟩
  | cons t ts ih =>
    obtain ⟨last, h⟩ := ih (vm.loadTest t) hf
    refine ⟨last, ?_⟩
    unfold Vm.runTests
    rw [run_stopped (vm := vm.loadTest t) (.inl hf), ev_ok_bind, h, ev_ok_bind, show (vm.loadTest t).world.failed = true from hf]
    rfl

/-- More rounds do not change a complete run of tests. -/
theorem runTests_mono {ev : Calculator} {p : Profile} {scripts : HMap FScript} {n m : Nat} (hm : n ≤ m) :
    ∀ {ts : List FTest} {vm : Vm} {r : List Bool × Vm}, vm.runTests ev p scripts n ts = .ok r →
      vm.runTests ev p scripts m ts = .ok r
  | [], _, _, h => h
  | t :: ts, vm, r, h => by
    unfold Vm.runTests at h ⊢
    rw [ev_bind_ok] at h
    obtain ⟨vm', h1, h2⟩ := h
    rw [ev_bind_ok] at h2
    obtain ⟨⟨vs, last⟩, h3, h4⟩ := h2
    rw [run_mono h1 hm, ev_ok_bind, runTests_mono hm h3, ev_ok_bind]
    exact h4

/-- C47, C52 (partial): orderly tests are executed as written, one after the other, up to the first one that fails, and the
later ones are reported as failed. Missing: scripts that are not orderly, see `script_runs_as_written_partial`; the tests
after the first failure, see `failed_test_fails_rest`. -/
theorem structured_verdicts_partial (ev : Calculator) (p : Profile) (scripts : HMap FScript) (env : Str → Option Prog)
    (ok : Bool → Taken → Taken → Str → Prop) (hl : Linked scripts env) (hok : OrderlyScripts ev env ok) (a : Taken)
    (ts : List FTest) (qs : List Prog) (hts : List.Forall₂ (OrderlyTest ev ok a) ts qs) (vm : Vm) (hfr : vm.frames = [])
    (hb : a.Has vm.branchTaken) (hf : vm.world.failed = false) (vs : List Bool) :
    (∃ n last, vm.runTests ev p scripts n ts = .ok (vs, last)) ↔ RunsTests ev p env qs vm.world vs := by
  induction hts generalizing vm vs with
  | nil =>
    constructor
    · rintro ⟨n, last, h⟩
      unfold Vm.runTests at h
      injection h with h; injection h with h
      subst h
      exact .nil
    · intro h
      cases h
      exact ⟨0, vm, rfl⟩
  | @cons t q ts qs ht hts ih =>
    constructor
    · rintro ⟨n, last, h⟩
      unfold Vm.runTests at h
      rw [ev_bind_ok] at h
      obtain ⟨vm', h1, h2⟩ := h
      rw [ev_bind_ok] at h2
      obtain ⟨⟨vs', last'⟩, h3, h4⟩ := h2
      injection h4 with h4; injection h4 with h4
      subst h4
      obtain ⟨o, h5, h6⟩ := runs_of_test ev p scripts env ok hl hok vm t q a a ht.1 ht.2 hfr hb hf n vm' h1
      rcases h6 with ⟨rfl, h7, h8, h9⟩ | ⟨rfl, h7⟩
      · rw [h7]
        exact .pass h5 ((ih vm' h8 h9 h7 vs').mp ⟨n, last', h3⟩)
      · rw [h7]
        obtain ⟨last2, h8⟩ := runTests_failed ev p scripts n ts vm' h7
        rw [h8] at h3
        injection h3 with h3; injection h3 with h3
        subst h3
        have : ts.map (fun _ => false) = qs.map (fun _ => false) := by
          simp [List.map_const', hts.length_eq]
        rw [this]
        exact .fail h5
    · intro h
      cases h with
      | pass h5 h6 =>
        obtain ⟨n, vm', h1, h2, h3⟩ := test_of_runs ev p scripts env ok hl hok vm t q a a ht.1 ht.2 hfr hb hf _ _ h5
        rcases h3 with ⟨-, h7, h8, h9⟩ | ⟨h3, -⟩
        · subst h2
          obtain ⟨m, last, h10⟩ := (ih vm' h8 h9 h7 _).mpr h6
          refine ⟨max n m, last, ?_⟩
          unfold Vm.runTests
          rw [run_mono h1 (Nat.le_max_left n m), ev_ok_bind, runTests_mono (Nat.le_max_right n m) h10, ev_ok_bind, h7]
          rfl
        · cases h3
      | fail h5 =>
        obtain ⟨n, vm', h1, h2, h3⟩ := test_of_runs ev p scripts env ok hl hok vm t q a a ht.1 ht.2 hfr hb hf _ _ h5
        rcases h3 with ⟨h3, -⟩ | ⟨-, h7⟩
        · cases h3
        · subst h2
          obtain ⟨last, h8⟩ := runTests_failed ev p scripts n ts vm' h7
          refine ⟨n, last, ?_⟩
          unfold Vm.runTests
          rw [h1, ev_ok_bind, h8, ev_ok_bind, h7]
          simp [List.map_const', hts.length_eq, ev_pure]

/-- The verdict of one test: it fails exactly if the structured script fails. -/
theorem structured_verdict_partial (ev : Calculator) (p : Profile) (scripts : HMap FScript) (env : Str → Option Prog)
    (ok : Bool → Taken → Taken → Str → Prop) (hl : Linked scripts env) (hok : OrderlyScripts ev env ok) (vm : Vm) (t : FTest)
    (q : Prog) (a a' : Taken) (hcode : t.script.instructions = q.code) (hq : Orderly ev ok true none .free a q a')
    (hfr : vm.frames = []) (hb : a.Has vm.branchTaken) (hf : vm.world.failed = false) (v : Bool) :
    (∃ n last, vm.runTests ev p scripts n [t] = .ok ([v], last)) ↔
      ∃ w', Runs ev p env 1 q (vm.loadTest t).world (if v then .done else .failed) w' := by
  have hrun : ∀ n vm', (vm.loadTest t).run ev p scripts n = .ok vm' →
      vm.runTests ev p scripts n [t] = .ok ([!vm'.world.failed], vm') := by
    intro n vm' h
    unfold Vm.runTests
    rw [h]
    rfl
  constructor
  · rintro ⟨n, last, h⟩
    unfold Vm.runTests at h
    rw [ev_bind_ok] at h
    obtain ⟨vm', h1, h2⟩ := h
    have hv : v = !vm'.world.failed := by
      have h3 := h2
      unfold Vm.runTests at h3
      rw [ev_pure, ev_ok_bind] at h3
      injection h3 with h3
      injection h3 with h3
      injection h3 with h3
      exact h3.symm
    obtain ⟨o, h, h3⟩ := runs_of_test ev p scripts env ok hl hok vm t q a a' hcode hq hfr hb hf n vm' h1
    refine ⟨vm'.world, ?_⟩
    rcases h3 with ⟨rfl, hw, -⟩ | ⟨rfl, hw⟩
    · rw [hv, hw]; exact h
    · rw [hv, hw]; exact h
  · rintro ⟨w', h⟩
    obtain ⟨n, vm', h1, h2, h3⟩ := test_of_runs ev p scripts env ok hl hok vm t q a a' hcode hq hfr hb hf _ _ h
    refine ⟨n, vm', ?_⟩
    rw [hrun n vm' h1, h2]
    rcases h3 with ⟨ho, hw, -⟩ | ⟨ho, hw⟩ <;> rw [hw] <;> cases v <;> simp_all

/-! ### Refutations -/

/-- A test with a structured script. -/
def progTest (q : Prog) : FTest := { script := { name := t!"a", instructions := q.code } }

/-- Each state goes to the next one. -/
def StepsTo (ev : Calculator) (p : Profile) : Vm → List Vm → Prop
  | _, [] => True
  | u, v :: vs => u.world.failed = false ∧ u.frames.isEmpty = false ∧ u.step ev p [] = .ok v ∧ StepsTo ev p v vs

theorem run_of_steps (ev : Calculator) (p : Profile) : ∀ (vs : List Vm) (u : Vm) (n : Nat), StepsTo ev p u vs →
    vs.length ≤ n → (((vs.getLastD u).world.failed = true) ∨ (vs.getLastD u).frames = []) →
    u.run ev p [] n = .ok (vs.getLastD u)
  | [], u, n, _, _, h => run_stopped h
  | v :: vs, u, n, h, hn, hl => by
    obtain ⟨h1, h2, h3, h4⟩ := h
    cases n with
    | zero => simp at hn
    | succ n =>
      have hl' : (v :: vs).getLastD u = vs.getLastD v := by cases vs <;> rfl
      rw [hl'] at hl ⊢
      unfold Vm.run
      rw [if_pos (by simp [Vm.running, h1, h2]), h3, ev_ok_bind]
      exact run_of_steps ev p vs v n h4 (by simpa using hn) hl

theorem verdict_of_steps (ev : Calculator) (p : Profile) (t : FTest) (vs : List Vm) {n : Nat} (hn : vs.length ≤ n)
    (h : StepsTo ev p (Vm.loadTest {} t) vs)
    (hl : (vs.getLastD (Vm.loadTest {} t)).world.failed = true ∨ (vs.getLastD (Vm.loadTest {} t)).frames = []) :
    (Vm.runTests ev p [] n [t] {}).map (·.1) = .ok [!(vs.getLastD (Vm.loadTest {} t)).world.failed] := by
  unfold Vm.runTests
  rw [run_of_steps ev p vs _ n h hn hl]
  rfl

/-- `if(1 == 1) { if(1 == 1) { } } else { assert(1 == 2) }` -/
def nestedIf : Prog :=
  .cond t!"1 == 1" (.cond t!"1 == 1" .nil .none .nil) (.else (.step (instr .assert [t!"1 == 2"]) .nil)) .nil

/-- `loop { if(1 == 1) { exit_loop_if(1 == 1) } } if(1 == 2) { } else { assert(1 == 2) }` -/
def exitInIf : Prog :=
  .loop (.cond t!"1 == 1" (.exitIf t!"1 == 1" .nil) .none .nil)
    (.cond t!"1 == 2" .nil (.else (.step (instr .assert [t!"1 == 2"]) .nil)) .nil)

/-- C50 and C52 are false for nested if-chains: in

    if(1 == 1) { if(1 == 1) { } } else { assert(1 == 2) }

the `else` branch is executed. -/
theorem nested_if_refuted [LawfulRt] (fuel : Nat) (hf : 40 ≤ fuel) (p : Profile) :
    ∃ q w', q.WellFormed false ∧ Runs (fun env => evalCalc env fuel) p (fun _ => none) 1 q { vars := [[]] } .done w' ∧
      (Vm.runTests (fun env => evalCalc env fuel) p [] 20 [progTest q] {}).map (·.1) = .ok [false] := by
  obtain ⟨ev, hev⟩ : ∃ ev : Calculator, ev = fun env => evalCalc env fuel := ⟨_, rfl⟩
  have hT : ∀ env, ev env t!"1 == 1" = .ok t!"true" := fun env => by rw [hev]; exact evalCalc_true env hf
  have hF : ∀ env, ev env t!"1 == 2" = .ok t!"false" := fun env => by rw [hev]; exact evalCalc_false env hf
  rw [← hev]
  refine ⟨nestedIf, _,
    ?_, .cond (.true (hT _) (.cond (.true (hT _) .nil) .nil)) .nil, ?_⟩
  · simp [nestedIf, Prog.WellFormed, Alt.WellFormed, Straight, instr]
  · refine verdict_of_steps ev p (progTest nestedIf) [St t!"a" [] (progTest nestedIf).script 1 { vars := [[]] } [] true,
      St t!"a" [] (progTest nestedIf).script 2 { vars := [[]] } [] true, St t!"a" [] (progTest nestedIf).script 3 { vars := [[]] } [] false,
      St t!"a" [] (progTest nestedIf).script 4 { vars := [[]] } [] false, St t!"a" [] (progTest nestedIf).script 5 { vars := [[]], failed := true, out := [.assertionFailed t!"1 == 2"] } [] false] (by simp) ?_ (.inl rfl)
    simp [nestedIf, Vm.loadTest, StepsTo, St, progTest, Prog.code, Alt.code, instr, Vm.step, Vm.script, Vm.exec,
      effect, World.eval, ScriptStep.switch, idx, liftR, ev_ok_bind, ev_pure, hT, hF]

/-- C51 and C52 are false for `exit_loop_if` inside an if-chain: after

    loop { if(1 == 1) { exit_loop_if(1 == 1) } }

the `else` branch of `if(1 == 2) { } else { assert(1 == 2) }` is skipped. -/
theorem exit_in_if_refuted [LawfulRt] (fuel : Nat) (hf : 40 ≤ fuel) (p : Profile) :
    ∃ q w', q.WellFormed false ∧ Runs (fun env => evalCalc env fuel) p (fun _ => none) 1 q { vars := [[]] } .failed w' ∧
      (Vm.runTests (fun env => evalCalc env fuel) p [] 20 [progTest q] {}).map (·.1) = .ok [true] := by
  obtain ⟨ev, hev⟩ : ∃ ev : Calculator, ev = fun env => evalCalc env fuel := ⟨_, rfl⟩
  have hT : ∀ env, ev env t!"1 == 1" = .ok t!"true" := fun env => by rw [hev]; exact evalCalc_true env hf
  have hF : ∀ env, ev env t!"1 == 2" = .ok t!"false" := fun env => by rw [hev]; exact evalCalc_false env hf
  rw [← hev]
  refine ⟨exitInIf, _, ?_,
    .loopExit (.condStop (.true (hT _) (.exitTrue (hT _))) (by decide))
      (.condStop (.false (hF _) (by decide) (.else (.stepFail (w' := { vars := [[]], failed := true, out := [.assertionFailed t!"1 == 2"] }) ?_ ?_ rfl))) (by decide)), ?_⟩
  · simp [exitInIf, Prog.WellFormed, Alt.WellFormed, Straight, instr]
  · simp [Straight, instr]
  · simp [effect, instr, World.eval, ScriptStep.switch, idx, liftR, ev_ok_bind, ev_pure, hF]
  · refine verdict_of_steps ev p (progTest exitInIf) [St t!"a" [] (progTest exitInIf).script 1 { vars := [[]] } [0] false,
      St t!"a" [] (progTest exitInIf).script 2 { vars := [[]] } [0] true, St t!"a" [] (progTest exitInIf).script 5 { vars := [[]] } [0] true,
      St t!"a" [] (progTest exitInIf).script 6 { vars := [[]] } [0] true,
      St t!"a" [] (progTest exitInIf).script 8 { vars := [[]] } [0] false, St t!"a" [] (progTest exitInIf).script 9 { vars := [[]] } [0] false,
      { St t!"a" [] (progTest exitInIf).script 9 { vars := [[]] } [0] false with frames := [] }] (by simp) ?_ (.inr rfl)
    simp [exitInIf, Vm.loadTest, StepsTo, St, progTest, Prog.code, Alt.code, instr, Vm.step, Vm.script, Vm.exec,
      World.eval, ScriptStep.switch, idx, liftR, ev_ok_bind, ev_pure, hT, hF, afterLoop, seek, isEndLoop, isBranch, isEndIf]

/-- C51 and C52 are false for nested loops:

    loop { exit_loop_if(1 == 1) loop { exit_loop_if(1 == 1) } }

never ends. -/
theorem nested_loop_refuted [LawfulRt] (fuel : Nat) (hf : 40 ≤ fuel) (p : Profile) :
    ∃ q w', q.WellFormed false ∧ Runs (fun env => evalCalc env fuel) p (fun _ => none) 1 q { vars := [[]] } .done w' ∧
      ∀ n, Vm.runTests (fun env => evalCalc env fuel) p [] n [progTest q] {} = .error .fuel := by
  obtain ⟨ev, hev⟩ : ∃ ev : Calculator, ev = fun env => evalCalc env fuel := ⟨_, rfl⟩
  have hT : ∀ env, ev env t!"1 == 1" = .ok t!"true" := fun env => by rw [hev]; exact evalCalc_true env hf
  rw [← hev]
  refine ⟨.loop (.exitIf t!"1 == 1" (.loop (.exitIf t!"1 == 1" .nil) .nil)) .nil, _, ?_,
    .loopExit (.exitTrue (hT _)) .nil, ?_⟩
  · simp [Prog.WellFormed]
  · obtain ⟨T, hT'⟩ : ∃ T : FScript, T = { name := t!"a", instructions :=
        (Prog.loop (.exitIf t!"1 == 1" (.loop (.exitIf t!"1 == 1" .nil) .nil)) .nil).code } := ⟨_, rfl⟩
    have key : ∀ n, (St t!"a" [] T 1 { vars := [[]] } [0] false).run ev p [] n = .error .fuel ∧
        (St t!"a" [] T 5 { vars := [[]] } [0] false).run ev p [] n = .error .fuel := by
      intro n
      induction n with
      | zero => exact ⟨rfl, rfl⟩
      | succ n ih =>
        constructor
        · unfold Vm.run
          rw [if_pos (by rfl)]
          have : (St t!"a" [] T 1 { vars := [[]] } [0] false).step ev p [] = .ok (St t!"a" [] T 5 { vars := [[]] } [0] false) := by
            simp [hT', St, Prog.code, instr, Vm.step, Vm.script, Vm.exec, World.eval, ScriptStep.switch, idx, liftR, ev_ok_bind,
              ev_pure, hT, afterLoop, seek, isEndLoop]
          rw [this, ev_ok_bind, ih.2]
        · unfold Vm.run
          rw [if_pos (by rfl)]
          have : (St t!"a" [] T 5 { vars := [[]] } [0] false).step ev p [] = .ok (St t!"a" [] T 1 { vars := [[]] } [0] false) := by
            simp [hT', St, Prog.code, instr, Vm.step, Vm.script, Vm.exec, liftR, ev_ok_bind, ev_pure, unwrap]
          rw [this, ev_ok_bind, ih.1]
    intro n
    unfold Vm.runTests progTest
    rw [← hT']
    have h0 : (Vm.loadTest {} { script := T }) = St t!"a" [] T 0 { vars := [[]] } [] false := by
      rw [hT']; rfl
    have : (Vm.loadTest {} { script := T }).run ev p [] n = .error .fuel := by
      rw [h0]
      cases n with
      | zero => rfl
      | succ n =>
        unfold Vm.run
        rw [if_pos (by rfl)]
        have : (St t!"a" [] T 0 { vars := [[]] } [] false).step ev p [] = .ok (St t!"a" [] T 1 { vars := [[]] } [0] false) := by
          simp [hT', St, Prog.code, instr, Vm.step, Vm.script, Vm.exec, ev_pure]
        rw [this, ev_ok_bind, (key n).1]
    rw [this]
    rfl

/-! ### C50 and C51 for one chain and one loop -/

/-- The structured script of a list of steps. -/
def ofSteps : List ScriptStep → Prog
  | [] => .nil
  | s :: ss => .step s (ofSteps ss)

theorem ofSteps_code : ∀ ss, (ofSteps ss).code = ss
  | [] => by rw [ofSteps, Prog.code]
  | s :: ss => by rw [ofSteps, Prog.code, ofSteps_code ss]

theorem ofSteps_orderly {ev : Calculator} {ok : Bool → Taken → Taken → Str → Prop} {l : Bool} {e : Option Taken} {pl : Place}
    {a : Taken} : ∀ ss, (∀ s ∈ ss, Straight s) → Orderly ev ok l e pl a (ofSteps ss) a
  | [], _ => .nil (.inr rfl)
  | s :: ss, h => .step (h s (by simp)) (ofSteps_orderly ss (fun x hx => h x (by simp [hx])))

theorem ofSteps_runs (ev : Calculator) (p : Profile) (env : Str → Option Prog) (d : Nat) :
    ∀ (ss : List ScriptStep) (w w' : World), (∀ s ∈ ss, Straight s) → w.failed = false → runBody ev p d ss w = .ok w' →
      Runs ev p env d (ofSteps ss) w (if w'.failed then .failed else .done) w'
  | [], w, w', _, hw, h => by
    rw [runBody] at h; injection h with h; subst h; rw [hw]; exact .nil
  | s :: ss, w, w', hs, hw, h => by
    rw [runBody, ev_bind_ok] at h
    obtain ⟨w1, h1, h2⟩ := h
    cases hf : w1.failed with
    | true =>
      rw [hf] at h2
      injection h2 with h2
      subst h2
      rw [hf]
      exact .stepFail (hs s (by simp)) h1 hf
    | false =>
      rw [hf] at h2
      exact .step (hs s (by simp)) h1 hf (ofSteps_runs ev p env d ss w1 w' (fun x hx => hs x (by simp [hx])) hf h2)

/-- The branches after the first. -/
def ofBranches (els : Option (List ScriptStep)) : List (Str × List ScriptStep) → Alt
  | [] => match els with | some e => .else (ofSteps e) | none => .none
  | (c, b) :: bs => .elif c (ofSteps b) (ofBranches els bs)

theorem ofBranches_code (els : Option (List ScriptStep)) : ∀ bs, (ofBranches els bs).code =
    bs.flatMap (fun x => instr .elseIf [x.1] :: x.2) ++ (match els with | some e => instr .else [] :: e | none => [])
  | [] => by cases els <;> simp [ofBranches, Alt.code, ofSteps_code]
  | (c, b) :: bs => by simp [ofBranches, Alt.code, ofSteps_code, ofBranches_code els bs]

theorem ofBranches_orderly {ev : Calculator} {ok : Bool → Taken → Taken → Str → Prop} {l : Bool} {e : Option Taken}
    (els : Option (List ScriptStep)) (he : ∀ e, els = some e → ∀ s ∈ e, Straight s) :
    ∀ bs : List (Str × List ScriptStep), (∀ x ∈ bs, ∀ s ∈ x.2, Straight s) → OrderlyAlt ev ok l e (ofBranches els bs)
  | [], _ => by
    cases els with
    | none => exact .none
    | some e => exact .else (ofSteps_orderly e (he e rfl))
  | (c, b) :: bs, h => by
    have h1 := ofBranches_orderly (ev := ev) (ok := ok) (l := l) (e := e) els he bs (fun x hx => h x (List.mem_cons_of_mem _ hx))
    have h2 : ∀ pl a, Orderly ev ok l e pl a (ofSteps b) a := fun pl a => ofSteps_orderly b (h (c, b) (List.mem_cons_self ..))
    rw [ofBranches]
    by_cases hn : ofBranches els bs = .none
    · rw [hn]
      exact .last (h2 _ _)
    · exact .elif hn (h2 _ _) h1

theorem ofBranches_runs (ev : Calculator) (p : Profile) (env : Str → Option Prog) (d : Nat) (w w' : World) (hw : w.failed = false)
    {bs : List (Str × List ScriptStep)} {els : Option (List ScriptStep)} {b : List ScriptStep} (h : Chosen ev w d bs els b)
    (hbs : ∀ x ∈ bs, ∀ s ∈ x.2, Straight s) (he : ∀ e, els = some e → ∀ s ∈ e, Straight s)
    (hr : runBody ev p d b w = .ok w') :
    RunsAlt ev p env d (ofBranches els bs) w (if w'.failed then .failed else .done) w' := by
  induction h with
  | here hc => exact .true hc (ofSteps_runs ev p env d _ w w' (hbs _ (List.mem_cons_self ..)) hw hr)
  | later hc hv _ ih => exact .false hc hv (ih (fun x hx => hbs x (List.mem_cons_of_mem _ hx)) he hr)
  | els => exact .else (ofSteps_runs ev p env d _ w w' (he _ rfl) hw hr)
  | none =>
    rw [runBody] at hr; injection hr with hr; subst hr; rw [hw]; exact .none

/-- No scripts. -/
theorem linked_none (scripts : HMap FScript) : Linked scripts (fun _ => none) := fun _ _ h => by cases h

theorem orderlyScripts_none (ev : Calculator) (env : Str → Option Prog) : OrderlyScripts ev env (fun _ _ _ _ => False) :=
  fun _ _ _ _ h => h.elim

/-- C50 (partial): anywhere in a script, an if-chain with bodies without control flow executes exactly the body of
the first branch whose condition holds, or the `else` body, and continues after the chain. Missing: bodies that contain
if-chains, see `nested_if_refuted`; for bodies that contain loops see `structured_test_partial`. -/
theorem if_chain_partial (ev : Calculator) (p : Profile) (scripts : HMap FScript) (u : Vm) (name : Str)
    (below : List (Str × Nat)) (pre post : List ScriptStep) (c : Str) (b : List ScriptStep)
    (more : List (Str × List ScriptStep)) (els : Option (List ScriptStep)) (hfr : u.frames = (name, pre.length) :: below)
    (hcode : (u.script scripts name below).instructions = pre ++ chainCode c b more els ++ post)
    (hb : u.branchTaken = false) (hf : u.world.failed = false) (hstraight : ∀ x ∈ (c, b) :: more, ∀ s ∈ x.2, Straight s)
    (helse : ∀ e, els = some e → ∀ s ∈ e, Straight s) (body : List ScriptStep)
    (hchosen : Chosen ev u.world (below.length + 1) ((c, b) :: more) els body) (w' : World)
    (hrun : runBody ev p (below.length + 1) body u.world = .ok w') :
    ∃ v, Executes ev p scripts u v ∧ v.world = w' ∧
      (w'.failed = false → v.frames = (name, pre.length + (chainCode c b more els).length) :: below ∧ v.branchTaken = false) := by
  have hq : (Prog.cond c (ofSteps b) (ofBranches els more) .nil).code = chainCode c b more els := by
    rw [Prog.code, ofSteps_code, ofBranches_code, Prog.code]; simp [chainCode]; cases els <;> rfl
  have hC : Code scripts name below u.test =
      pre ++ (Prog.cond c (ofSteps b) (ofBranches els more) .nil).code ++ post := by rw [hq]; exact hcode
  have hs : Orderly ev (fun _ _ _ _ => False) true none .free (some false) (.cond c (ofSteps b) (ofBranches els more) .nil)
      (some false) :=
    .cond trivial (fun _ => rfl) (ofBranches_orderly els helse ((c, b) :: more) hstraight) (.nil (.inr rfl))
  have hu : u = St name below u.test pre.length u.world u.loops false := by
    obtain ⟨fr, lo, br, te, wo⟩ := u
    dsimp only at hfr hb
    subst hfr; subst hb; rfl
  have hr : RunsAlt ev p (fun _ => none) (below.length + 1) (.elif c (ofSteps b) (ofBranches els more)) u.world
      (if w'.failed then .failed else .done) w' := ofBranches_runs ev p _ _ u.world w' hf hchosen hstraight helse hrun
  have sim : ∀ o, Runs ev p (fun _ => none) (below.length + 1) (.cond c (ofSteps b) (ofBranches els more) .nil) u.world o w' → _ :=
    fun o h => (runs_sim (T := u.test) (linked_none scripts) (orderlyScripts_none ev _) h name below true none .free
      (some false) (some false) pre post 0 u.loops false rfl hs hf hC (fun x hx => by cases hx; rfl) (fun x hx => by cases hx)).1
  cases hw' : w'.failed with
  | true =>
    rw [hw'] at hr
    have := sim _ (.condStop hr (by simp))
    rw [← hu] at this
    obtain ⟨v, h1, h2, -⟩ := this
    exact ⟨v, h1, h2, fun h => by cases h⟩
  | false =>
    rw [hw'] at hr
    have := sim _ (.cond hr .nil)
    rw [← hu, hq] at this
    obtain ⟨ls', b', h1, h2, -, -⟩ := this
    exact ⟨_, h1, rfl, fun _ => ⟨rfl, h2 false rfl⟩⟩

/-- A body followed by more. -/
def ofStepsThen (q : Prog) : List ScriptStep → Prog
  | [] => q
  | s :: ss => .step s (ofStepsThen q ss)

theorem ofStepsThen_code (q : Prog) : ∀ ss, (ofStepsThen q ss).code = ss ++ q.code
  | [] => rfl
  | s :: ss => by rw [ofStepsThen, Prog.code, ofStepsThen_code q ss]; rfl

theorem ofStepsThen_orderly {ev : Calculator} {ok : Bool → Taken → Taken → Str → Prop} {l : Bool} {e : Option Taken}
    {pl : Place} {a a' : Taken} {q : Prog} (hq : Orderly ev ok l e pl a q a') : ∀ ss, (∀ s ∈ ss, Straight s) →
    Orderly ev ok l e pl a (ofStepsThen q ss) a'
  | [], _ => hq
  | s :: ss, h => .step (h s (by simp)) (ofStepsThen_orderly hq ss (fun x hx => h x (by simp [hx])))

theorem ofStepsThen_runs (ev : Calculator) (p : Profile) (env : Str → Option Prog) (d : Nat) (q : Prog) (o : Outcome)
    (w'' : World) : ∀ (ss : List ScriptStep) (w w' : World), (∀ s ∈ ss, Straight s) → runBody ev p d ss w = .ok w' →
      w'.failed = false → Runs ev p env d q w' o w'' → Runs ev p env d (ofStepsThen q ss) w o w''
  | [], w, w', _, h, _, hr => by
    rw [runBody] at h; injection h with h; subst h; exact hr
  | s :: ss, w, w', hs, h, hw, hr => by
    rw [runBody, ev_bind_ok] at h
    obtain ⟨w1, h1, h2⟩ := h
    cases hf : w1.failed with
    | true =>
      rw [hf] at h2
      injection h2 with h2
      rw [h2, hw] at hf
      cases hf
    | false =>
      rw [hf] at h2
      exact .step (hs s (by simp)) h1 hf
        (ofStepsThen_runs ev p env d q o w'' ss w1 w' (fun x hx => hs x (by simp [hx])) h2 hw hr)

/-- C51 (partial): anywhere in a script, a loop with a body without nested loops and branches repeats its body from
the start, and when the condition of `exit_loop_if` holds control continues right after the loop. Missing: bodies that
contain loops, see `nested_loop_refuted`, and exits inside if-chains, see `exit_in_if_refuted`; for bodies with
if-chains see `structured_test_partial`. -/
theorem loop_partial (ev : Calculator) (p : Profile) (scripts : HMap FScript) (u : Vm) (name : Str)
    (below : List (Str × Nat)) (pre post b1 b2 : List ScriptStep) (c : Str) (hfr : u.frames = (name, pre.length) :: below)
    (hcode : (u.script scripts name below).instructions = pre ++ loopCode b1 c b2 ++ post)
    (hf : u.world.failed = false) (hb1 : ∀ s ∈ b1, Straight s) (hb2 : ∀ s ∈ b2, Straight s) (k : Nat) (w' : World)
    (h : Iterates ev p (below.length + 1) b1 c b2 k u.world w') :
    ∃ v, Executes ev p scripts u v ∧ v.world = w' ∧
      v.frames = (name, pre.length + (loopCode b1 c b2).length) :: below ∧ v.branchTaken = u.branchTaken := by
  have hq : (Prog.loop (ofStepsThen (.exitIf c (ofSteps b2)) b1) .nil).code = loopCode b1 c b2 := by
    rw [Prog.code, ofStepsThen_code, Prog.code, Prog.code, ofSteps_code]; simp [loopCode]
  have hC : Code scripts name below u.test =
      pre ++ (Prog.loop (ofStepsThen (.exitIf c (ofSteps b2)) b1) .nil).code ++ post := by rw [hq]; exact hcode
  have hs : Orderly ev (fun _ _ _ _ => False) true none .free (some u.branchTaken)
      (.loop (ofStepsThen (.exitIf c (ofSteps b2)) b1) .nil) (some u.branchTaken) :=
    .loop (x := some u.branchTaken) (y := some u.branchTaken) (.inr rfl)
      (ofStepsThen_orderly (.exitIf (.inr rfl) (ofSteps_orderly b2 hb2)) b1 hb1) (.nil (.inr rfl))
  have hu : u = St name below u.test pre.length u.world u.loops u.branchTaken := by
    obtain ⟨fr, lo, br, te, wo⟩ := u
    dsimp only at hfr
    subst hfr; rfl
  have hr : ∀ {k : Nat} {w w' : World}, Iterates ev p (below.length + 1) b1 c b2 k w w' →
      Runs ev p (fun _ => none) (below.length + 1) (.loop (ofStepsThen (.exitIf c (ofSteps b2)) b1) .nil) w .done w' := by
    intro k w w' h
    clear * - h hb1 hb2
    induction h with
    | exit h1 h2 h3 => exact .loopExit (ofStepsThen_runs ev p _ _ _ _ _ _ _ _ hb1 h1 h2 (.exitTrue h3)) .nil
    | again h1 h2 h3 h4 h5 h6 _ ih =>
      refine .loopAgain (ofStepsThen_runs ev p _ _ _ _ _ _ _ _ hb1 h1 h2 (.exitFalse h3 h4 ?_)) ih
      have := ofSteps_runs ev p (fun _ => none) _ _ _ _ hb2 h2 h5
      rw [h6] at this
      exact this
  have := (runs_sim (T := u.test) (linked_none scripts) (orderlyScripts_none ev _) (hr h) name below true none .free
    (some u.branchTaken) (some u.branchTaken) pre post 0 u.loops u.branchTaken rfl hs hf hC (fun x hx => by cases hx; rfl)
    (fun x hx => by cases hx)).1
  rw [← hu, hq] at this
  obtain ⟨ls', b', h1, h2, -, -⟩ := this
  exact ⟨_, h1, rfl, rfl, h2 _ rfl⟩

/-! ### Examples -/

section Example
attribute [local instance] toyRt

/-- `set_variable(x, 0) loop { exit_loop_if(x == 3) if(x == 1) { assert(x == 1) } set_variable(x, x + 1) }
if(x == 2) { assert(1 == 2) } elif(x == 3) { set_variable(y, 7) } else { assert(1 == 2) } assert(y == 7)` -/
def counting (last : Str) : Prog :=
  .step (instr .setVariable [t!"x", t!"0"]) (.loop (.exitIf t!"x == 3"
    (.cond t!"x == 1" (.step (instr .assert [t!"x == 1"]) .nil) .none
      (.step (instr .setVariable [t!"x", t!"x + 1"]) .nil)))
    (.cond t!"x == 2" (.step (instr .assert [t!"1 == 2"]) .nil)
      (.elif t!"x == 3" (.step (instr .setVariable [t!"y", t!"7"]) .nil) (.else (.step (instr .assert [t!"1 == 2"]) .nil)))
      (.step (instr .assert [last]) .nil)))

example (last : Str) : OrderlyTest toyCalc (fun _ _ _ _ => False) (some false) (progTest (counting last)) (counting last) := by
  refine ⟨rfl, .step (by decide) (.loop (x := some false) (y := some false) (.inr rfl) (.exitIf (.inr rfl)
    (.cond trivial (fun h => (h rfl).elim) (.last (t := some true) (.step (by decide) (.nil (.inr rfl))))
      (.step (by decide) (.nil (.inr rfl))))) ?_)⟩
  exact .cond trivial (fun _ => rfl) (.elif (by simp) (.step (by decide) (.nil (.inr rfl)))
    (.elif (by simp) (.step (by decide) (.nil (.inr rfl))) (.else (t := some false) (.step (by decide) (.nil (.inr rfl))))))
    (.step (by simp [Straight, instr]) (.nil (.inr rfl)))

set_option maxRecDepth 20000 in
example : (Vm.runTests toyCalc .debug [] 100 [progTest (counting t!"y == 7"), progTest (counting t!"y == 8")] {}).map (·.1) =
    .ok [true, false] := by decide +kernel

/-- A calculator that knows only variables and constants, for examples that are easy to evaluate. -/
def varCalc : Calculator := fun env text =>
  .ok (((env.vars[env.depth - 1]?).bind (·.get text)).getD text)

/-- Two rounds of `loop { set_variable(y, 1) exit_loop_if(x) set_variable(x, true) }`. -/
example : Iterates varCalc .debug 1 [instr .setVariable [t!"y", t!"1"]] t!"x" [instr .setVariable [t!"x", t!"true"]] 1
    { vars := [[]] } { vars := [[(t!"y", t!"1"), (t!"x", t!"true")]] } :=
  .again (w1 := { vars := [[(t!"y", t!"1")]] }) rfl rfl rfl (by decide)
    (w2 := { vars := [[(t!"y", t!"1"), (t!"x", t!"true")]] }) rfl rfl (.exit rfl rfl rfl)

/-- The second of three branches. -/
example : Chosen varCalc { vars := [[(t!"x", t!"true")]] } 1 [(t!"y", []), (t!"x", [instr .assert [t!"x"]]), (t!"true", [])]
    (some []) [instr .assert [t!"x"]] := .later rfl (by decide) (.here rfl)

example : runBody varCalc .debug 1 [instr .assert [t!"x"]] { vars := [[(t!"x", t!"true")]] } =
    .ok { vars := [[(t!"x", t!"true")]] } := rfl

end Example

end BurnFm.Props
