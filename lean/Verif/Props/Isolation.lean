import Verif.Props.Vm

/-! Properties C48, C49: isolation of tests and script invocations. -/

namespace BurnFm.Props
open Spec

/-! ### C48 -/

/-- C48 is false: once a test has failed, every later test is reported as failed without being run. -/
theorem failed_test_fails_rest (ev : Calculator) (p : Profile) (scripts : HMap FScript) (n : Nat) (ts : List FTest)
    (vm : Vm) (hf : vm.world.failed = true) :
    ∃ last, vm.runTests ev p scripts n ts = .ok (ts.map (fun _ => false), last) := by
  induction ts generalizing vm with
  | nil => exact ⟨vm, rfl⟩
  | cons t ts ih =>
    have hf' : (vm.loadTest t).world.failed = true := hf
    obtain ⟨last, h⟩ := ih (vm.loadTest t) hf'
    refine ⟨last, ?_⟩
    unfold Vm.runTests
    rw [run_stopped (.inl hf'), ev_ok_bind, h, ev_ok_bind, hf']
    rfl

/-- C48, the part that holds: tests that only assert, show dialogs or contain comments, and pass, do not influence
the verdict of the test after them. Missing: tests that fail, set variables, or change data. -/
theorem verdict_independent_partial (ev : Calculator) (hown : OwnVariables ev) (p : Profile) (scripts : HMap FScript)
    (n : Nat) (ts : List FTest)
    (hin : ∀ t ∈ ts, ∀ s ∈ t.script.instructions,
      s.opcode ∈ [Instruction.assert, .showCustomDialog, .blankLineComment, .commentedOut])
    (vm mid : Vm) (hfr : vm.frames = []) (hvars : vm.world.vars = []) (hfail : vm.world.failed = false) (vs : List Bool)
    (h : vm.runTests ev p scripts n ts = .ok (vs, mid)) (hpass : ∀ v ∈ vs, v = true) (t : FTest) (b : Bool) (alone : Vm)
    (ht : vm.runTests ev p scripts n [t] = .ok ([b], alone)) :
    ∃ last, vm.runTests ev p scripts n (ts ++ [t]) = .ok (vs ++ [b], last) := by
  -- the verdict alone
  obtain ⟨r, hr, hb⟩ : ∃ r, (vm.loadTest t).run ev p scripts n = .ok r ∧ b = !r.world.failed := by
    unfold Vm.runTests at ht
    rw [ev_bind_ok] at ht
    obtain ⟨r, h1, h2⟩ := ht
    refine ⟨r, h1, ?_⟩
    unfold Vm.runTests at h2
    rw [ev_pure, ev_ok_bind] at h2
    injection h2 with h2
    injection h2 with h2 _
    injection h2 with h2 _
    exact h2.symm
  have hin' : ∀ t ∈ ts, ∀ s ∈ t.script.instructions, isInert s.opcode = true := by
    intro t ht s hs
    have := hin t ht s hs
    simp only [List.mem_cons, List.not_mem_nil, or_false] at this
    rcases this with h | h | h | h <;> rw [h] <;> rfl
  clear ht hin
  -- with some empty sets of variables to start with
  suffices H : ∀ (k : Nat) (o : List Message) (T : FScript) (vs : List Bool) (mid : Vm),
      ({ vm with test := T, world := { vm.world with vars := List.replicate k [], out := o } } : Vm).runTests ev p scripts n ts =
        .ok (vs, mid) → (∀ v ∈ vs, v = true) → ∃ last,
      ({ vm with test := T, world := { vm.world with vars := List.replicate k [], out := o } } : Vm).runTests ev p scripts n
        (ts ++ [t]) = .ok (vs ++ [b], last) by
    have e : ({ vm with test := vm.test, world := { vm.world with vars := List.replicate 0 [], out := vm.world.out } } : Vm) = vm := by
      rw [List.replicate_zero, ← hvars]
    have := H 0 vm.world.out vm.test vs mid
    rw [e] at this
    exact this h hpass
  clear h hpass vs mid
  induction ts with
  | nil =>
    intro k o T vs mid h _
    injection h with h
    injection h with h1 h2
    subst h1
    have e : ({ vm with test := T, world := { vm.world with vars := List.replicate k [], out := o } } : Vm).loadTest t =
        ext k [] o (vm.loadTest t) := by
      simp only [Vm.loadTest, ext, extW, List.append_nil, hvars, List.nil_append]
      rw [← List.replicate_succ', List.replicate_succ]
      rfl
    obtain ⟨o', hx⟩ := run_ext hown (k := k) (ls := []) (o := o) (by simp [Vm.loadTest, hfr, hvars]) hr
    refine ⟨ext k [] o' r, ?_⟩
    rw [List.nil_append]
    unfold Vm.runTests
    rw [e, hx, ev_ok_bind]
    unfold Vm.runTests
    rw [ev_pure, ev_ok_bind, hb]
    rfl
  | cons t0 ts ih =>
    intro k o T vs mid h hp
    unfold Vm.runTests at h
    rw [ev_bind_ok] at h
    obtain ⟨m1, h1, h2⟩ := h
    rw [ev_bind_ok] at h2
    obtain ⟨⟨vs', mid'⟩, h3, h4⟩ := h2
    injection h4 with h4
    injection h4 with h4 h5
    subst h4
    have hm : m1.world.failed = false := by
      have := hp (!m1.world.failed) (by simp)
      simpa using this
    obtain ⟨o', e⟩ := run_inert (name := t0.script.name) (ip := 0) (by simp [Vm.loadTest, hfr]) (hin' t0 (by simp)) h1 hm
    have e' : m1 = { vm with
        test := t0.script, world := { vm.world with vars := List.replicate (k + 1) [], out := o' } } := by
      rw [e]
      simp only [Vm.loadTest, ← List.replicate_succ', hfr]
    rw [e'] at h3
    obtain ⟨last, h6⟩ := ih (fun t ht => hin' t (by simp [ht])) (k + 1) o' t0.script vs' mid' h3
      (fun v hv => hp v (by simp [hv]))
    refine ⟨last, ?_⟩
    rw [List.cons_append]
    unfold Vm.runTests
    rw [h1, ev_ok_bind, e', h6, ev_ok_bind]
    simp only [List.cons_append]
    rfl

/-! ### C49 -/

/-- C49, the part that holds: a script that is called when no other script has been called at this depth before
starts without variables. Missing: the calls after that. -/
theorem invocation_starts_empty_partial (ev : Calculator) (p : Profile) (scripts : HMap FScript) (u v : Vm)
    (h : u.step ev p scripts = .ok v) (hcall : u.frames.length < v.frames.length)
    (hfirst : u.world.vars.length = u.frames.length) : v.world.vars[v.frames.length - 1]? = some [] := by
  obtain ⟨name, ip, below, hfr, ⟨-, rfl⟩ | ⟨s, -, sh, -⟩⟩ := step_cases h
  · rw [hfr] at hcall; simp at hcall; omega
  · rw [hfr] at hcall hfirst
    rcases sh.frames with ⟨i, h⟩ | ⟨hp, hv, callee, h⟩
    · rw [h] at hcall; simp at hcall
    · rw [h, hv]
      simp only [List.length_cons, Nat.add_sub_cancel] at hfirst ⊢
      rw [← hfirst]
      simp

/-- C49 is false: a script called at a depth at which a script has been called before sees the variables that one
left. -/
theorem invocation_sees_old_variables (ev : Calculator) (p : Profile) (scripts : HMap FScript) (u v : Vm)
    (h : u.step ev p scripts = .ok v) (hcall : u.frames.length < v.frames.length) (old : SMap Str)
    (hold : u.world.vars[u.frames.length]? = some old) : v.world.vars[v.frames.length - 1]? = some old := by
  obtain ⟨name, ip, below, hfr, ⟨-, rfl⟩ | ⟨s, -, sh, -⟩⟩ := step_cases h
  · rw [hfr] at hcall; simp at hcall; omega
  · rw [hfr] at hcall hold
    rcases sh.frames with ⟨i, h⟩ | ⟨hp, hv, callee, h⟩
    · rw [h] at hcall; simp at hcall
    · rw [h, hv]
      simp only [List.length_cons, Nat.add_sub_cancel] at hold ⊢
      rw [List.getElem?_append_left (List.getElem?_eq_some_iff.mp hold).1]
      exact hold

/-- C49 is false for tests: a test sees the variables the first test of the run left. -/
theorem test_sees_old_variables (vm : Vm) (hfr : vm.frames = []) (old : SMap Str) (hold : vm.world.vars[0]? = some old)
    (t : FTest) : (vm.loadTest t).world.vars[(vm.loadTest t).frames.length - 1]? = some old := by
  simp only [Vm.loadTest, hfr, List.length_singleton, Nat.sub_self]
  rw [List.getElem?_append_left (List.getElem?_eq_some_iff.mp hold).1]
  exact hold

/-! ### Witnesses -/

/-- A test with the given steps. -/
def testOf (name : Str) (steps : List (Instruction × List Str)) : FTest :=
  { name := name, script := { name := name, instructions := steps.map (fun s => ⟨s.1, 0, s.2⟩) } }

/-- C48 is false: `assert(1 == 1)` passes alone and fails after `assert(1 == 2)`. -/
theorem verdict_refuted [LawfulRt] (fuel : Nat) (hf : 40 ≤ fuel) (p : Profile) :
    ∃ t t' : FTest,
      (Vm.runTests (fun env => evalCalc env fuel) p [] 10 [t'] {}).map (·.1) = .ok [true] ∧
      (Vm.runTests (fun env => evalCalc env fuel) p [] 10 [t, t'] {}).map (·.1) = .ok [false, false] := by
  refine ⟨testOf t!"a" [(.assert, [t!"1 == 2"])], testOf t!"b" [(.assert, [t!"1 == 1"])], ?_⟩
  obtain ⟨ev, hev⟩ : ∃ ev : Calculator, ev = fun env => evalCalc env fuel := ⟨_, rfl⟩
  have hT : ∀ env, ev env t!"1 == 1" = .ok t!"true" := fun env => by rw [hev]; exact evalCalc_true env hf
  have hF : ∀ env, ev env t!"1 == 2" = .ok t!"false" := fun env => by rw [hev]; exact evalCalc_false env hf
  rw [← hev]
  constructor
  · simp [Vm.runTests, Vm.loadTest, testOf, Vm.run, Vm.running, Vm.step, Vm.script, Vm.exec, effect, World.eval,
      ScriptStep.switch, idx, liftR, ev_ok_bind, ev_pure, hT, Except.map]
  · simp [Vm.runTests, Vm.loadTest, testOf, Vm.run, Vm.running, Vm.step, Vm.script, Vm.exec, effect, World.eval,
      ScriptStep.switch, idx, liftR, ev_ok_bind, ev_pure, hF, Except.map]

/-- C48 is false also for tests that pass: `assert(x != 5)` passes alone and fails after `set_variable(x, 5)`. -/
theorem verdict_variable_refuted [LawfulRt] (fuel : Nat) (hf : 40 ≤ fuel) (p : Profile) :
    ∃ t t' : FTest,
      (Vm.runTests (fun env => evalCalc env fuel) p [] 10 [t'] {}).map (·.1) = .ok [true] ∧
      (Vm.runTests (fun env => evalCalc env fuel) p [] 10 [t, t'] {}).map (·.1) = .ok [true, false] := by
  refine ⟨testOf t!"a" [(.setVariable, [t!"x", t!"5"])], testOf t!"b" [(.assert, [t!"x != 5"])], ?_⟩
  obtain ⟨ev, hev⟩ : ∃ ev : Calculator, ev = fun env => evalCalc env fuel := ⟨_, rfl⟩
  have h5 : ∀ env, ev env t!"5" = .ok t!"5" := fun env => by rw [hev]; exact evalCalc_five env hf
  have h1 : ev ⟨{}, 1, [[]]⟩ t!"x != 5" = .ok t!"true" := by
    rw [hev]; exact (evalCalc_x_ne_five _ hf).2 ⟨0, [], rfl, rfl⟩ rfl
  have h2 : ev ⟨{}, 1, [[(t!"x", t!"5")], []]⟩ t!"x != 5" = .ok t!"false" := by
    rw [hev]; exact (evalCalc_x_ne_five _ hf).1 rfl
  rw [← hev]
  constructor
  · simp [Vm.runTests, Vm.loadTest, testOf, Vm.run, Vm.running, Vm.step, Vm.script, Vm.exec, effect, World.eval,
      ScriptStep.switch, idx, liftR, ev_ok_bind, ev_pure, h1, Except.map]
  · simp [Vm.runTests, Vm.loadTest, testOf, Vm.run, Vm.running, Vm.step, Vm.script, Vm.exec, effect, World.eval,
      ScriptStep.switch, idx, liftR, ev_ok_bind, ok_bind, ev_pure, h2, h5, modIdx, setIdx, SMap.insert, Except.map]

/-- C49 is false: a script that asserts `x != 5` and then sets `x` to 5 passes when it is called once, and fails
when it is called twice. -/
theorem invocation_refuted [LawfulRt] (fuel : Nat) (hf : 40 ≤ fuel) (p : Profile) :
    ∃ (s : FScript) (once twice : FTest),
      once.script.instructions ++ once.script.instructions = twice.script.instructions ∧
      (Vm.runTests (fun env => evalCalc env fuel) p [(1, s)] 10 [once] {}).map (·.1) = .ok [true] ∧
      (Vm.runTests (fun env => evalCalc env fuel) p [(1, s)] 10 [twice] {}).map (·.1) = .ok [false] := by
  refine ⟨(testOf t!"s" [(.assert, [t!"x != 5"]), (.setVariable, [t!"x", t!"5"])]).script,
    testOf t!"a" [(.performScript, [t!"\"s\""])],
    testOf t!"b" [(.performScript, [t!"\"s\""]), (.performScript, [t!"\"s\""])], rfl, ?_⟩
  obtain ⟨ev, hev⟩ : ∃ ev : Calculator, ev = fun env => evalCalc env fuel := ⟨_, rfl⟩
  have h5 : ∀ env, ev env t!"5" = .ok t!"5" := fun env => by rw [hev]; exact evalCalc_five env hf
  have hs : ∀ env, ev env t!"\"s\"" = .ok t!"\"s\"" := fun env => by
    rw [hev]; exact evalCalc_string (s := t!"s") (by decide) ⟨'s', by decide, rfl⟩ env (by omega)
  have h1 : ev ⟨{}, 2, [[], []]⟩ t!"x != 5" = .ok t!"true" := by
    rw [hev]; exact (evalCalc_x_ne_five _ hf).2 ⟨1, [], rfl, rfl⟩ rfl
  have h2 : ev ⟨{}, 2, [[], [(t!"x", t!"5")], []]⟩ t!"x != 5" = .ok t!"false" := by
    rw [hev]; exact (evalCalc_x_ne_five _ hf).1 rfl
  rw [← hev]
  constructor
  · simp [Vm.runTests, Vm.loadTest, testOf, Vm.run, Vm.running, Vm.step, Vm.script, Vm.exec, effect, World.eval,
      ScriptStep.switch, idx, liftR, ev_ok_bind, ok_bind, ev_pure, h1, h5, hs, modIdx, setIdx, SMap.insert, stripQuotes,
      Except.map]
  · simp [Vm.runTests, Vm.loadTest, testOf, Vm.run, Vm.running, Vm.step, Vm.script, Vm.exec, effect, World.eval,
      ScriptStep.switch, idx, liftR, ev_ok_bind, ok_bind, ev_pure, h1, h2, h5, hs, modIdx, setIdx, SMap.insert, stripQuotes,
      Except.map]

/-- C53 is false: the test `perform_script("s")` never ends if there is no script `s`. -/
theorem missing_script_refuted [LawfulRt] (fuel : Nat) (hf : 40 ≤ fuel) (p : Profile) :
    ∃ t : FTest, ∀ n, Vm.runTests (fun env => evalCalc env fuel) p [] n [t] {} = .error .fuel := by
  refine ⟨testOf t!"a" [(.performScript, [t!"\"s\""])], fun n => ?_⟩
  unfold Vm.runTests
  rw [missing_script_hangs (fun env => evalCalc env fuel) (evalCalc_own fuel) p [] _ ⟨.performScript, 0, [t!"\"s\""]⟩
    ⟨t!"a", 0, [], rfl, rfl⟩ rfl t!"\"s\"" t!"s" rfl ?_ (by simp) rfl (by decide) n]
  · rfl
  · exact evalCalc_string (s := t!"s") (by decide) ⟨'s', by decide, rfl⟩ _ (by omega)

/-- C54 is false: `exit_script()` followed by `assert(1 == 2)` fails. -/
theorem exit_script_refuted [LawfulRt] (fuel : Nat) (hf : 40 ≤ fuel) (p : Profile) :
    (Vm.runTests (fun env => evalCalc env fuel) p [] 10
      [testOf t!"a" [(.exitScript, []), (.assert, [t!"1 == 2"])]] {}).map (·.1) = .ok [false] := by
  obtain ⟨ev, hev⟩ : ∃ ev : Calculator, ev = fun env => evalCalc env fuel := ⟨_, rfl⟩
  have hF : ∀ env, ev env t!"1 == 2" = .ok t!"false" := fun env => by rw [hev]; exact evalCalc_false env hf
  rw [← hev]
  simp [Vm.runTests, Vm.loadTest, testOf, Vm.run, Vm.running, Vm.step, Vm.script, Vm.exec, effect, World.eval,
    ScriptStep.switch, idx, liftR, ev_ok_bind, ev_pure, hF, Except.map]

/-! ### Examples -/

section Example
attribute [local instance] toyRt

/-- The calculations of the examples. -/
def toyCalc : Calculator := fun env => evalCalc env 60

/-- `set_variable(x, 5)`, a call of `s`, and an assertion. -/
def callTest : FTest := testOf t!"t" [(.setVariable, [t!"x", t!"5"]), (.performScript, [t!"\"s\""]), (.assert, [t!"x != 5"])]

/-- A script that sets `x` too. -/
def callee : FScript := (testOf t!"s" [(.setVariable, [t!"x", t!"7"])]).script

/-- The state before the call, for `call_returns`: the caller has `x = 5`. -/
def beforeCall : Vm :=
  { frames := [(t!"t", 1)], test := callTest.script, world := { vars := [[(t!"x", t!"5")]] } }

example : ∃ v, beforeCall.step toyCalc .debug [(1, callee)] = .ok v ∧ v.frames = [(t!"s", 0), (t!"t", 2)] ∧
    (∃ e ∈ [(1, callee)], e.2.name = t!"s" ∧ v.script [(1, callee)] t!"s" [(t!"t", 2)] = e.2) ∧
    ∀ r, ExecutesAbove toyCalc .debug [(1, callee)] 1 v r → r.frames.length = 1 →
      r.frames = [(t!"t", 2)] ∧ ∀ i, i ≤ 0 → r.world.vars[i]? = beforeCall.world.vars[i]? :=
  call_returns toyCalc .debug [(1, callee)] beforeCall t!"t" t!"s" t!"\"s\"" 1 [] _ rfl rfl rfl rfl
    (by decide +kernel) ⟨_, List.mem_singleton.mpr rfl, rfl⟩ (by decide)

/-- The call returns, and the assertion then fails because the caller still has `x = 5`. -/
example : (Vm.runTests toyCalc .debug [(1, callee)] 20 [callTest] {}).map (·.1) = .ok [false] := by decide +kernel

/-- Verdicts: an assertion that holds, one that does not, and a script without assertions. -/
example : (Vm.runTests toyCalc .debug [] 20 [testOf t!"a" [(.assert, [t!"1 == 1"])], testOf t!"b" [],
    testOf t!"c" [(.setVariable, [t!"x", t!"5"]), (.assert, [t!"x != 5"])]] {}).map (·.1) = .ok [true, true, false] := by
  decide +kernel

/-- Independence of a test after two inert ones. -/
example : (Vm.runTests toyCalc .debug [] 20 [testOf t!"a" [(.assert, [t!"1 == 1"])],
    testOf t!"b" [(.showCustomDialog, [t!"5"]), (.commentedOut, [])], testOf t!"c" [(.assert, [t!"1 == 2"])]] {}).map (·.1) =
    .ok [true, true, false] := by decide +kernel

end Example

end BurnFm.Props
