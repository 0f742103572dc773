import Verif.Props.ExitFlag
import Verif.Spec.Termination

/-! Property C89: scripts without loops end. -/

namespace BurnFm.Props
open Spec

/-! ### Steps -/

theorem bind_not_fuel {α β : Type} {x : Ev α} {f : α → Ev β} (hx : x ≠ .error .fuel)
    (hf : ∀ a, x = .ok a → f a ≠ .error .fuel) : (x >>= f) ≠ .error .fuel := by
  cases x with
  | ok a => exact hf a rfl
  | error e => intro h; apply hx; injection h with h; rw [h]

theorem lift_not_fuel {α : Type} (x : Res α) : liftR x ≠ .error .fuel := by
  cases x <;> simp [liftR]

theorem pure_not_fuel {α : Type} (a : α) : (pure a : Ev α) ≠ .error .fuel := by
  intro h; cases h

theorem switch_mem {s : ScriptStep} {i : Nat} {c : Str} (h : s.switch i = .ok c) : c ∈ s.switches := by
  unfold ScriptStep.switch idx at h
  split at h
  · rename_i x hx
    injection h with h
    subst h
    exact List.mem_of_getElem? hx
  · cases h

theorem effect_not_fuel {ev : Calculator} {s : ScriptStep} (hev : StepEnds ev s) (p : Profile) (d : Nat) (w : World) :
    effect ev p d s w ≠ .error .fuel := by
  have he : ∀ {i c}, s.switch i = .ok c → w.eval ev d c ≠ .error .fuel := fun h => hev _ (switch_mem h) _
  have hs : ∀ i, s.switch i ≠ .error .fuel := fun i => lift_not_fuel _
  unfold effect
  split
  all_goals
    repeat' first
      | exact pure_not_fuel _
      | exact he ‹_›
      | exact hs _
      | exact lift_not_fuel _
      | (refine bind_not_fuel ?_ (fun _ _ => ?_))
      | split

theorem exec_not_fuel {ev : Calculator} {p : Profile} {scripts : HMap FScript} {u : Vm} {name : Str}
    {ip : Nat} {below : List (Str × Nat)} {code : List ScriptStep} {s : ScriptStep} (hev : ∀ s ∈ code, StepEnds ev s)
    (hm : s ∈ code) : u.exec ev p scripts name ip below code s ≠ .error .fuel := by
  have he : ∀ {s i c}, s ∈ code → s.switch i = .ok c → u.world.eval ev (below.length + 1) c ≠ .error .fuel :=
    fun hm h => hev _ hm _ (switch_mem h) _
  have hs : ∀ (s : ScriptStep) i, s.switch i ≠ .error .fuel := fun s i => lift_not_fuel _
  have hf : effect ev p (below.length + 1) s u.world ≠ .error .fuel := effect_not_fuel (hev s hm) p _ _
  have hl : (if u.branchTaken then (code.length, code.getLastD s) else (ip, s)).2 ∈ code := by
    split
    · cases code with
      | nil => cases hm
      | cons a code => simpa [List.getLastD] using List.getLast_mem _
    · exact hm
  unfold Vm.exec
  dsimp only
  split
  all_goals
    repeat' first
      | exact pure_not_fuel _
      | exact he hm ‹_›
      | exact he hl ‹_›
      | exact hs _ _
      | exact hf
      | exact lift_not_fuel _
      | (refine bind_not_fuel ?_ (fun _ _ => ?_))
      | split

theorem seek_past {stop : Instruction → Bool} {code : List ScriptStep} {i : Nat} {s : ScriptStep} (hs : code[i]? = some s)
    (h : stop s.opcode = false) : i < seek stop code i := by
  obtain ⟨hl, hg⟩ := List.getElem?_eq_some_iff.mp hs
  unfold seek
  rw [List.drop_eq_getElem_cons hl, hg, List.takeWhile_cons]
  simp [h]

theorem seek_from {stop : Instruction → Bool} {code : List ScriptStep} {i : Nat} : i ≤ seek stop code i :=
  Nat.le_add_right _ _

/-- A step that is not a call and not the end of a loop goes forward in its script. -/
theorem exec_forward {ev : Calculator} {p : Profile} {scripts : HMap FScript} {u v : Vm} {name : Str} {ip : Nat}
    {below : List (Str × Nat)} {code : List ScriptStep} {s : ScriptStep} (hs : code[ip]? = some s)
    (h1 : s.opcode ≠ .performScript) (h2 : s.opcode ≠ .endLoop)
    (h : u.exec ev p scripts name ip below code s = .ok v) :
    ∃ j, v.frames = (name, j) :: below ∧ v.test = u.test ∧ ip < j := by
  have hlen : ip < code.length := (List.getElem?_eq_some_iff.mp hs).1
  have fin : ∀ {j : Nat} {w l b}, ip < j →
      { u with world := w, loops := l, branchTaken := b, frames := (name, j) :: below } = v →
      ∃ j, v.frames = (name, j) :: below ∧ v.test = u.test ∧ ip < j := by
    intro j w l b hj he
    subst he
    exact ⟨j, rfl, rfl, hj⟩
  have aft : ∀ {j : Nat}, afterLoop code ip = .ok j → ip < j := by
    intro j h
    unfold afterLoop at h
    split at h
    · injection h with h
      have := seek_from (stop := isEndLoop) (code := code) (i := ip)
      omega
    · cases h
  have plain : (do
      let w ← effect ev p (below.length + 1) s u.world
      pure { u with world := w, frames := (name, ip + 1) :: below }) = Except.ok v →
      ∃ j, v.frames = (name, j) :: below ∧ v.test = u.test ∧ ip < j := by
    intro h
    simp only [ev_bind_ok, ev_pure] at h
    obtain ⟨w, hw, he⟩ := h
    injection he with he
    exact fin (Nat.lt_succ_self _) he
  unfold Vm.exec at h
  dsimp only at h
  split at h
  case h_1 ho => exact absurd ho h1
  case h_2 ho =>
    split at h
    · simp only [ev_bind_ok, ev_pure, liftR_ok] at h
      obtain ⟨_, -, _, -, _, -, _, -, he⟩ := h
      split at he
      · injection he with he; exact fin (Nat.lt_succ_self _) he
      · simp only [ev_bind_ok, ev_pure, liftR_ok] at he
        obtain ⟨_, -, _, -, _, -, he⟩ := he
        split at he
        · simp only [ev_bind_ok, ev_pure, liftR_ok] at he
          obtain ⟨_, ha, he⟩ := he
          injection he with he; exact fin (aft ha) he
        · injection he with he; exact fin (Nat.lt_succ_self _) he
    · exact plain h
  case h_10 => exact plain h
  all_goals rename_i ho; simp only [ev_bind_ok, ev_pure, liftR_ok] at h
  · injection h with he; exact fin (Nat.lt_succ_self _) he
  · obtain ⟨_, -, _, -, he⟩ := h
    split at he <;> injection he with he
    · exact fin (Nat.lt_succ_self _) he
    · exact fin (seek_past hs (by rw [ho]; rfl)) he
  · split at h
    · injection h with he; exact fin (seek_past hs (by rw [ho]; rfl)) he
    · simp only [ev_bind_ok, ev_pure, liftR_ok] at h
      obtain ⟨_, -, _, -, he⟩ := h
      split at he <;> injection he with he
      · refine fin ?_ he
        split <;> simp <;> omega
      · refine fin ?_ he
        refine Nat.lt_of_lt_of_le ?_ seek_from
        split <;> simp <;> omega
  · split at h
    · split at h <;> injection h with he
      · exact fin (seek_past hs (by rw [ho]; rfl)) he
      · exact fin (by omega) he
    · injection h with he; exact fin (Nat.lt_succ_self _) he
  · injection h with he; exact fin (Nat.lt_succ_self _) he
  · exact absurd ho h2
  · obtain ⟨_, -, _, -, he⟩ := h
    split at he
    · simp only [ev_bind_ok, ev_pure, liftR_ok] at he
      obtain ⟨_, ha, he⟩ := he
      injection he with he; exact fin (aft ha) he
    · injection he with he; exact fin (Nat.lt_succ_self _) he

/-- Where a call goes. -/
theorem exec_call {ev : Calculator} {p : Profile} {scripts : HMap FScript} {u v : Vm} {name : Str} {ip : Nat}
    {below : List (Str × Nat)} {code : List ScriptStep} {s : ScriptStep} (h1 : s.opcode = .performScript)
    (hc : ∀ callee, Calls ev s callee → ∃ e ∈ scripts, e.2.name = callee)
    (h : u.exec ev p scripts name ip below code s = .ok v) :
    ∃ callee, Calls ev s callee ∧ v.frames = (callee, 0) :: (name, ip + 1) :: below ∧ v.test = u.test := by
  unfold Vm.exec at h
  rw [h1] at h
  simp only [ev_bind_ok, ev_pure, liftR_ok] at h
  obtain ⟨c, hsw, x, hx, callee, hq, he⟩ := h
  have hcall : Calls ev s callee := ⟨_, _, h1, c, x, hsw, hx, hq⟩
  obtain ⟨e, hm, hn⟩ := hc callee hcall
  rw [if_pos (List.any_eq_true.mpr ⟨e, hm, by simp [hn]⟩)] at he
  injection he with he
  subst he
  exact ⟨callee, hcall, rfl, rfl⟩

/-! ### Runs -/

/-- A run that ends. -/
def RunEnds (ev : Calculator) (p : Profile) (scripts : HMap FScript) (u : Vm) : Prop :=
  ∃ n, u.run ev p scripts n ≠ .error .fuel

theorem run_mono_ends {ev : Calculator} {p : Profile} {scripts : HMap FScript} {n m : Nat} {vm : Vm}
    (h : vm.run ev p scripts n ≠ .error .fuel) (hm : n ≤ m) : vm.run ev p scripts m = vm.run ev p scripts n := by
  induction n generalizing vm m with
  | zero =>
    unfold Vm.run at h
    split at h
    · exact absurd rfl h
    · rename_i hr
      cases m <;> simp [Vm.run, hr]
  | succ n ih =>
    cases m with
    | zero => omega
    | succ m =>
      unfold Vm.run at h ⊢
      split
      · rename_i hr
        rw [if_pos hr] at h
        cases hs : vm.step ev p scripts with
        | error e => rfl
        | ok u =>
          rw [hs] at h
          exact ih h (by omega)
      · rfl

theorem runEnds_step {ev : Calculator} {p : Profile} {scripts : HMap FScript} {u : Vm}
    (h1 : u.step ev p scripts ≠ .error .fuel) (h2 : ∀ v, u.step ev p scripts = .ok v → RunEnds ev p scripts v) :
    RunEnds ev p scripts u := by
  cases hs : u.step ev p scripts with
  | error e =>
    refine ⟨1, ?_⟩
    unfold Vm.run
    split
    · rw [hs]
      intro h
      apply h1
      rw [hs]
      injection h with h
      rw [h]
    · exact pure_not_fuel _
  | ok v =>
    obtain ⟨n, hn⟩ := h2 v hs
    refine ⟨n + 1, ?_⟩
    unfold Vm.run
    split
    · rw [hs]; exact hn
    · exact pure_not_fuel _

/-- A script whose calls go to scripts that end, ends. -/
theorem code_ends {ev : Calculator} {p : Profile} {scripts : HMap FScript} {ok : Str → Prop} {name : Str} {test : FScript}
    {below : List (Str × Nat)} {code : List ScriptStep}
    (hcode : ∀ u : Vm, u.test = test → (u.script scripts name below).instructions = code)
    (hl : Loopless ev scripts ok code)
    (callees : ∀ callee, ok callee → ∀ low, low ≠ [] → ∀ u : Vm, u.test = test → u.frames = (callee, 0) :: low →
      (∀ v : Vm, v.test = test → v.frames = low → RunEnds ev p scripts v) → RunEnds ev p scripts u)
    (back : ∀ v : Vm, v.test = test → v.frames = below → RunEnds ev p scripts v) :
    ∀ (k i : Nat) (u : Vm), u.test = test → u.frames = (name, i) :: below → code.length ≤ i + k → RunEnds ev p scripts u
  | k, i, u, ht, hf, hk => by
    have hstep : u.step ev p scripts = match code[i]? with
        | none => pure { u with frames := below }
        | some s => u.exec ev p scripts name i below code s := by
      unfold Vm.step
      rw [hf]
      simp only [hcode u ht]
      cases code[i]? <;> rfl
    cases hs : code[i]? with
    | none =>
      rw [hs] at hstep
      refine runEnds_step (by rw [hstep]; exact pure_not_fuel _) (fun v hv => ?_)
      rw [hstep] at hv
      injection hv with hv
      subst hv
      exact back _ ht rfl
    | some s =>
      rw [hs] at hstep
      have hm := List.mem_of_getElem? hs
      have hlt := (List.getElem?_eq_some_iff.mp hs).1
      obtain ⟨hne, hse, hcalls⟩ := hl s hm
      refine runEnds_step (by rw [hstep]; exact exec_not_fuel (fun s h => (hl s h).2.1) hm) (fun v hv => ?_)
      simp only [hstep] at hv
      cases k with
      | zero => omega
      | succ k =>
        by_cases hp : s.opcode = .performScript
        · obtain ⟨callee, h1, h2, h3⟩ := exec_call hp (fun c hc => (hcalls c hc).2) hv
          exact callees callee (hcalls callee h1).1 _ (by simp) v (h3.trans ht) h2
            (fun v ht' hf' => code_ends hcode hl callees back k (i + 1) v ht' hf' (by omega))
        · obtain ⟨j, h1, h2, h3⟩ := exec_forward hs hp hne hv
          exact code_ends hcode hl callees back k j v (h2.trans ht) h1 (by omega)

theorem script_ends {ev : Calculator} {p : Profile} {scripts : HMap FScript} {rank : Str → Nat} {test : FScript}
    (hall : ∀ e ∈ scripts, Loopless ev scripts (fun name => rank name < rank e.2.name) e.2.instructions) :
    ∀ (r : Nat) (callee : Str), rank callee < r → ∀ low, low ≠ [] → ∀ u : Vm, u.test = test →
      u.frames = (callee, 0) :: low → (∀ v : Vm, v.test = test → v.frames = low → RunEnds ev p scripts v) →
      RunEnds ev p scripts u
  | 0, _, h, _, _, _, _, _, _ => absurd h (Nat.not_lt_zero _)
  | r + 1, callee, hr, low, hlow, u, ht, hf, back => by
    have hemp : low.isEmpty = false := by
      cases low with
      | nil => exact absurd rfl hlow
      | cons a l => rfl
    cases he : scripts.find? (fun e => e.2.name == callee) with
    | none =>
      refine code_ends (ok := fun _ => False) (code := []) ?_ (by intro s h; cases h)
        (fun _ h => h.elim) back 0 0 u ht hf (by simp)
      intro u _
      simp [Vm.script, hemp, he]
    | some e =>
      have hmem := List.mem_of_find?_eq_some he
      have hname : e.2.name = callee := by simpa using List.find?_some he
      refine code_ends (code := e.2.instructions) ?_ (hall e hmem) ?_ back e.2.instructions.length 0 u ht hf (by omega)
      · intro u _
        simp [Vm.script, hemp, he]
      · intro callee' h'
        rw [hname] at h'
        exact script_ends hall r callee' (by omega)

/-- C89: if no script and no test contains a loop, all calls are calls of scripts of the file and there is no recursion
(each script calls only scripts of a smaller rank), then the run of the tests ends. -/
theorem loopless_tests_end (ev : Calculator) (p : Profile) (scripts : HMap FScript) (rank : Str → Nat) (ts : List FTest)
    (hall : ∀ e ∈ scripts, Loopless ev scripts (fun name => rank name < rank e.2.name) e.2.instructions)
    (hts : ∀ t ∈ ts, Loopless ev scripts (fun _ => True) t.script.instructions) (vm : Vm) (hv : vm.frames = []) :
    Ends ev p scripts ts vm := by
  have key : ∀ (ts : List FTest) (vm : Vm), (∀ t ∈ ts, Loopless ev scripts (fun _ => True) t.script.instructions) →
      (vm.world.failed = true ∨ vm.frames = []) → Ends ev p scripts ts vm := by
    intro ts
    induction ts with
    | nil => intro vm _ _; exact ⟨0, pure_not_fuel _⟩
    | cons t ts ih =>
      intro vm hts hv
      have h1 : RunEnds ev p scripts (vm.loadTest t) := by
        rcases hv with hv | hv
        · refine ⟨0, ?_⟩
          rw [run_stopped (vm := vm.loadTest t) (.inl hv)]
          exact pure_not_fuel _
        · refine code_ends (ok := fun _ => True) (name := t.script.name) (test := t.script) (below := []) (code := t.script.instructions)
            ?_ (hts t (by simp)) ?_ ?_ t.script.instructions.length 0 (vm.loadTest t) rfl ?_ (by omega)
          · intro u hu
            simp [Vm.script, hu]
          · intro callee _
            exact script_ends hall (rank callee + 1) callee (by omega)
          · intro v _ hf
            refine ⟨0, ?_⟩
            rw [run_stopped (vm := v) (.inr hf)]
            exact pure_not_fuel _
          · simp [Vm.loadTest, hv]
      obtain ⟨n, hn⟩ := h1
      cases hr : (vm.loadTest t).run ev p scripts n with
      | error e =>
        refine ⟨n, ?_⟩
        unfold Vm.runTests
        rw [hr]
        intro h
        injection h with h
        rw [hr, h] at hn
        exact hn rfl
      | ok v =>
        obtain ⟨m, hm⟩ := ih v (fun t h => hts t (by simp [h])) (run_ok_executes hr).2
        have hmono : ∀ (ts : List FTest) (v : Vm) (m k : Nat), v.runTests ev p scripts m ts ≠ .error .fuel → m ≤ k →
            v.runTests ev p scripts k ts = v.runTests ev p scripts m ts := by
          intro ts
          induction ts with
          | nil => intros; rfl
          | cons t ts ih =>
            intro v m k h hk
            unfold Vm.runTests at h ⊢
            have h1 : (v.loadTest t).run ev p scripts m ≠ .error .fuel := by
              intro e; rw [e] at h; exact h rfl
            rw [run_mono_ends h1 hk]
            cases hr : (v.loadTest t).run ev p scripts m with
            | error e => rfl
            | ok x =>
              rw [hr] at h
              have h2 : x.runTests ev p scripts m ts ≠ .error .fuel := by
                intro e; rw [ev_ok_bind, e] at h; exact h rfl
              rw [ev_ok_bind, ev_ok_bind, ih x m k h2 hk]
        refine ⟨n + m, ?_⟩
        unfold Vm.runTests
        rw [run_mono_ends hn (by omega), hr, ev_ok_bind, hmono ts v m (n + m) hm (by omega)]
        exact bind_not_fuel hm (fun _ _ => pure_not_fuel _)
  exact key ts vm hts (.inr hv)

/-! ### The hypotheses are needed -/

/-- A file whose only script is `s`, which calls itself. -/
def selfCalling : HMap FScript := [(1, { name := t!"s", instructions := [⟨.performScript, 0, [t!"\"s\""]⟩] })]

theorem self_call_runs (ev : Calculator) (p : Profile) (hs : ∀ env, ev env t!"\"s\"" = .ok t!"\"s\"") :
    ∀ (n : Nat) (u : Vm) (i : Nat) (low : List (Str × Nat)), u.world.failed = false →
      u.frames = (t!"s", 0) :: (t!"s", i) :: low → u.run ev p selfCalling n = .error .fuel := by
  intro n
  induction n with
  | zero => intro u i low hf hfr; simp [Vm.run, Vm.running, hf, hfr]
  | succ n ih =>
    intro u i low hf hfr
    have hr : u.running = true := by simp [Vm.running, hf, hfr]
    unfold Vm.run
    rw [if_pos hr]
    have : u.step ev p selfCalling =
        .ok { u with world := { u.world with vars := u.world.vars ++ [[]] },
                     frames := (t!"s", 0) :: (t!"s", 1) :: (t!"s", i) :: low } := by
      simp [selfCalling, Vm.step, hfr, Vm.script, Vm.exec, ScriptStep.switch, idx, liftR, World.eval, hs, stripQuotes,
        ev_ok_bind, ev_pure]
    rw [this]
    exact ih _ 1 _ hf rfl

/-- Without recursion is needed: a test that calls a script that calls itself never ends. -/
theorem self_call_never_ends [LawfulRt] (fuel : Nat) (hf : 40 ≤ fuel) (p : Profile) :
    ¬Ends (fun env => evalCalc env fuel) p selfCalling [testOf t!"s" [(.performScript, [t!"\"s\""])]] {} := by
  have hs : ∀ env, evalCalc env fuel t!"\"s\"" = .ok t!"\"s\"" := fun env =>
    evalCalc_string (s := t!"s") (by decide) ⟨'s', by decide, rfl⟩ _ (by omega)
  rintro ⟨n, hn⟩
  apply hn
  unfold Vm.runTests
  have : ∀ n, Vm.run (fun env => evalCalc env fuel) p selfCalling n
      (({} : Vm).loadTest (testOf t!"s" [(.performScript, [t!"\"s\""])])) = .error .fuel := by
    intro n
    cases n with
    | zero => simp [Vm.run, Vm.running, Vm.loadTest]
    | succ n =>
      unfold Vm.run
      rw [if_pos (by simp [Vm.running, Vm.loadTest])]
      have : (({} : Vm).loadTest (testOf t!"s" [(.performScript, [t!"\"s\""])])).step (fun env => evalCalc env fuel) p selfCalling =
          .ok { (({} : Vm).loadTest (testOf t!"s" [(.performScript, [t!"\"s\""])])) with
            world := { ({} : World) with vars := [[], []] }, frames := [(t!"s", 0), (t!"s", 1)] } := by
        simp [selfCalling, testOf, Vm.loadTest, Vm.step, Vm.script, Vm.exec, ScriptStep.switch, idx, liftR, World.eval, hs,
          stripQuotes, ev_ok_bind, ev_pure]
      rw [this]
      exact self_call_runs _ p hs n _ 1 [] rfl rfl
  rw [this]
  rfl

/-- Without loops is needed: a test that consists of an empty loop never ends. -/
theorem empty_loop_never_ends (ev : Calculator) (p : Profile) (scripts : HMap FScript) :
    ¬Ends ev p scripts [testOf t!"a" [(.loop, []), (.endLoop, [])]] {} := by
  have key : ∀ (n : Nat) (i : Nat) (l : List Nat), i < 2 →
      Vm.run ev p scripts n { (({} : Vm).loadTest (testOf t!"a" [(.loop, []), (.endLoop, [])])) with
        frames := [(t!"a", i)], loops := if i = 0 then l else 0 :: l } = .error .fuel := by
    intro n
    induction n with
    | zero => intro i l _; simp [Vm.run, Vm.running, Vm.loadTest]
    | succ n ih =>
      intro i l hi
      unfold Vm.run
      rw [if_pos (by simp [Vm.running, Vm.loadTest])]
      match i, hi with
      | 0, _ => exact ih 1 l (by omega)
      | 1, _ => exact ih 1 l (by omega)
  rintro ⟨n, hn⟩
  apply hn
  unfold Vm.runTests
  have := key n 0 [] (by omega)
  rw [if_pos rfl] at this
  have e : ({} : Vm).loadTest (testOf t!"a" [(.loop, []), (.endLoop, [])]) =
      { (({} : Vm).loadTest (testOf t!"a" [(.loop, []), (.endLoop, [])])) with frames := [(t!"a", 0)], loops := [] } := rfl
  rw [e, this]
  rfl

/-! ### Example -/

section Example

/-- A test that calls `set up`, which calls `go`; with branches and an assertion. -/
def chained : HMap FScript :=
  [(1, { name := t!"set up", instructions := [⟨.performScript, 0, [t!"\"go\""]⟩, ⟨.newRecordRequest, 0, []⟩] }),
   (2, { name := t!"go", instructions := [⟨.goToLayout, 0, [t!"\"l\""]⟩] })]

def chainedTest : FTest := testOf t!"t" [(.performScript, [t!"\"set up\""]), (.if, [t!"1 == 1"]), (.assert, [t!"1 == 1"]), (.endIf, [])]

/-- A calculator for the literals of the example. -/
def literalCalc : Calculator := fun _ c => if c = t!"1 == 1" then .ok t!"true" else .ok c

example : Ends literalCalc .debug chained [chainedTest] {} := by
  have hends : ∀ s, StepEnds literalCalc s := by
    intro s c _ env h
    unfold literalCalc at h
    split at h <;> cases h
  have hc : ∀ {s : ScriptStep} {name : Str}, Calls literalCalc s name → ∃ c, s.opcode = .performScript ∧ s.switches[0]? = some c ∧
      (stripQuotes c = .ok name ∨ c = t!"1 == 1") := by
    rintro s name ⟨d, w, ho, c, v, h1, h2, h3⟩
    refine ⟨c, ho, ?_, ?_⟩
    · unfold ScriptStep.switch idx at h1
      split at h1
      · rename_i x hx; rw [hx]; injection h1 with h1; rw [h1]
      · cases h1
    · unfold World.eval literalCalc at h2
      split at h2
      · exact .inr ‹_›
      · injection h2 with h2; exact .inl (h2 ▸ h3)
  refine loopless_tests_end literalCalc .debug chained (fun n => n.length) [chainedTest] ?_ ?_ {} rfl
  · intro e he
    simp only [chained, List.mem_cons, List.not_mem_nil, or_false] at he
    rcases he with rfl | rfl
    · intro s hs
      simp only [List.mem_cons, List.not_mem_nil, or_false] at hs
      refine ⟨by rcases hs with rfl | rfl <;> simp, hends s, fun name h => ?_⟩
      obtain ⟨c, h1, h2, h3⟩ := hc h
      rcases hs with rfl | rfl
      · simp at h2; subst h2
        rcases h3 with h3 | h3
        · have : name = t!"go" := by
            have e : stripQuotes t!"\"go\"" = .ok t!"go" := rfl
            rw [e] at h3; injection h3 with h3; exact h3.symm
          subst this
          exact ⟨by decide, _, List.mem_cons_of_mem _ (List.mem_singleton.mpr rfl), rfl⟩
        · cases h3
      · cases h1
    · intro s hs
      simp only [List.mem_cons, List.not_mem_nil, or_false] at hs
      subst hs
      refine ⟨by simp, hends _, fun name h => ?_⟩
      obtain ⟨c, h1, -⟩ := hc h
      cases h1
  · intro t ht s hs
    simp only [List.mem_singleton] at ht
    subst ht
    simp only [chainedTest, testOf, List.map_cons, List.map_nil, List.mem_cons, List.not_mem_nil, or_false] at hs
    refine ⟨by rcases hs with rfl | rfl | rfl | rfl <;> simp, hends s, fun name h => ⟨trivial, ?_⟩⟩
    obtain ⟨c, h1, h2, h3⟩ := hc h
    rcases hs with rfl | rfl | rfl | rfl
    · simp at h2; subst h2
      rcases h3 with h3 | h3
      · have : name = t!"set up" := by
          have e : stripQuotes t!"\"set up\"" = .ok t!"set up" := rfl
          rw [e] at h3; injection h3 with h3; exact h3.symm
        subst this
        exact ⟨_, List.mem_cons_self, rfl⟩
      · cases h3
    all_goals cases h1

end Example

end BurnFm.Props
