import Verif.Proofs.Vm
import Verif.Proofs.VmEval
import Verif.Proofs.VmExt
import Verif.Props.Find
import Verif.Spec.ToyRuntime

/-! Properties C34 (the step), C47, C53, C54, C55: running tests and calling scripts. -/

namespace BurnFm.Props
open Spec

/-! ### C47 -/

/-- C47: a run that ends has the verdict Fail exactly if an assertion that was executed gave `false`. -/
theorem test_fails_iff_assertion_fails (ev : Calculator) (p : Profile) (scripts : HMap FScript) (n : Nat) (vm vm' : Vm)
    (hf : vm.world.failed = false) (h : vm.run ev p scripts n = .ok vm') :
    vm'.world.failed = true ↔ ∃ u, Executes ev p scripts vm u ∧ FailsAssertion ev scripts u := by
  constructor
  · intro h'
    obtain ⟨he, -⟩ := run_ok_executes h
    clear h
    induction he with
    | here => rw [hf] at h'; cases h'
    | @step u u' v hf' hn hs _ ih =>
      cases hu : u'.world.failed with
      | true => exact ⟨u, .here, (step_failed hs hf').mp hu⟩
      | false =>
        obtain ⟨x, h1, h2⟩ := ih hu h'
        exact ⟨x, .step hf' hn hs h1, h2⟩
  · rintro ⟨u, he, hu⟩
    have hr := run_after h he
    obtain ⟨-, s, c, ⟨name, ip, below, hfr, -⟩, -⟩ := id hu
    obtain ⟨he', hstop⟩ := run_ok_executes hr
    cases he' with
    | here =>
      rcases hstop with h | h
      · exact h
      · rw [hfr] at h; cases h
    | step hf' hn hs he'' =>
      have := (step_failed hs hf').mpr hu
      cases he'' with
      | here => exact this
      | step hf'' _ _ _ => rw [this] at hf''; cases hf''

/-- C47: a failed assertion is the last step of the run. -/
theorem failed_assertion_ends_run (ev : Calculator) (p : Profile) (scripts : HMap FScript) (n : Nat) (vm vm' u : Vm)
    (h : vm.run ev p scripts n = .ok vm') (he : Executes ev p scripts vm u) (hu : FailsAssertion ev scripts u) :
    u.step ev p scripts = .ok vm' := by
  have hr := run_after h he
  obtain ⟨he', hstop⟩ := run_ok_executes hr
  obtain ⟨hf, s, c, ⟨name, ip, below, hfr, -⟩, -⟩ := id hu
  cases he' with
  | here =>
    rcases hstop with h | h
    · rw [hf] at h; cases h
    · rw [hfr] at h; cases h
  | step hf' hn hs he'' =>
    have := (step_failed hs hf').mpr hu
    cases he'' with
    | here => exact hs
    | step hf'' _ _ _ => rw [this] at hf''; cases hf''

/-- C47 for a whole test: the reported verdict of the first test of a run. -/
theorem first_verdict (ev : Calculator) (p : Profile) (scripts : HMap FScript) (n : Nat) (t : FTest) (ts : List FTest)
    (vm last : Vm) (v : Bool) (vs : List Bool) (hf : vm.world.failed = false)
    (h : vm.runTests ev p scripts n (t :: ts) = .ok (v :: vs, last)) :
    v = false ↔ ∃ u, Executes ev p scripts (vm.loadTest t) u ∧ FailsAssertion ev scripts u := by
  unfold Vm.runTests at h
  rw [ev_bind_ok] at h
  obtain ⟨vm', h1, h2⟩ := h
  rw [ev_bind_ok] at h2
  obtain ⟨⟨vs', last'⟩, -, h3⟩ := h2
  injection h3 with h3
  injection h3 with h3 h4
  injection h3 with h3 h5
  rw [← test_fails_iff_assertion_fails ev p scripts n (vm.loadTest t) vm' hf h1, ← h3]
  cases vm'.world.failed <;> simp

/-! ### C88: cleanup -/

/-- C88: running tests with cleanup gives the verdicts of the tests, and afterwards no table has a record; tables, fields
and everything else are as the tests left them. -/
theorem cleanup_removes_records (ev : Calculator) (p : Profile) (scripts : HMap FScript) (n : Nat) (ts : List FTest)
    (vm : Vm) (vs : List Bool) (last : Vm) (h : vm.runTestsWithCleanup ev p scripts n ts = .ok (vs, last)) :
    (∃ u, vm.runTests ev p scripts n ts = .ok (vs, u) ∧
      last.world.db.tables.map (fun t => (t.name, t.fields.map (·.name))) =
        u.world.db.tables.map (fun t => (t.name, t.fields.map (·.name))) ∧
      last = { u with world := { u.world with db := { u.world.db with tables := last.world.db.tables } } }) ∧
    ∀ t ∈ last.world.db.tables, ∀ f ∈ t.fields, f.records = [] := by
  unfold Vm.runTestsWithCleanup at h
  rw [ev_bind_ok] at h
  obtain ⟨⟨vs', u⟩, h1, h2⟩ := h
  injection h2 with h2
  injection h2 with h2 h3
  subst h2; subst h3
  refine ⟨⟨u, h1, ?_, rfl⟩, ?_⟩
  · simp [Database.clearRecords, Function.comp_def]
  · intro t ht f hf
    simp only [Database.clearRecords, List.mem_map] at ht
    obtain ⟨t', -, rfl⟩ := ht
    simp only [List.mem_map] at hf
    obtain ⟨f', -, rfl⟩ := hf
    rfl

/-- C88: the run with cleanup ends if and only if the run without does. -/
theorem cleanup_ends (ev : Calculator) (p : Profile) (scripts : HMap FScript) (n : Nat) (ts : List FTest) (vm : Vm)
    (vs : List Bool) : (∃ last, vm.runTestsWithCleanup ev p scripts n ts = .ok (vs, last)) ↔
      ∃ last, vm.runTests ev p scripts n ts = .ok (vs, last) := by
  constructor
  · rintro ⟨last, h⟩
    obtain ⟨⟨u, h1, -⟩, -⟩ := cleanup_removes_records ev p scripts n ts vm vs last h
    exact ⟨u, h1⟩
  · rintro ⟨last, h⟩
    unfold Vm.runTestsWithCleanup
    rw [h]
    exact ⟨_, rfl⟩

/-! ### C34: the step -/

/-- C34: a `perform_find` step performs the find with the collected criteria, clears them and returns to browse
mode. -/
theorem perform_find_step (ev : Calculator) (p : Profile) (scripts : HMap FScript) (u : Vm) (s : ScriptStep)
    (hs : AtStep scripts u s) (ho : s.opcode = .performFind) (hv : Valid u.world.db) (o : DOcc) (t : DTable)
    (hocc : u.world.db.occs[u.world.db.handle]? = some o) (ht : u.world.db.tables[o.tablePtr]? = some t)
    (hne : t.fields ≠ []) (cs : List Criterion) (hcs : u.world.criteria = cs.map Criterion.raw)
    (hc : ∀ c ∈ cs, Plain c ∧ ∃ f ∈ t.fields, f.name = c.field) :
    ∃ v o', u.step ev p scripts = .ok v ∧ v.world.findMode = false ∧ v.world.criteria = [] ∧
      v.world.db = { u.world.db with occs := u.world.db.occs.set u.world.db.handle o' } ∧
      o'.tablePtr = o.tablePtr ∧ o'.foundSet.Pairwise (· < ·) ∧
      ((∃ r, ∃ c ∈ cs, hasValue t c.field c.value r) → o'.recordPtr = 0 ∧
        ∀ r, r ∈ o'.foundSet ↔ ∃ c ∈ cs, hasValue t c.field c.value r) ∧
      ((¬ ∃ r, ∃ c ∈ cs, hasValue t c.field c.value r) → ∀ r, r ∈ o'.foundSet ↔ IsRecord u.world.db o.tablePtr r) := by
  obtain ⟨db', hdb⟩ := find_succeeds u.world.db o t hocc ht hne cs hc
  obtain ⟨o', h1, h2, -, h4, h5, h6⟩ := find_exact u.world.db db' hv o t hocc ht cs (fun c h => (hc c h).1) hdb
  obtain ⟨name, ip, below, hfr, hi⟩ := hs
  refine ⟨{ u with frames := (name, ip + 1) :: below
                   world := { u.world with db := db', findMode := false, criteria := [] } }, o', ?_, rfl, rfl, h1, h2, h4, h5, h6⟩
  unfold Vm.step
  rw [hfr]
  dsimp only
  rw [hi]
  dsimp only
  rw [exec_plain (by simp [isPlain, ho])]
  unfold effect
  rw [ho]
  dsimp only
  rw [hcs, hdb]
  rfl

/-- C34: in find mode a `set_field` step adds a criterion with the value of its calculation and changes nothing
else. -/
theorem set_field_collects (ev : Calculator) (p : Profile) (scripts : HMap FScript) (u : Vm) (s : ScriptStep)
    (hs : AtStep scripts u s) (ho : s.opcode = .setField) (hm : u.world.findMode = true) (name c val : Str)
    (hsw : s.switches = [name, c]) (he : u.world.eval ev u.frames.length c = .ok val) :
    ∃ v, u.step ev p scripts = .ok v ∧ v.world = { u.world with criteria := u.world.criteria ++ [(name, val)] } := by
  obtain ⟨sname, ip, below, hfr, hi⟩ := hs
  refine ⟨{ u with frames := (sname, ip + 1) :: below
                   world := { u.world with criteria := u.world.criteria ++ [(name, val)] } }, ?_, rfl⟩
  unfold Vm.step
  rw [hfr] at he ⊢
  dsimp only
  rw [hi]
  dsimp only
  rw [exec_plain (by simp [isPlain, ho])]
  unfold effect
  rw [ho]
  dsimp only
  unfold ScriptStep.switch
  rw [hsw]
  simp only [idx, List.getElem?_cons_zero, List.getElem?_cons_succ, liftR, ev_ok_bind]
  simp only [List.length_cons] at he
  rw [he, ev_ok_bind, if_pos hm]
  rfl

/-! ### C53 -/

/-- C53 is false: `perform_script` with a name that matches no script never ends, in every state in which the
running script has variables. -/
theorem missing_script_hangs (ev : Calculator) (hown : OwnVariables ev) (p : Profile) (scripts : HMap FScript) (u : Vm)
    (s : ScriptStep) (hs : AtStep scripts u s) (ho : s.opcode = .performScript) (c name : Str)
    (hc : s.switches[0]? = some c) (he : u.world.eval ev u.frames.length c = .ok ('"' :: name ++ ['"']))
    (hmiss : ∀ e ∈ scripts, e.2.name ≠ name) (hf : u.world.failed = false)
    (hvars : u.frames.length ≤ u.world.vars.length) (n : Nat) :
    u.run ev p scripts n = .error .fuel := by
  obtain ⟨sname, ip, below, hfr, hi⟩ := hs
  -- all that changes is the list of variables
  have key : ∀ n vars, u.world.vars[below.length]? = vars[below.length]? →
      ({ u with world := { u.world with vars := vars } } : Vm).run ev p scripts n = .error .fuel := by
    intro n
    induction n with
    | zero =>
      intro vars _
      unfold Vm.run
      rw [if_pos (by simp [Vm.running, hf, hfr])]
    | succ n ih =>
      intro vars hv
      have hlt : below.length < vars.length := by
        rw [hfr] at hvars
        have : u.world.vars[below.length]? = some u.world.vars[below.length] := 
          List.getElem?_eq_getElem (by simp at hvars; omega)
        rw [this] at hv
        exact (List.getElem?_eq_some_iff.mp hv.symm).1
      unfold Vm.run
      rw [if_pos (by simp [Vm.running, hf, hfr])]
      have hstep : ({ u with world := { u.world with vars := vars } } : Vm).step ev p scripts =
          .ok { u with world := { u.world with vars := vars ++ [[]] } } := by
        unfold Vm.step
        dsimp only
        rw [hfr]
        dsimp only
        have : (Vm.script scripts { u with frames := (sname, ip) :: below, world := { u.world with vars := vars } }
            sname below).instructions[ip]? = some s := hi
        rw [this]
        dsimp only
        unfold Vm.exec
        rw [ho]
        dsimp only
        unfold ScriptStep.switch idx
        rw [hc]
        simp only [liftR, ev_ok_bind]
        have heval : World.eval ev { u.world with vars := vars } (below.length + 1) c = .ok ('"' :: name ++ ['"']) := by
          rw [← he, hfr]
          exact (hown _ _ _ _ _ hv).symm
        rw [heval, ev_ok_bind]
        have hst : stripQuotes ('"' :: name ++ ['"']) = .ok name := by
          unfold stripQuotes
          simp
        have hany : scripts.any (fun e => e.2.name == name) = false := by
          rw [List.any_eq_false]
          intro e h
          simpa using hmiss e h
        rw [hst]
        simp only [ev_ok_bind, hany]
        rw [if_neg (by simp)]
        rfl
      rw [hstep]
      exact ih _ (by rw [hv, List.getElem?_append_left hlt])
  exact key n u.world.vars rfl

/-! ### C54 -/

/-- C54 is false: `exit_script` continues with the next step of the script, in every state. -/
theorem exit_script_continues (ev : Calculator) (p : Profile) (scripts : HMap FScript) (u : Vm) (name : Str) (ip : Nat)
    (below : List (Str × Nat)) (s : ScriptStep) (hfr : u.frames = (name, ip) :: below)
    (hi : (u.script scripts name below).instructions[ip]? = some s) (ho : s.opcode = .exitScript) :
    u.step ev p scripts = .ok { u with frames := (name, ip + 1) :: below } := by
  unfold Vm.step
  rw [hfr]
  dsimp only
  rw [hi]
  dsimp only
  rw [exec_plain (by simp [isPlain, ho])]
  unfold effect
  rw [ho]
  rfl

/-! ### C55 -/

/-- Every active script has its variables. -/
theorem frames_le_vars (ev : Calculator) (p : Profile) (scripts : HMap FScript) (u v : Vm)
    (h : Executes ev p scripts u v) (hu : u.frames.length ≤ u.world.vars.length) :
    v.frames.length ≤ v.world.vars.length := by
  induction h with
  | here => exact hu
  | step _ _ hs _ ih => exact ih (step_frames_le hu hs)

/-- C55: calling a script that exists starts that script; whenever it has ended, the caller goes on with its next
step, with its own variables and those of its callers as they were before the call. -/
theorem call_returns (ev : Calculator) (p : Profile) (scripts : HMap FScript) (u : Vm) (name callee c : Str) (ip : Nat)
    (below : List (Str × Nat)) (s : ScriptStep) (hfr : u.frames = (name, ip) :: below)
    (hi : (u.script scripts name below).instructions[ip]? = some s) (ho : s.opcode = .performScript)
    (hc : s.switches[0]? = some c) (he : u.world.eval ev u.frames.length c = .ok ('"' :: callee ++ ['"']))
    (hfound : ∃ e ∈ scripts, e.2.name = callee) (hvars : u.frames.length ≤ u.world.vars.length) :
    ∃ v, u.step ev p scripts = .ok v ∧ v.frames = (callee, 0) :: (name, ip + 1) :: below ∧
      (∃ e ∈ scripts, e.2.name = callee ∧ v.script scripts callee ((name, ip + 1) :: below) = e.2) ∧
      ∀ r, ExecutesAbove ev p scripts (below.length + 1) v r → r.frames.length = below.length + 1 →
        r.frames = (name, ip + 1) :: below ∧ ∀ i, i ≤ below.length → r.world.vars[i]? = u.world.vars[i]? := by
  have hany : scripts.any (fun e => e.2.name == callee) = true := by
    rw [List.any_eq_true]
    obtain ⟨e, h1, h2⟩ := hfound
    exact ⟨e, h1, by simp [h2]⟩
  refine ⟨{ u with frames := (callee, 0) :: (name, ip + 1) :: below
                   world := { u.world with vars := u.world.vars ++ [[]] } }, ?_, rfl, ?_, ?_⟩
  · unfold Vm.step
    rw [hfr]
    dsimp only
    rw [hi]
    dsimp only
    unfold Vm.exec
    rw [ho]
    dsimp only
    unfold ScriptStep.switch idx
    rw [hc]
    simp only [liftR, ev_ok_bind]
    rw [hfr, List.length_cons] at he
    rw [he, ev_ok_bind]
    have hst : stripQuotes ('"' :: callee ++ ['"']) = .ok callee := by
      unfold stripQuotes
      simp
    rw [hst]
    simp only [ev_ok_bind, hany]
    rfl
  · unfold Vm.script
    rw [if_neg (by simp)]
    cases hfind : scripts.find? (fun e => e.2.name == callee) with
    | none =>
      rw [List.find?_eq_none] at hfind
      obtain ⟨e, h1, h2⟩ := hfound
      exact absurd (by simp [h2]) (hfind e h1)
    | some e =>
      exact ⟨e, List.mem_of_find?_eq_some hfind, by simpa using List.find?_some hfind, rfl⟩
  · intro r hr hlen
    rw [hfr, List.length_cons] at hvars
    obtain ⟨⟨top, h1⟩, h2⟩ := executesAbove_low (top := [(callee, 0)]) (low := (name, ip + 1) :: below) rfl
      (by simpa using hr) (by simp; omega)
    have ht : top = [] := by
      rw [h1] at hlen
      simp only [List.length_append, List.length_cons] at hlen
      exact List.length_eq_zero_iff.mp (by omega)
    refine ⟨by rw [h1, ht]; rfl, fun i hi => ?_⟩
    rw [h2 i (by simp; omega)]
    exact List.getElem?_append_left (by omega)

end BurnFm.Props
