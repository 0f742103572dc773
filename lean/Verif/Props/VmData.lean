import Verif.Proofs.VmData
import Verif.Props.Isolation
import Verif.Props.Find

/-! Properties C65, C66: what running tests does to the database. -/

namespace BurnFm.Props
open Spec

/-- C65: every step of a script performs at most one database operation, of the kind its name says. -/
theorem step_performs_operation (ev : Calculator) (p : Profile) (scripts : HMap FScript) (u v : Vm)
    (h : u.step ev p scripts = .ok v) :
    v.world.db = u.world.db ∨ ∃ s op, AtStep scripts u s ∧ Does s.opcode op ∧ op.run p u.world.db = .ok v.world.db := by
  obtain ⟨name, ip, below, hfr, ⟨-, rfl⟩ | ⟨s, hs, -, he⟩⟩ := step_cases h
  · exact .inl rfl
  · rcases exec_db he with h | ⟨op, h1, h2⟩
    · exact .inl h
    · exact .inr ⟨s, op, ⟨name, ip, below, hfr, hs⟩, h2, h1⟩

/-- C65: whatever tests are run on a generated file, at every point of the run the database is one that C28-C36 speak
about: it is valid and was reached from the generated one by the operations of script steps. -/
theorem run_database_reachable (ev : Calculator) (p : Profile) (scripts : HMap FScript) (ts : List FTest) (file : FmpFile)
    (start u : Vm) (hs : Vm.generate file = .ok start) (h : TestRun ev p scripts ts start u) :
    Reachable p u.world.db ∧ Valid u.world.db := by
  have key : Reachable p u.world.db := by
    induction h with
    | start =>
      unfold Vm.generate at hs
      simp only [ev_bind_ok, ev_pure, liftR_ok] at hs
      obtain ⟨db, hdb, he⟩ := hs
      injection he with he; subst he
      exact ⟨file, db, [], hdb, rfl⟩
    | load _ _ ih => exact ih
    | step _ _ _ hst ih =>
      rcases step_performs_operation ev p scripts _ _ hst with h | ⟨s, op, -, -, h⟩
      · rw [h]; exact ih
      · obtain ⟨file, db0, ops, h1, h2⟩ := ih
        refine ⟨file, db0, ops ++ [op], h1, ?_⟩
        unfold runOps at h2 ⊢
        rw [List.foldlM_append, h2, ok_bind]
        simp [h]
  exact ⟨key, reachable_valid p _ key⟩

/-- C66: finding, showing all records, navigation, layout changes, variables, dialogs, branches, loops and calls never
change data: only `set_field` and `new_record_request` do. -/
theorem only_set_field_and_new_record_change_data (ev : Calculator) (p : Profile) (scripts : HMap FScript) (u v : Vm)
    (s : ScriptStep) (hs : AtStep scripts u s) (h : u.step ev p scripts = .ok v) (h1 : s.opcode ≠ .setField)
    (h2 : s.opcode ≠ .newRecordRequest) (t j r : Nat) : cell v.world.db t j r = cell u.world.db t j r := by
  rcases step_performs_operation ev p scripts u v h with h | ⟨s', op, hs', hd, h⟩
  · rw [h]
  · have e : s' = s := by
      obtain ⟨n, i, b, hfr, hi⟩ := hs
      obtain ⟨n', i', b', hfr', hi'⟩ := hs'
      rw [hfr] at hfr'; cases hfr'
      rw [hi] at hi'; cases hi'
      rfl
    subst e
    unfold cell
    rw [op_keeps_tables p _ _ op h]
    · rintro rfl; unfold Does at hd; split at hd <;> simp_all
    · rintro a b c rfl; unfold Does at hd; split at hd <;> simp_all

/-- C66: in find mode `set_field` does not change data either. -/
theorem find_mode_changes_no_data (ev : Calculator) (p : Profile) (scripts : HMap FScript) (u v : Vm) (s : ScriptStep)
    (hs : AtStep scripts u s) (ho : s.opcode = .setField) (hm : u.world.findMode = true)
    (h : u.step ev p scripts = .ok v) : v.world.db = u.world.db := by
  obtain ⟨name, ip, below, hfr, hi⟩ := hs
  unfold Vm.step at h
  rw [hfr] at h
  dsimp only at h
  rw [hi] at h
  dsimp only at h
  rw [exec_plain (by simp [isPlain, ho])] at h
  simp only [ev_bind_ok, ev_pure] at h
  obtain ⟨w, hw, he⟩ := h
  injection he with he; subst he
  unfold effect at hw
  rw [ho] at hw
  simp only [ev_bind_ok, ev_pure, hm, if_true] at hw
  obtain ⟨_, -, _, -, _, -, he⟩ := hw
  injection he with he; subst he; rfl

/-- C66: in browse mode `set_field(occ::field, calc)` stores the value of the calculation in that field of the
current record of that occurrence, changes no other cell, and the field then reads as that value. -/
theorem set_field_step (ev : Calculator) (p : Profile) (scripts : HMap FScript) (u v : Vm) (s : ScriptStep)
    (hs : AtStep scripts u s) (ho : s.opcode = .setField) (hm : u.world.findMode = false) (occ field c : Str)
    (hsw : s.switches = [occ ++ t!"::" ++ field, c]) (hocc : ':' ∉ occ) (hfield : ':' ∉ field)
    (h : u.step ev p scripts = .ok v) :
    ∃ val, u.world.eval ev u.frames.length c = .ok val ∧ v.world.db.readCell occ field = .ok (some val) ∧
      ∃ (i : Nat) (o : DOcc) (id j : Nat), SMap.get u.world.db.indices occ = some i ∧ u.world.db.occs[i]? = some o ∧
        o.currentRecord = some id ∧
        (∃ t f, u.world.db.tables[o.tablePtr]? = some t ∧ t.fields[j]? = some f ∧ f.name = field) ∧
        ∀ t k r, cell v.world.db t k r =
          if t = o.tablePtr ∧ k = j ∧ r = id then some val else cell u.world.db t k r := by
  obtain ⟨name, ip, below, hfr, hi⟩ := hs
  unfold Vm.step at h
  rw [hfr] at h
  dsimp only at h
  rw [hi] at h
  dsimp only at h
  rw [exec_plain (by simp [isPlain, ho])] at h
  simp only [ev_bind_ok, ev_pure] at h
  obtain ⟨w, hw, he⟩ := h
  injection he with he; subst he
  unfold effect at hw
  rw [ho] at hw
  simp only [ev_bind_ok, ev_pure, hm, Bool.false_eq_true, if_false, ScriptStep.switch, hsw, liftR_ok] at hw
  obtain ⟨n, hn, c', hc, val, hval, oc, hoc, fi, hfi, odb, hdb, db, hu, he⟩ := hw
  injection he with he; subst he
  cases hn
  cases hc
  rw [splitCC_pair _ _ hocc hfield] at hoc hfi
  cases hoc
  cases hfi
  rw [unwrap_ok] at hu
  subst hu
  obtain ⟨i, o, id, j, h1, h2, h3, h4, h5, -⟩ := write_changes_one_cell _ _ _ _ _ hdb
  exact ⟨val, by rw [hfr]; exact hval, write_then_read _ _ _ _ _ hdb, i, o, id, j, h1, h2, h3, h4, h5⟩

/-- C66: `new_record_request` adds one blank record to the table of the current layout and changes no other cell. -/
theorem new_record_step (ev : Calculator) (p : Profile) (scripts : HMap FScript) (u v : Vm) (s : ScriptStep)
    (hs : AtStep scripts u s) (ho : s.opcode = .newRecordRequest) (o : DOcc) (t : DTable)
    (hocc : u.world.db.occs[u.world.db.handle]? = some o) (ht : u.world.db.tables[o.tablePtr]? = some t)
    (hne : t.fields ≠ []) (h : u.step ev p scripts = .ok v) :
    (∀ k j r, k ≠ o.tablePtr → cell v.world.db k j r = cell u.world.db k j r) ∧
      ∀ j f, t.fields[j]? = some f → ∀ r, cell v.world.db o.tablePtr j r =
        if r = f.records.length then some [] else cell u.world.db o.tablePtr j r := by
  obtain ⟨name, ip, below, hfr, hi⟩ := hs
  unfold Vm.step at h
  rw [hfr] at h
  dsimp only at h
  rw [hi] at h
  dsimp only at h
  rw [exec_plain (by simp [isPlain, ho])] at h
  simp only [ev_bind_ok, ev_pure] at h
  obtain ⟨w, hw, he⟩ := h
  injection he with he; subst he
  unfold effect at hw
  rw [ho] at hw
  simp only [ev_bind_ok, ev_pure, liftR_ok] at hw
  obtain ⟨db, hdb, he⟩ := hw
  injection he with he; subst he
  obtain ⟨db', h1, -, h2, h3⟩ := create_record_data p u.world.db o t hocc ht hne
  rw [hdb] at h1
  cases h1
  exact ⟨h2, h3⟩

/-- C65: the state a test run ends in, and with it the database it leaves, is one of the states of `TestRun`. -/
theorem run_tests_is_test_run (ev : Calculator) (p : Profile) (scripts : HMap FScript) (n : Nat) (ts : List FTest)
    (start last : Vm) (vs : List Bool) (h : start.runTests ev p scripts n ts = .ok (vs, last)) :
    TestRun ev p scripts ts start last := by
  induction ts generalizing start vs with
  | nil =>
    unfold Vm.runTests at h
    injection h with h
    cases h
    exact .start
  | cons t ts ih =>
    unfold Vm.runTests at h
    simp only [ev_bind_ok, ev_pure] at h
    obtain ⟨vm, h1, ⟨vs', l⟩, h2, h3⟩ := h
    injection h3 with h3
    cases h3
    have := (run_ok_executes h1).1.testRun (.load (.start (ts := t :: ts)) (by simp))
    exact this.trans ((ih vm vs' h2).mono (fun t h => List.mem_cons_of_mem _ h))

/-- C66: a run of tests in which neither the tests nor the scripts of the file contain `set_field` or
`new_record_request` leaves every cell of every table as it is. -/
theorem read_only_tests_change_no_data (ev : Calculator) (p : Profile) (scripts : HMap FScript) (ts : List FTest)
    (start u : Vm) (hr : TestRun ev p scripts ts start u) (hfr : start.frames = [])
    (hts : ∀ t ∈ ts, ∀ s ∈ t.script.instructions, s.opcode ≠ .setField ∧ s.opcode ≠ .newRecordRequest)
    (hsc : ∀ e ∈ scripts, ∀ s ∈ e.2.instructions, s.opcode ≠ .setField ∧ s.opcode ≠ .newRecordRequest)
    (t j r : Nat) : cell u.world.db t j r = cell start.world.db t j r := by
  have key : cell u.world.db t j r = cell start.world.db t j r ∧ (u.frames = [] ∨
      ∀ s ∈ u.test.instructions, s.opcode ≠ .setField ∧ s.opcode ≠ .newRecordRequest) := by
    induction hr with
    | start => exact ⟨rfl, .inl hfr⟩
    | load _ ht ih => exact ⟨ih.1, .inr (hts _ ht)⟩
    | @step u v _ _ hne hst ih =>
      have hro := ih.2.resolve_left hne
      refine ⟨?_, .inr (by rw [step_test hst]; exact hro)⟩
      rw [← ih.1]
      obtain ⟨name, ip, below, hfr, ⟨-, rfl⟩ | ⟨s, hs, -, he⟩⟩ := step_cases hst
      · rfl
      · have hm : s.opcode ≠ .setField ∧ s.opcode ≠ .newRecordRequest := by
          have hmem := List.mem_of_getElem? hs
          unfold Vm.script at hmem
          split at hmem
          · exact hro s hmem
          · cases hf : scripts.find? (fun e => e.2.name == name) with
            | none => rw [hf] at hmem; cases hmem
            | some e => rw [hf] at hmem; exact hsc e (List.mem_of_find?_eq_some hf) s hmem
        exact only_set_field_and_new_record_change_data ev p scripts u v s ⟨name, ip, below, hfr, hs⟩ hst hm.1 hm.2 t j r
  exact key.1

section Example
attribute [local instance] toyRt

/-- A test that makes two people, names one, searches for them, and looks at the result. -/
def dataTest : FTest := testOf t!"t"
  [(.newRecordRequest, []), (.setField, [t!"people::name", t!"\"Ann\""]), (.newRecordRequest, []),
   (.enterFindMode, []), (.setField, [t!"people::name", t!"\"Ann\""]), (.performFind, []),
   (.showAllRecords, []), (.goToRecordRequestPage, [t!"\"last\""]), (.assert, [t!"1 == 1"])]

/-- The generated interpreter for the example schema. -/
def petVm : Vm := { world := { db := petDb, layouts := generateLayoutMgr [] petSchema.layouts } }

theorem petVm_generated : Vm.generate petSchema = .ok petVm := by
  unfold Vm.generate
  rw [petDb_generated]
  rfl

/-- The test passes; it leaves two people, one of them called Ann, and its run is one that C65 speaks about. -/
example : ∃ vs last, petVm.runTests toyCalc .debug [] 20 [dataTest] = .ok (vs, last) ∧ vs = [true] ∧
    Reachable .debug last.world.db ∧ Valid last.world.db ∧
    cell last.world.db 1 2 0 = some t!"\"Ann\"" ∧ cell last.world.db 1 2 1 = some [] := by
  have h : (petVm.runTests toyCalc .debug [] 20 [dataTest]).toOption.isSome = true := by decide +kernel
  cases hr : petVm.runTests toyCalc .debug [] 20 [dataTest] with
  | error e => rw [hr] at h; cases h
  | ok r =>
    obtain ⟨vs, last⟩ := r
    have hv : (petVm.runTests toyCalc .debug [] 20 [dataTest]).toOption.map
        (fun r => (r.1, cell r.2.world.db 1 2 0, cell r.2.world.db 1 2 1)) =
        some ([true], some t!"\"Ann\"", some []) := by decide +kernel
    rw [hr] at hv
    simp only [Except.toOption, Option.map_some, Option.some.injEq, Prod.mk.injEq] at hv
    obtain ⟨h1, h2⟩ := run_database_reachable toyCalc .debug [] [dataTest] petSchema petVm last petVm_generated
      (run_tests_is_test_run toyCalc .debug [] 20 [dataTest] petVm last vs hr)
    exact ⟨vs, last, rfl, hv.1, h1, h2, hv.2.1, hv.2.2⟩

/-- A state about to execute `set_field(people::name, "Bob")` in browse mode. -/
def beforeSet (mode : Bool) : Vm :=
  { frames := [(t!"t", 0)]
    test := (testOf t!"t" [(.setField, [t!"people::name", t!"\"Bob\""])]).script
    world := { vars := [[]], db := petState, findMode := mode } }

example : ∃ v, (beforeSet false).step toyCalc .debug [] = .ok v ∧
    cell (beforeSet false).world.db 1 2 1 = some [] ∧ cell v.world.db 1 2 1 = some t!"\"Bob\"" := by
  have h : ((beforeSet false).step toyCalc .debug []).toOption.map (fun v => cell v.world.db 1 2 1) =
      some (some t!"\"Bob\"") := by decide +kernel
  cases hr : (beforeSet false).step toyCalc .debug [] with
  | error e => rw [hr] at h; cases h
  | ok v => rw [hr] at h; exact ⟨v, rfl, by decide +kernel, by injection h⟩

/-- The hypotheses of `set_field_step`, `find_mode_changes_no_data` and `new_record_step`. -/
example : AtStep [] (beforeSet false) ⟨.setField, 0, [t!"people" ++ t!"::" ++ t!"name", t!"\"Bob\""]⟩ ∧
    ((beforeSet true).step toyCalc .debug []).toOption.isSome = true ∧ ':' ∉ t!"people" ∧ ':' ∉ t!"name" :=
  ⟨⟨_, _, _, rfl, rfl⟩, by decide +kernel, by decide, by decide⟩

/-- A read-only test. -/
example : ∀ t ∈ [testOf t!"r" [(.showAllRecords, []), (.assert, [t!"1 == 1"])]], ∀ s ∈ t.script.instructions,
    s.opcode ≠ .setField ∧ s.opcode ≠ .newRecordRequest := by decide

end Example

end BurnFm.Props
