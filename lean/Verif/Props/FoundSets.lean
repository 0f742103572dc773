import Verif.Proofs.FoundSets
import Verif.Props.VmData

/-! Property C132: what becomes of the found set and the current record of a layout while other layouts are used. -/

namespace BurnFm.Props
open Spec

/-- C132: what becomes of an occurrence in a run in which no step searches or navigates on one of its layouts, exactly. Its
found set is the old one followed by the records added to its table since, whichever layout they were added on. The record
pointer is where it was if no record was added, and on the last new record otherwise. -/
theorem found_set_left_alone (ev : Calculator) (p : Profile) (scripts : HMap FScript) (ts : List FTest) (k : Nat)
    (start u : Vm) (o : DOcc) (ho : start.world.db.occs[k]? = some o) (h : Undisturbed ev p scripts ts k start u) :
    ∃ o', u.world.db.occs[k]? = some o' ∧ o'.tablePtr = o.tablePtr ∧ o'.related = o.related ∧
      recordCount start.world.db o.tablePtr ≤ recordCount u.world.db o.tablePtr ∧
      o'.foundSet = o.foundSet ++ List.range' (recordCount start.world.db o.tablePtr)
        (recordCount u.world.db o.tablePtr - recordCount start.world.db o.tablePtr) ∧
      o'.recordPtr = if recordCount u.world.db o.tablePtr = recordCount start.world.db o.tablePtr then o.recordPtr
        else o'.foundSet.length - 1 := by
  have key : ∃ o', u.world.db.occs[k]? = some o' ∧ LeftAlone start.world.db u.world.db o o' := by
    induction h with
    | start => exact ⟨o, ho, .same rfl⟩
    | load _ _ ih => exact ih
    | @step u v _ _ _ hk hst ih =>
      obtain ⟨o1, ho1, hl⟩ := ih
      have step : ∃ o', v.world.db.occs[k]? = some o' ∧ LeftAlone u.world.db v.world.db o1 o' := by
        rcases step_performs_operation ev p scripts u v hst with h | ⟨s, op, hs, hd, h⟩
        · rw [h]; exact ⟨o1, ho1, .same rfl⟩
        · by_cases hc : op = .create
          · subst hc; exact create_left h ho1
          by_cases hset : ∃ a b c, op = .set a b c
          · obtain ⟨a, b, c, rfl⟩ := hset
            simp only [Op.run] at h
            obtain ⟨r, hr, h⟩ := bind_ok.mp h
            cases r with
            | none => cases h
            | some db' =>
              cases h
              obtain ⟨e1, e2⟩ := write_left hr
              exact ⟨o1, by rw [e1]; exact ho1, .same (e2 _)⟩
          by_cases hlay : ∃ n, op = .layout n
          · obtain ⟨n, rfl⟩ := hlay
            simp only [Op.run] at h
            cases hv : v.world.db with
            | mk a b c d e =>
              rw [hv] at h
              cases h
              exact ⟨o1, ho1, .same rfl⟩
          have hm : movesOrFinds s.opcode = true := by
            unfold Does at hd
            split at hd <;> simp_all [movesOrFinds]
          have hk' : u.world.db.handle ≠ k := fun e => by
            rw [hk e s hs] at hm; cases hm
          obtain ⟨h1, h2⟩ := move_other h hk' ho1 hc (fun a b c e => hset ⟨a, b, c, e⟩) (fun n e => hlay ⟨n, e⟩)
          exact ⟨o1, h1, .same (recordCount_tables h2 _)⟩
      obtain ⟨o2, ho2, hl2⟩ := step
      exact ⟨o2, ho2, hl.trans hl2⟩
  obtain ⟨o', h1, h2⟩ := key
  exact ⟨o', h1, h2⟩

/-- C132, the part that holds: if meanwhile no record is added to its table, an occurrence has the same found set and the
same current record as before. -/
theorem found_set_kept_partial (ev : Calculator) (p : Profile) (scripts : HMap FScript) (ts : List FTest) (k : Nat)
    (start u : Vm) (o : DOcc) (ho : start.world.db.occs[k]? = some o) (h : Undisturbed ev p scripts ts k start u)
    (hn : recordCount u.world.db o.tablePtr = recordCount start.world.db o.tablePtr) :
    u.world.db.occs[k]? = some o := by
  obtain ⟨o', h1, h2, h3, -, h4, h5⟩ := found_set_left_alone ev p scripts ts k start u o ho h
  rw [h1]
  cases o' with
  | mk a b c d =>
    cases o with
    | mk a' b' c' d' =>
      simp only at h2 h3 h4 h5 hn
      rw [hn, if_pos rfl] at h5
      rw [hn] at h4
      simp at h4
      simp [h2, h3, h4, h5]

section Example
attribute [local instance] toyRt

/-- A state in which two people exist and the first one is current, with a layout for each occurrence. -/
def firstPerson : Vm :=
  { world := { db := (runOps .debug petDb [.create, .create, .first]).toOption.getD {}
               layouts := [(t!"people", 1), (t!"others", 5), (t!"pets", 2)] } }

/-- Go to a layout, add a record there, look around and search there. -/
def elsewhere (layout : Str) : FTest := testOf t!"t"
  [(.goToLayout, [layout]), (.newRecordRequest, []), (.goToRecordRequestPage, [t!"\"first\""]), (.showAllRecords, [])]

/-- The state after a step, if there is one. -/
def stepped (scripts : HMap FScript) (u : Vm) : Vm := ((u.step toyCalc .debug scripts).toOption).getD u

theorem stepped_ok (scripts : HMap FScript) (u : Vm) (h : (u.step toyCalc .debug scripts).toOption.isSome = true) :
    u.step toyCalc .debug scripts = .ok (stepped scripts u) := by
  unfold stepped
  cases hs : u.step toyCalc .debug scripts with
  | error e => rw [hs] at h; cases h
  | ok v => rfl

theorem atStep_same {scripts : HMap FScript} {u : Vm} {s s' : ScriptStep} (h : AtStep scripts u s) (h' : AtStep scripts u s') :
    s = s' := by
  obtain ⟨n, i, b, hfr, hi⟩ := h
  obtain ⟨n', i', b', hfr', hi'⟩ := h'
  rw [hfr] at hfr'; cases hfr'
  rw [hi] at hi'; cases hi'
  rfl

/-- The states of the run of `elsewhere`. -/
def away (layout : Str) : Nat → Vm
  | 0 => firstPerson.loadTest (elsewhere layout)
  | n + 1 => stepped [] (away layout n)

theorem away_undisturbed (layout : Str) (h0 : ((away layout 0).step toyCalc .debug []).toOption.isSome = true)
    (h : ∀ i < 3, ((away layout (i + 1)).step toyCalc .debug []).toOption.isSome = true ∧
      (away layout (i + 1)).world.failed = false ∧ (away layout (i + 1)).frames ≠ [] ∧
      (away layout (i + 1)).world.db.handle ≠ 1) :
    Undisturbed toyCalc .debug [] [elsewhere layout] 1 firstPerson (away layout 4) := by
  have s0 : Undisturbed toyCalc .debug [] [elsewhere layout] 1 firstPerson (away layout 0) := .load .start (by simp)
  have s1 : Undisturbed toyCalc .debug [] [elsewhere layout] 1 firstPerson (away layout 1) := by
    refine .step s0 rfl (by simp [away, Vm.loadTest]) ?_ (stepped_ok _ _ h0)
    intro _ s hs
    rw [atStep_same hs (s' := ⟨.goToLayout, 0, [layout]⟩) ⟨_, _, _, rfl, rfl⟩]
    rfl
  have go : ∀ i < 3, Undisturbed toyCalc .debug [] [elsewhere layout] 1 firstPerson (away layout (i + 1)) →
      Undisturbed toyCalc .debug [] [elsewhere layout] 1 firstPerson (away layout (i + 2)) := by
    intro i hi hu
    obtain ⟨a, b, c, d⟩ := h i hi
    exact .step hu b c (fun e => absurd e d) (stepped_ok _ _ a)
  exact go 2 (by decide) (go 1 (by decide) (go 0 (by decide) s1))

/-- C132 is false: another layout over the same table is used to add a record. The people, where the first person was current,
then are on the new record. -/
theorem found_set_kept_refuted :
    ∃ (ts : List FTest) (start u : Vm), Undisturbed toyCalc .debug [] ts 1 start u ∧
      Reachable .debug start.world.db ∧
      (start.world.db.occs[1]?).bind (·.currentRecord) = some 0 ∧ (u.world.db.occs[1]?).bind (·.currentRecord) = some 2 := by
  refine ⟨_, _, _, away_undisturbed t!"\"others\"" (by decide +kernel) (by decide +kernel), ?_, by decide +kernel, by decide +kernel⟩
  refine ⟨petSchema, petDb, [.create, .create, .first], petDb_generated, ?_⟩
  have h : (runOps .debug petDb [.create, .create, .first]).toOption.isSome = true := by decide +kernel
  show _ = Except.ok ((runOps .debug petDb [.create, .create, .first]).toOption.getD {})
  cases hr : runOps .debug petDb [.create, .create, .first] with
  | error e => rw [hr] at h; cases h
  | ok v => rfl

/-- The hypotheses of `found_set_kept_partial`: a pet is added meanwhile, and the first person stays current. -/
example : Undisturbed toyCalc .debug [] [elsewhere t!"\"pets\""] 1 firstPerson (away t!"\"pets\"" 4) ∧
    (firstPerson.world.db.occs[1]?).map (·.tablePtr) = some 1 ∧
    recordCount (away t!"\"pets\"" 4).world.db 1 = recordCount firstPerson.world.db 1 ∧
    recordCount (away t!"\"pets\"" 4).world.db 3 = recordCount firstPerson.world.db 3 + 1 ∧
    ((away t!"\"pets\"" 4).world.db.occs[1]?).bind (·.currentRecord) = some 0 :=
  ⟨away_undisturbed t!"\"pets\"" (by decide +kernel) (by decide +kernel), by decide +kernel, by decide +kernel, by decide +kernel,
    by decide +kernel⟩

end Example

end BurnFm.Props
