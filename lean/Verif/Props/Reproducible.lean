import Verif.Proofs.AssembleOrder
import Verif.Props.Assemble

/-! Property C90: compiling the same program again gives the same file. -/

namespace BurnFm.Props
open Spec

theorem reordered_inRange {f g : FmpFile} (h : Reordered f g) (hr : InRange f) : InRange g where
  tableIds := fun t ht => hr.tableIds t (h.tables.mem_iff.mpr ht)
  tableNames := fun t ht => hr.tableNames t (h.tables.mem_iff.mpr ht)
  tableCount := h.tables.length_eq ▸ hr.tableCount
  occurrenceIds := fun t ht => hr.occurrenceIds t (h.tableOccurrences.mem_iff.mpr ht)
  occurrenceNames := fun t ht => hr.occurrenceNames t (h.tableOccurrences.mem_iff.mpr ht)

/-- C90, the part that holds: whether a schema can be compiled does not depend on the order in which its maps are
visited. Missing: that the file is the same, which is false (`same_file_iff`). -/
theorem assembles_in_every_order_partial (p : Profile) (f g : FmpFile) (hr : InRange f) (h : Reordered f g) :
    (∃ buf, assemble p f = .ok buf) ↔ ∃ buf, assemble p g = .ok buf := by
  rw [assembles_iff p f hr, assembles_iff p g (reordered_inRange h hr), h.name, (h.tables.map _).sum_nat,
    (h.tableOccurrences.map _).sum_nat]

theorem same_keys {α : Type} {a b : HMap α} (hp : a.Perm b) (hd : (a.map (·.1)).Nodup) (hk : a.map (·.1) = b.map (·.1)) : a = b := by
  apply List.ext_getElem (hp.length_eq)
  intro i h1 h2
  have hm : a[i] ∈ b := hp.mem_iff.mp (List.getElem_mem h1)
  obtain ⟨j, hj, e⟩ := List.getElem_of_mem hm
  have hd' : (b.map (·.1)).Nodup := hk ▸ hd
  have e1 : (b.map (·.1))[i]'(by simpa using h2) = (b.map (·.1))[j]'(by simpa using hj) := by
    have e2 : (a.map (·.1))[i]'(by simpa using h1) = (b.map (·.1))[i]'(by simpa using h2) := by
      congr 1
    rw [← e2, List.getElem_map, List.getElem_map, e]
  have := (List.getElem_inj hd').mp e1
  subst this
  exact e.symm

/-- C90: two compilations of the same schema give the same file exactly if they visit the tables and the occurrences in
the same order. -/
theorem same_file_iff (p : Profile) (f g : FmpFile) (hr : InRange f) (h : Reordered f g)
    (ht : (f.tables.map (·.1)).Nodup) (ho : (f.tableOccurrences.map (·.1)).Nodup) (a b : Bytes)
    (ha : assemble p f = .ok a) (hb : assemble p g = .ok b) :
    a = b ↔ f.tables = g.tables ∧ f.tableOccurrences = g.tableOccurrences := by
  have hr' := reordered_inRange h hr
  constructor
  · intro e
    subst e
    obtain ⟨chs, path, d1, d2⟩ := assemble_events (q := p) hr ha
    obtain ⟨chs', path', d1', d2'⟩ := assemble_events (q := p) hr' hb
    have hsz : recSize (fileRecords f) = recSize (fileRecords g) := by
      rw [fileRecords_size f hr, fileRecords_size g hr', (h.tables.map _).sum_nat, (h.tableOccurrences.map _).sum_nat]
    rw [hsz] at d1
    have := d1.unique d1'
    subst this
    rw [d2] at d2'
    constructor
    · apply same_keys h.tables ht
      have e := congrArg (eventsIn [3, 16, 1, 3]) d2'
      rw [tables_in_order, tables_in_order] at e
      replace e := (List.cons.inj e).2
      have key : ∀ (l m : HMap FTable), (∀ t ∈ l, t.1 < 256) → (∀ t ∈ m, t.1 < 256) →
          l.map (fun t => What.longKv (beBytes t.1) (beBytes t.1)) = m.map (fun t => What.longKv (beBytes t.1) (beBytes t.1)) →
          l.map (·.1) = m.map (·.1) := by
        intro l
        induction l with
        | nil => intro m _ _ e; cases m <;> simp at e ⊢
        | cons x l ih =>
          intro m h1 h2 e
          cases m with
          | nil => simp at e
          | cons y m =>
            simp only [List.map_cons, List.cons.injEq, What.longKv.injEq] at e ⊢
            have b1 := h1 x (by simp)
            have b2 := h2 y (by simp)
            exact ⟨beBytes_inj (by omega) (by omega) e.1.1, ih m (fun t h => h1 t (by simp [h])) (fun t h => h2 t (by simp [h])) e.2⟩
      exact key _ _ hr.tableIds hr'.tableIds e
    · apply same_keys h.tableOccurrences ho
      have e := congrArg (eventsIn [3, 17, 1, 3]) d2'
      rw [occurrences_in_order, occurrences_in_order] at e
      replace e := (List.cons.inj e).2
      have key : ∀ (l m : HMap FOccurrence), (∀ t ∈ l, t.1 < 2 ^ 24) → (∀ t ∈ m, t.1 < 2 ^ 24) →
          l.map (fun t => What.data (beBytes t.1)) = m.map (fun t => What.data (beBytes t.1)) →
          l.map (·.1) = m.map (·.1) := by
        intro l
        induction l with
        | nil => intro m _ _ e; cases m <;> simp at e ⊢
        | cons x l ih =>
          intro m h1 h2 e
          cases m with
          | nil => simp at e
          | cons y m =>
            simp only [List.map_cons, List.cons.injEq, What.data.injEq] at e ⊢
            exact ⟨beBytes_inj (h1 x (by simp)) (h2 y (by simp)) e.1, ih m (fun t h => h1 t (by simp [h])) (fun t h => h2 t (by simp [h])) e.2⟩
      exact key _ _ hr.occurrenceIds hr'.occurrenceIds e
  · rintro ⟨e1, e2⟩
    have : assemble p f = assemble p g := by
      unfold assemble emitSections emitTableMetadata emitRelationshipData emitLayoutData emitScriptData
      rw [e1, e2, h.name, h.layouts.length_eq, h.scripts.length_eq]
    rw [this, hb] at ha
    injection ha with ha
    exact ha.symm

/-- A schema with two tables, whose map is visited in one order … -/
def twoTables : FmpFile := { name := t!"s", tables := [(1, { name := t!"A" }), (2, { name := t!"B" })] }

/-- … or the other. -/
def twoTables' : FmpFile := { name := t!"s", tables := [(2, { name := t!"B" }), (1, { name := t!"A" })] }

theorem twoTables_inRange : InRange twoTables where
  tableIds := by simp [twoTables]
  tableNames := by simp [twoTables]
  tableCount := by simp [twoTables]
  occurrenceIds := by simp [twoTables]
  occurrenceNames := by simp [twoTables]

theorem twoTables_reordered : Reordered twoTables twoTables' where
  name := rfl
  tables := .swap _ _ _
  relationships := .nil
  layouts := .nil
  valueLists := .nil
  scripts := .nil
  tableOccurrences := .nil
  dataSources := .nil
  tests := rfl

/-- C90 is false: compiling a schema of two tables can give two different files. -/
theorem reproducible_refuted (p : Profile) : ∃ f g a b, InRange f ∧ Reordered f g ∧ assemble p f = .ok a ∧
    assemble p g = .ok b ∧ a ≠ b := by
  obtain ⟨a, ha⟩ := (assembles_iff p twoTables twoTables_inRange).mpr (by decide)
  obtain ⟨b, hb⟩ := (assembles_in_every_order_partial p _ _ twoTables_inRange twoTables_reordered).mp ⟨a, ha⟩
  refine ⟨twoTables, twoTables', a, b, twoTables_inRange, twoTables_reordered, ha, hb, fun e => ?_⟩
  have := ((same_file_iff p _ _ twoTables_inRange twoTables_reordered (by decide) (by decide) a b ha hb).mp e).1
  exact absurd this (by decide)

end BurnFm.Props
