import Verif.Proofs.WriteAssert

/-! C105: the functions that read a record agree. -/

namespace BurnFm.Props
open Spec

theorem firstFieldIdx_of_find {fields : List DField} {name : Str} {f : DField}
    (h : fields.find? (fun x => x.name == name) = some f) :
    ∃ j, firstFieldIdx fields name = .ok j ∧ fields[j]? = some f := by
  have hm := List.mem_of_find?_eq_some h
  have hn := List.find?_some h
  obtain ⟨j, hj⟩ := firstFieldIdx_of_mem ⟨f, hm, by simpa using hn⟩
  obtain ⟨g, hg, -⟩ := firstFieldIdx_ok hj
  refine ⟨j, hj, ?_⟩
  rw [firstFieldIdx_find hj hg] at h
  rw [hg, h]

/-- C105: when the current record of the current occurrence has the value `x` in the field `f`, then every function that
reads a field of the current record gives `x`, the one for a given record number gives `x` for the number of the current
record, and `x` is at that place among all values of the field. -/
theorem readers_agree (db : Database) (occ f x : Str) (hcur : SMap.get db.indices occ = some db.handle)
    (h : ValueAt db db.handle f x) :
    db.readCell occ f = .ok (some x) ∧ db.currentRecordField f = .ok x ∧ db.foundSetRecordField f = .ok x ∧
      ∃ o r xs, db.occs[db.handle]? = some o ∧ o.currentRecord = some r ∧ db.recordByField f r = .ok (some x) ∧
        db.fieldVals f = .ok xs ∧ xs[r]? = some x := by
  have h0 := foundSet_value h
  obtain ⟨o, t, r, g, h1, h2, h3, h4, h5⟩ := h
  have hc : o.currentRecord = some r := h3
  obtain ⟨j, hj, hg⟩ := firstFieldIdx_of_find h4
  have hff : firstField t.fields f = .ok g := firstField_ok.mpr h4
  refine ⟨?_, ?_, h0, o, r, g.records, h1, hc, ?_, ?_, h5⟩
  · unfold Database.readCell Database.occurrenceByName
    simp only [hcur, unwrap, ok_bind, idx_of h1, hc, idx_of h2, hj, idx_of hg, idx_of h5]
    rfl
  · unfold Database.currentRecordField Database.currentOcc
    simp only [ok_bind, idx_of h1, hc, idx_of h2, hff, idx_of h5]
  · unfold Database.recordByField Database.currentOcc
    simp only [ok_bind, idx_of h1, hc, idx_of h2, hff, idx_of h5]
    rfl
  · unfold Database.fieldVals Database.currentTable Database.currentOcc
    simp only [ok_bind, idx_of h1, idx_of h2, hff]
    rfl

/-- C105: reading by record number gives the value of that record, whichever record is current. -/
theorem record_by_number (db : Database) (f x : Str) (o : DOcc) (t : DTable) (g : DField) (r : Nat)
    (ho : db.occs[db.handle]? = some o) (hne : o.currentRecord ≠ none) (ht : db.tables[o.tablePtr]? = some t)
    (hg : t.fields.find? (fun y => y.name == f) = some g) (hx : g.records[r]? = some x) :
    db.recordByField f r = .ok (some x) := by
  cases hc : o.currentRecord with
  | none => exact absurd hc hne
  | some r0 =>
    unfold Database.recordByField Database.currentOcc
    simp only [ok_bind, idx_of ho, hc, idx_of ht, firstField_ok.mpr hg, idx_of hx]
    rfl

/-- C105: without a current record the readers do not agree: two report that there is nothing, one gives the empty text,
and the one that calculations use panics. -/
theorem readers_without_record (db : Database) (occ f : Str) (o : DOcc) (t : DTable)
    (hcur : SMap.get db.indices occ = some db.handle) (ho : db.occs[db.handle]? = some o)
    (ht : db.tables[o.tablePtr]? = some t) (hc : o.currentRecord = none) (n : Nat) :
    db.readCell occ f = .ok none ∧ db.recordByField f n = .ok none ∧ db.currentRecordField f = .ok [] ∧
      db.foundSetRecordField f = .error .index := by
  refine ⟨?_, ?_, ?_, ?_⟩
  · unfold Database.readCell Database.occurrenceByName
    simp only [hcur, unwrap, ok_bind, idx_of ho, hc]
    rfl
  · unfold Database.recordByField Database.currentOcc
    simp only [ok_bind, idx_of ho, hc]
    rfl
  · unfold Database.currentRecordField Database.currentOcc
    simp only [ok_bind, idx_of ho, hc]
    rfl
  · unfold Database.foundSetRecordField Database.currentTable Database.currentOcc
    have : idx o.foundSet o.recordPtr = .error .index := by
      unfold idx
      rw [show o.foundSet[o.recordPtr]? = none from hc]
    simp only [ok_bind, idx_of ho, idx_of ht, this]
    rfl

/-- C105: nor do they for a field that the table does not have: the one that calculations use gives the empty text, the
others panic. -/
theorem readers_without_field (db : Database) (occ f : Str) (o : DOcc) (t : DTable) (r : Nat)
    (hcur : SMap.get db.indices occ = some db.handle) (ho : db.occs[db.handle]? = some o)
    (ht : db.tables[o.tablePtr]? = some t) (hc : o.currentRecord = some r) (hf : ∀ g ∈ t.fields, g.name ≠ f) (n : Nat) :
    db.foundSetRecordField f = .ok [] ∧ db.readCell occ f = .error .index ∧ db.recordByField f n = .error .index ∧
      db.currentRecordField f = .error .index ∧ db.fieldVals f = .error .index := by
  have h1 : firstField t.fields f = .error .index := by
    unfold firstField
    rw [List.filter_eq_nil_iff.mpr (fun g hg => by simpa using hf g hg)]
    rfl
  have h2 : firstFieldIdx t.fields f = .error .index := by
    unfold firstFieldIdx
    rw [List.filter_eq_nil_iff.mpr (fun e he => by
      have := List.mem_zipIdx_iff_getElem?.mp he
      simpa using hf e.1 (List.mem_of_getElem? this))]
    rfl
  refine ⟨?_, ?_, ?_, ?_, ?_⟩
  · unfold Database.foundSetRecordField Database.currentTable Database.currentOcc
    have e1 : idx o.foundSet o.recordPtr = .ok r := idx_of hc
    have e2 : t.fields.find? (fun g => g.name == f) = none := List.find?_eq_none.mpr (fun g hg => by simpa using hf g hg)
    simp only [ok_bind, idx_of ho, idx_of ht, e1, e2]
    rfl
  · unfold Database.readCell Database.occurrenceByName
    simp only [hcur, unwrap, ok_bind, idx_of ho, hc, idx_of ht, h2]
    rfl
  · unfold Database.recordByField Database.currentOcc
    simp only [ok_bind, idx_of ho, hc, idx_of ht, h1]
    rfl
  · unfold Database.currentRecordField Database.currentOcc
    simp only [ok_bind, idx_of ho, hc, idx_of ht, h1]
    rfl
  · unfold Database.fieldVals Database.currentTable Database.currentOcc
    simp only [ok_bind, idx_of ho, idx_of ht, h1]
    rfl

/-- C105: a table is found by its name: the first one that has it, and none only if no table has it. -/
theorem table_by_name (db : Database) (name : Str) :
    (∀ t, db.table name = some t ↔ t.name = name ∧ ∃ i : Nat, db.tables[i]? = some t ∧
      ∀ j t', j < i → db.tables[j]? = some t' → t'.name ≠ name) ∧
    (db.table name = none ↔ ∀ t ∈ db.tables, t.name ≠ name) := by
  constructor
  · intro t
    unfold Database.table
    rw [List.find?_eq_some_iff_getElem]
    constructor
    · rintro ⟨h1, i, hi, h2, h3⟩
      refine ⟨by simpa using h1, i, by rw [List.getElem?_eq_getElem hi, h2], ?_⟩
      intro j t' hj ht'
      have hlt := (List.getElem?_eq_some_iff.mp ht').1
      rw [List.getElem?_eq_getElem hlt] at ht'
      cases ht'
      simpa using h3 j hj
    · rintro ⟨h1, i, h2, h3⟩
      obtain ⟨hi, h4⟩ := List.getElem?_eq_some_iff.mp h2
      refine ⟨by simpa using h1, i, hi, h4, ?_⟩
      intro j hj
      simpa using h3 j _ hj (List.getElem?_eq_getElem (by omega))
  · unfold Database.table
    rw [List.find?_eq_none]
    simp

set_option maxRecDepth 20000 in
example : peopleDb.readCell t!"people" t!"id" = .ok (some t!"7") ∧ peopleDb.currentRecordField t!"id" = .ok t!"7" ∧
    peopleDb.recordByField t!"id" 1 = .ok (some t!"7") := by
  have h := readers_agree peopleDb t!"people" t!"id" t!"7" (by decide)
    ⟨(sampleDb.occs[1]?).getD {}, (sampleDb.tables[1]?).getD {}, 1, _, by decide, by decide, by decide, by rfl, by decide⟩
  obtain ⟨h1, h2, -, o, r, xs, ho, hr, h3, -⟩ := h
  refine ⟨h1, h2, ?_⟩
  have : (peopleDb.occs[peopleDb.handle]?).bind (·.currentRecord) = some 1 := by decide
  rw [ho] at this
  have : r = 1 := by simpa [hr] using this
  rw [this] at h3
  exact h3

set_option maxRecDepth 20000 in
example : peopleDb.foundSetRecordField t!"nothing" = .ok [] ∧ peopleDb.currentRecordField t!"nothing" = .error .index :=
  have h := readers_without_field peopleDb t!"people" t!"nothing" ((peopleDb.occs[1]?).getD {}) ((peopleDb.tables[1]?).getD {}) 1
    (by decide) (by decide) (by decide) (by decide) (by decide) 0
  ⟨h.1, h.2.2.2.1⟩

example : ({ occs := [{}], indices := [(t!"a", 0)], tables := [{}] } : Database).foundSetRecordField t!"f" = .error .index :=
  (readers_without_record { occs := [{}], indices := [(t!"a", 0)], tables := [{}] } t!"a" t!"f" {} {} rfl rfl rfl rfl 0).2.2.2

example : (peopleDb.table t!"nobody") = none := (table_by_name _ _).2.mpr (by decide)

end BurnFm.Props
