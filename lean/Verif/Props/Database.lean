import Verif.Props.Generate

/-! Properties C28-C33, C35 and C62: records, found sets and navigation. -/

namespace BurnFm.Props
open Spec

/-- C28: in every state a test run can reach, all fields of a table hold the same number of records. -/
theorem tables_rectangular (p : Profile) (db : Database) (h : Reachable p db) : Rectangular db :=
  (inv_reachable h).valid.rect

/-- C29: in every state a test run can reach, every found set is strictly increasing, contains only existing
records, and its pointer is inside unless it is empty. -/
theorem found_sets_valid (p : Profile) (db : Database) (h : Reachable p db) :
    ∀ o ∈ db.occs, FoundSetOk db o := (inv_reachable h).valid.found

/-- C28, C29: reachable states are valid. -/
theorem reachable_valid (p : Profile) (db : Database) (h : Reachable p db) : Valid db := (inv_reachable h).valid

/-- C29: a found set is only empty if its table has no records. -/
theorem found_set_empty_only_without_records (p : Profile) (db : Database) (h : Reachable p db) (o : DOcc)
    (ho : o ∈ db.occs) (he : o.foundSet = []) (r : Nat) : ¬ IsRecord db o.tablePtr r := by
  intro hr
  obtain ⟨row, h1, h2, h3⟩ := (isRecord_iff _ _ _).mp hr
  obtain ⟨n, hn⟩ := List.exists_mem_of_ne_nil row h2
  have := ((inv_reachable h).occ o ho).full he row h1 n hn
  have := h3 n hn
  omega

/-- A history on the example schema: two people, one of them named, a find, and navigation. -/
def petHistory : List Op :=
  [.create, .set t!"people" t!"name" t!"Ann", .create, .set t!"people" t!"id" t!"7",
   .layout 2, .create, .set t!"pets" t!"owner" t!"7", .layout 5, .find [(t!"others::name", t!"Ann")], .showAll,
   .last, .previous, .next, .first, .goto 9]

/-- The state after it. -/
def petState : Database := match runOps .debug petDb petHistory with | .ok db => db | .error _ => {}

set_option maxRecDepth 20000 in
theorem petState_runs : runOps .debug petDb petHistory = .ok petState := by rfl

theorem petState_reachable : Reachable .debug petState :=
  ⟨petSchema, petDb, petHistory, petDb_generated, petState_runs⟩

set_option maxRecDepth 20000 in
example : petState.occs.map (fun o => (o.foundSet, o.recordPtr)) =
    [([], 0), ([0, 1], 1), ([0], 0), ([], 0), ([], 0), ([0, 1], 1)] := by decide

/-- C29 stops holding after the cleanup at the end of a test run: `clear_records` empties the tables and
leaves the found sets as they are. -/
theorem cleanup_leaves_stale_found_sets :
    ∃ db : Database, Reachable .debug db ∧ Valid db ∧ ¬ Valid db.clearRecords := by
  refine ⟨petState, petState_reachable, reachable_valid _ _ petState_reachable, ?_⟩
  intro h
  have ho : (petState.clearRecords.occs[1]?).map (·.foundSet) = some [0, 1] := by
    set_option maxRecDepth 20000 in decide
  have ht : (petState.clearRecords.occs[1]?).map (·.tablePtr) = some 1 := by
    set_option maxRecDepth 20000 in decide
  have hs : (petState.clearRecords.tables[1]?).map (fun t => t.fields.map (·.records)) = some [[], [], []] := by
    set_option maxRecDepth 20000 in decide
  cases hc : petState.clearRecords.occs[1]? with
  | none => rw [hc] at ho; cases ho
  | some o =>
    rw [hc] at ho ht
    simp only [Option.map_some, Option.some.injEq] at ho ht
    obtain ⟨tab, h1, h2, h3⟩ := (h.found o (List.mem_of_getElem? hc)).existing 0 (by rw [ho]; simp)
    rw [ht] at h1
    rw [h1] at hs
    simp only [Option.map_some, Option.some.injEq] at hs
    obtain ⟨f, hf⟩ := List.exists_mem_of_ne_nil _ h2
    have : f.records ∈ tab.fields.map (·.records) := List.mem_map.mpr ⟨f, hf, rfl⟩
    rw [hs] at this
    have hn : f.records = [] := by simpa using this
    have := h3 f hf
    rw [hn] at this
    cases this

/-! ### C30 -/

/-- C30: creating a record succeeds in every valid state whose current occurrence shows a table with fields.
It appends one blank record to every field of that table, and nothing else changes in any table. -/
theorem create_record_data (p : Profile) (db : Database) (o : DOcc) (t : DTable) (ho : db.occs[db.handle]? = some o)
    (ht : db.tables[o.tablePtr]? = some t) (hne : t.fields ≠ []) :
    ∃ db', db.createRecord p = .ok db' ∧ names db' = names db ∧
      (∀ k j r, k ≠ o.tablePtr → cell db' k j r = cell db k j r) ∧
      (∀ j f, t.fields[j]? = some f → ∀ r, cell db' o.tablePtr j r =
        if r = f.records.length then some [] else cell db o.tablePtr j r) := by
  obtain ⟨f0, fs, hfs⟩ := List.exists_cons_of_ne_nil hne
  have hlt : o.tablePtr < db.tables.length := (List.getElem?_eq_some_iff.mp ht).1
  have hok : ∃ db', db.createRecord p = .ok db' := by
    unfold Database.createRecord
    rw [currentOcc_ok.mpr ho, ok_bind, idx_of ht, ok_bind]
    simp only
    rw [setIdx_ok.mpr ⟨hlt, rfl⟩, ok_bind]
    unfold DTable.recordsN
    have : idx t.addBlankRecord.fields 0 = .ok { f0 with records := f0.records ++ [[]] } := by
      simp [DTable.addBlankRecord, hfs, idx]
    rw [this]
    simp only [ok_bind, pure_ok]
    rw [usub_of_le p (by simp)]
    exact ⟨_, rfl⟩
  obtain ⟨db', hdb⟩ := hok
  refine ⟨db', hdb, ?_⟩
  obtain ⟨o', t', f', fs', ho', ht', hfs', rfl⟩ := create_ok hdb
  rw [ho] at ho'; cases ho'
  rw [ht] at ht'; cases ht'
  refine ⟨?_, ?_, ?_⟩
  · unfold names
    apply map_set_same ht
    simp [DTable.addBlankRecord]
  · intro k j r hk
    unfold cell
    simp only
    rw [List.getElem?_set_ne (fun h => hk h.symm)]
  · intro j f hf r
    unfold cell
    simp only
    rw [List.getElem?_set_self hlt, ht]
    simp only [Option.bind_some, DTable.addBlankRecord, List.getElem?_map, hf, Option.map_some]
    by_cases hr : r = f.records.length
    · subst hr; simp
    · rw [if_neg hr]
      by_cases hlt' : r < f.records.length
      · rw [List.getElem?_append_left hlt']
      · rw [List.getElem?_eq_none (by simp; omega), List.getElem?_eq_none (by omega)]

/-- C30: in a valid state the new record gets the number after the last one, is appended to the found set of
every occurrence of that table and is made current there; other occurrences do not change, and neither do
the relationships, the occurrence names and the current occurrence. -/
theorem create_record_current (p : Profile) (db db' : Database) (hv : Valid db) (o : DOcc) (t : DTable)
    (ho : db.occs[db.handle]? = some o) (ht : db.tables[o.tablePtr]? = some t)
    (h : db.createRecord p = .ok db') :
    db'.occs.length = db.occs.length ∧ db'.indices = db.indices ∧ db'.handle = db.handle ∧ db'.graph = db.graph ∧
    ∀ (i : Nat) (x : DOcc), db.occs[i]? = some x → ∃ y, db'.occs[i]? = some y ∧
      y.tablePtr = x.tablePtr ∧ y.related = x.related ∧
      (x.tablePtr ≠ o.tablePtr → y = x) ∧
      (x.tablePtr = o.tablePtr → ∀ f ∈ t.fields,
        y.foundSet = x.foundSet ++ [f.records.length] ∧ y.currentRecord = some f.records.length) := by
  obtain ⟨o', t', f', fs', ho', ht', hfs', rfl⟩ := create_ok h
  rw [ho] at ho'; cases ho'
  rw [ht] at ht'; cases ht'
  refine ⟨by simp, rfl, rfl, rfl, ?_⟩
  intro i x hx
  simp only [List.getElem?_map, hx, Option.map_some]
  refine ⟨_, rfl, ?_, ?_, ?_, ?_⟩
  · split <;> rfl
  · split <;> rfl
  · intro hne; rw [if_neg hne]
  · intro he f hf
    rw [if_pos he]
    have : f'.records.length = f.records.length :=
      hv.rect t (List.mem_of_getElem? ht) f' (by rw [hfs']; simp) f hf
    simp [DOcc.currentRecord, this]

/-- The example state meets the hypotheses of C30: the current occurrence shows a table with three fields. -/
example : ∃ o t, petState.occs[petState.handle]? = some o ∧ petState.tables[o.tablePtr]? = some t ∧
    t.fields ≠ [] ∧ t.fields.map (·.records.length) = [2, 2, 2] := by
  refine ⟨(petState.occs[5]?).getD {}, (petState.tables[1]?).getD {}, ?_⟩
  set_option maxRecDepth 20000 in decide

/-! ### C31 -/

theorem firstFieldIdx_ok {fields : List DField} {name : Str} {j : Nat} (h : firstFieldIdx fields name = .ok j) :
    ∃ f, fields[j]? = some f ∧ f.name = name := by
  unfold firstFieldIdx at h
  obtain ⟨e, h1, h2⟩ := bind_ok.mp h
  cases h2
  have := List.mem_of_getElem? (idx_ok.mp h1)
  rw [List.mem_filter, List.mem_zipIdx_iff_getElem?] at this
  exact ⟨e.1, this.1, by simpa using this.2⟩

theorem firstFieldIdx_of_mem {fields : List DField} {name : Str} (h : ∃ f ∈ fields, f.name = name) :
    ∃ j, firstFieldIdx fields name = .ok j := by
  obtain ⟨f, hf, hn⟩ := h
  obtain ⟨i, hi⟩ := List.getElem?_of_mem hf
  have : (f, i) ∈ fields.zipIdx.filter (fun e => e.1.name == name) := by
    rw [List.mem_filter, List.mem_zipIdx_iff_getElem?]; exact ⟨hi, by simpa using hn⟩
  unfold firstFieldIdx
  cases hl : fields.zipIdx.filter (fun e => e.1.name == name) with
  | nil => rw [hl] at this; cases this
  | cons a l => exact ⟨a.2, rfl⟩

/-- The position of the first field with a given name depends on the names only. -/
theorem firstFieldIdx_names (a b : List DField) (name : Str) (h : a.map (·.name) = b.map (·.name)) :
    firstFieldIdx a name = firstFieldIdx b name := by
  have key : ∀ (l : List DField) (n : Nat), ((l.zipIdx n).filter (fun e => e.1.name == name)).map (·.2) =
      (((l.map (·.name)).zipIdx n).filter (fun e => e.1 == name)).map (·.2) := by
    intro l
    induction l with
    | nil => intro n; rfl
    | cons f l ih =>
      intro n
      rw [List.zipIdx_cons, List.map_cons, List.zipIdx_cons, List.filter_cons, List.filter_cons]
      by_cases hf : f.name = name
      · simp [hf, ih]
      · simp [hf, ih]
  have hm : ∀ l : List DField, firstFieldIdx l name =
      idx (((l.map (·.name)).zipIdx.filter (fun e => e.1 == name)).map (·.2)) 0 := by
    intro l
    rw [← key l 0]
    unfold firstFieldIdx
    cases l.zipIdx.filter (fun e => e.1.name == name) <;> rfl
  rw [hm, hm, h]

/-- C31: in every valid state, writing `occ::field` succeeds when the occurrence has a current record and its
table has the field. -/
theorem write_succeeds (db : Database) (hv : Valid db) (occ field value : Str) (i : Nat) (o : DOcc) (t : DTable)
    (hi : SMap.get db.indices occ = some i) (ho : db.occs[i]? = some o) (hne : o.foundSet ≠ [])
    (ht : db.tables[o.tablePtr]? = some t) (hf : ∃ f ∈ t.fields, f.name = field) :
    ∃ db', db.writeCell occ field value = .ok (some db') := by
  have hok := hv.found o (List.mem_of_getElem? ho)
  have hp := hok.pointer hne
  have hc : o.currentRecord = some o.foundSet[o.recordPtr] := List.getElem?_eq_getElem hp
  obtain ⟨tab, h1, h2, h3⟩ := hok.existing _ (List.getElem_mem hp)
  rw [ht] at h1; cases h1
  obtain ⟨j, hj⟩ := firstFieldIdx_of_mem hf
  obtain ⟨f, hfj, _⟩ := firstFieldIdx_ok hj
  have hlen := h3 f (List.mem_of_getElem? hfj)
  unfold Database.writeCell Database.occurrenceByName
  rw [hi]
  simp only [unwrap, ok_bind, idx_of ho, hc, idx_of ht, hj, idx_of hfj]
  rw [setIdx_ok.mpr ⟨hlen, rfl⟩, ok_bind, setIdx_ok.mpr ⟨(List.getElem?_eq_some_iff.mp hfj).1, rfl⟩, ok_bind,
    setIdx_ok.mpr ⟨(List.getElem?_eq_some_iff.mp ht).1, rfl⟩]
  exact ⟨_, rfl⟩

/-- C31: after a write the same cell reads back as the written value. -/
theorem write_then_read (db db' : Database) (occ field value : Str)
    (h : db.writeCell occ field value = .ok (some db')) : db'.readCell occ field = .ok (some value) := by
  obtain ⟨i, o, id, t, j, f, hi, ho, hc, ht, hj, hf, hlt, rfl⟩ := writeCell_ok h
  have h1 := (List.getElem?_eq_some_iff.mp ht).1
  have h2 := (List.getElem?_eq_some_iff.mp hf).1
  unfold Database.readCell Database.occurrenceByName
  simp only [hi, unwrap, ok_bind, idx_of ho, hc]
  have e1 := idx_of (List.getElem?_set_self (a := { t with fields := t.fields.set j { f with records := f.records.set id value } }) h1)
  rw [e1, ok_bind]
  have e2 : firstFieldIdx (t.fields.set j { f with records := f.records.set id value }) field = .ok j := by
    rw [firstFieldIdx_names _ t.fields field, hj]
    exact map_set_same hf rfl
  simp only [e2, ok_bind]
  rw [idx_of (List.getElem?_set_self h2), ok_bind, idx_of (List.getElem?_set_self hlt)]
  rfl

/-- C31: a write changes exactly one cell: that of the field called `field` in the current record of the
occurrence `occ`. All other cells of all tables, all names and sizes, all found sets and record pointers
stay the same. -/
theorem write_changes_one_cell (db db' : Database) (occ field value : Str)
    (h : db.writeCell occ field value = .ok (some db')) :
    ∃ (i : Nat) (o : DOcc) (id j : Nat), SMap.get db.indices occ = some i ∧ db.occs[i]? = some o ∧
      o.currentRecord = some id ∧ (∃ t f, db.tables[o.tablePtr]? = some t ∧ t.fields[j]? = some f ∧ f.name = field) ∧
      (∀ t k r, cell db' t k r = if t = o.tablePtr ∧ k = j ∧ r = id then some value else cell db t k r) ∧
      names db' = names db ∧ sizes db' = sizes db ∧ db'.occs = db.occs ∧ db'.indices = db.indices ∧
      db'.handle = db.handle ∧ db'.graph = db.graph := by
  obtain ⟨i, o, id, t, j, f, hi, ho, hc, ht, hj, hf, hlt, rfl⟩ := writeCell_ok h
  have h1 := (List.getElem?_eq_some_iff.mp ht).1
  have h2 := (List.getElem?_eq_some_iff.mp hf).1
  obtain ⟨f', hf', hname⟩ := firstFieldIdx_ok hj
  refine ⟨i, o, id, j, hi, ho, hc, ⟨t, f', ht, hf', hname⟩, ?_, ?_, ?_, rfl, rfl, rfl, rfl⟩
  · intro k l r
    unfold cell
    simp only
    by_cases hk : k = o.tablePtr
    · subst hk
      rw [List.getElem?_set_self h1, ht]
      simp only [Option.bind_some, true_and]
      by_cases hl : l = j
      · subst hl
        rw [List.getElem?_set_self h2, hf]
        simp only [Option.bind_some, true_and]
        by_cases hr : r = id
        · subst hr; rw [if_pos rfl, List.getElem?_set_self hlt]
        · rw [if_neg hr, List.getElem?_set_ne (fun h => hr h.symm)]
      · rw [if_neg (fun h => hl h.1), List.getElem?_set_ne (fun h => hl h.symm)]
    · rw [if_neg (fun h => hk h.1), List.getElem?_set_ne (fun h => hk h.symm)]
  · unfold names
    apply map_set_same ht
    simp only [Prod.mk.injEq, true_and]
    exact map_set_same hf rfl
  · unfold sizes
    apply map_set_same ht
    apply map_set_same hf
    simp

/-- C31: without a current record the write reports an error and there is nothing to assign to. -/
theorem write_without_record (db : Database) (occ field value : Str) (i : Nat) (o : DOcc)
    (hi : SMap.get db.indices occ = some i) (ho : db.occs[i]? = some o) (hc : o.currentRecord = none) :
    db.writeCell occ field value = .ok none ∧ db.readCell occ field = .ok none := by
  unfold Database.writeCell Database.readCell Database.occurrenceByName
  simp only [hi, unwrap, ok_bind, idx_of ho, hc]
  exact ⟨rfl, rfl⟩

/-- The hypotheses of C31 hold in the example state: `pets::kind` can be written. -/
example : ∃ db', petState.writeCell t!"pets" t!"kind" t!"cat" = .ok (some db') ∧
    db'.readCell t!"pets" t!"kind" = .ok (some t!"cat") ∧ db'.readCell t!"pets" t!"owner" = .ok (some t!"7") := by
  refine ⟨match petState.writeCell t!"pets" t!"kind" t!"cat" with | .ok (some d) => d | _ => {}, ?_⟩
  set_option maxRecDepth 20000 in exact ⟨rfl, by decide, by decide⟩

/-! ### C32, C33, C35 -/

/-- `db'` is `db` with the record pointer of the current occurrence `o` at `n`, and nothing else changed. -/
def MovedTo (db db' : Database) (o : DOcc) (n : Nat) : Prop :=
  db' = { db with occs := db.occs.set db.handle { o with recordPtr := n } }

/-- C32: `goto_record(n)` moves to position `n`, or to the last position if there is no position `n`. -/
theorem goto_record_clamps (p : Profile) (db : Database) (o : DOcc) (n : Nat) (ho : db.occs[db.handle]? = some o)
    (hne : o.foundSet ≠ []) :
    ∃ db', db.gotoRecord p n = .ok db' ∧ MovedTo db db' o (if n < o.foundSet.length then n else o.foundSet.length - 1) := by
  have hpos := List.length_pos_iff.mpr hne
  unfold Database.gotoRecord
  rw [currentOcc_ok.mpr ho, ok_bind]
  by_cases hn : n ≥ o.foundSet.length
  · rw [if_pos hn, usub_of_le p hpos, ok_bind]
    refine ⟨_, modCurrentOcc_ok.mpr ⟨o, ho, rfl⟩, ?_⟩
    rw [if_neg (by omega)]; rfl
  · rw [if_neg hn]
    refine ⟨_, modCurrentOcc_ok.mpr ⟨o, ho, rfl⟩, ?_⟩
    rw [if_pos (by omega)]; rfl

/-- C32: `goto_next_record` moves one position forward and stays at the last one. -/
theorem goto_next_clamps (p : Profile) (db : Database) (o : DOcc) (ho : db.occs[db.handle]? = some o)
    (hptr : o.recordPtr < o.foundSet.length) :
    ∃ db', db.gotoNext p = .ok db' ∧
      MovedTo db db' o (if o.recordPtr + 1 < o.foundSet.length then o.recordPtr + 1 else o.recordPtr) := by
  unfold Database.gotoNext
  rw [currentOcc_ok.mpr ho, ok_bind, usub_of_le p (by omega), ok_bind]
  refine ⟨_, modCurrentOcc_ok.mpr ⟨o, ho, rfl⟩, ?_⟩
  unfold MovedTo
  by_cases h : o.recordPtr < o.foundSet.length - 1
  · simp only [if_pos h]
    rw [if_pos (by omega)]
  · simp only [if_neg h]
    rw [if_neg (by omega)]

/-- C32: `goto_previous_record` moves one position back and stays at the first one. -/
theorem goto_previous_clamps (db : Database) (o : DOcc) (ho : db.occs[db.handle]? = some o) :
    ∃ db', db.gotoPrevious = .ok db' ∧ MovedTo db db' o (o.recordPtr - 1) := by
  unfold Database.gotoPrevious
  refine ⟨_, modCurrentOcc_ok.mpr ⟨o, ho, rfl⟩, ?_⟩
  unfold MovedTo
  by_cases h : o.recordPtr > 0
  · simp only [if_pos h]
  · simp only [if_neg h]
    have : o.recordPtr - 1 = o.recordPtr := by omega
    rw [this]

/-- C32: `goto_first_record` and `goto_last_record` go to the ends. -/
theorem goto_ends (p : Profile) (db : Database) (o : DOcc) (ho : db.occs[db.handle]? = some o)
    (hne : o.foundSet ≠ []) :
    (∃ db', db.gotoFirst = .ok db' ∧ MovedTo db db' o 0) ∧
      (∃ db', db.gotoLast p = .ok db' ∧ MovedTo db db' o (o.foundSet.length - 1)) := by
  refine ⟨⟨_, modCurrentOcc_ok.mpr ⟨o, ho, rfl⟩, rfl⟩, ?_⟩
  unfold Database.gotoLast
  rw [currentOcc_ok.mpr ho, ok_bind, usub_of_le p (List.length_pos_iff.mpr hne), ok_bind]
  exact ⟨_, modCurrentOcc_ok.mpr ⟨o, ho, rfl⟩, rfl⟩

theorem visit_from (p : Profile) : ∀ (k : Nat) (db : Database) (o : DOcc) (fuel : Nat),
    db.occs[db.handle]? = some o → o.recordPtr + k = o.foundSet.length → 0 < k → k ≤ fuel →
    visit p fuel db = .ok (o.foundSet.drop o.recordPtr) := by
  intro k
  induction k with
  | zero => intro db o fuel _ _ h; omega
  | succ k ih =>
    intro db o fuel ho hk _ hf
    obtain ⟨f, rfl⟩ : ∃ f, fuel = f + 1 := ⟨fuel - 1, by omega⟩
    have hptr : o.recordPtr < o.foundSet.length := by omega
    obtain ⟨db', h1, h2⟩ := goto_next_clamps p db o ho hptr
    have hlen : db.handle < db.occs.length := (List.getElem?_eq_some_iff.mp ho).1
    unfold visit
    rw [currentOcc_ok.mpr ho, ok_bind]
    have hc : o.currentRecord = some o.foundSet[o.recordPtr] := List.getElem?_eq_getElem hptr
    simp only [hc, h1, ok_bind]
    rw [List.drop_eq_getElem_cons hptr]
    unfold MovedTo at h2
    have ho' : db'.occs[db'.handle]? = some { o with recordPtr := if o.recordPtr + 1 < o.foundSet.length then o.recordPtr + 1 else o.recordPtr } := by
      rw [h2]; exact List.getElem?_set_self hlen
    rw [currentOcc_ok.mpr ho', ok_bind]
    by_cases hl : o.recordPtr + 1 < o.foundSet.length
    · simp only [if_pos hl] at ho' ⊢
      rw [if_neg (by omega)]
      rw [ih db' _ f ho' (by show o.recordPtr + 1 + k = o.foundSet.length; omega) (by omega) (by omega)]
      rfl
    · simp only [if_neg hl]
      rw [List.drop_eq_nil_of_le (by omega)]
      rfl

/-- C33: going to the first record and then to the next one until the pointer does not move any more visits
exactly the found set, in order, each record once. -/
theorem first_next_visits_all (p : Profile) (db : Database) (o : DOcc) (ho : db.occs[db.handle]? = some o)
    (hne : o.foundSet ≠ []) (fuel : Nat) (hf : o.foundSet.length ≤ fuel) :
    (do let db' ← db.gotoFirst; visit p fuel db') = .ok o.foundSet := by
  obtain ⟨⟨db', h1, h2⟩, _⟩ := goto_ends p db o ho hne
  rw [h1, ok_bind]
  have hlen : db.handle < db.occs.length := (List.getElem?_eq_some_iff.mp ho).1
  have ho' : db'.occs[db'.handle]? = some { o with recordPtr := 0 } := by
    rw [h2]; exact List.getElem?_set_self hlen
  have := visit_from p o.foundSet.length db' _ fuel ho' (by simp) (List.length_pos_iff.mpr hne) hf
  simpa using this

set_option maxRecDepth 20000 in
example : (do let db' ← petState.gotoFirst; visit .debug 3 db') = .ok [0, 1] := by decide

/-- C35: they panic in every state whose current found set is empty, with overflow checks on. -/
theorem empty_navigation_panics (db : Database) (o : DOcc) (ho : db.occs[db.handle]? = some o)
    (he : o.foundSet = []) (n : Nat) :
    db.gotoRecord .debug n = .error .overflow ∧ db.gotoNext .debug = .error .overflow ∧
      db.gotoLast .debug = .error .overflow := by
  unfold Database.gotoRecord Database.gotoNext Database.gotoLast
  rw [currentOcc_ok.mpr ho]
  simp only [ok_bind, he, List.length_nil]
  rw [if_pos (Nat.zero_le n)]
  exact ⟨rfl, rfl, rfl⟩

/-- C35, refuted: the database just generated has empty found sets, and `goto_record`, `goto_next_record` and
`goto_last_record` panic there in a build with overflow checks. -/
theorem empty_navigation_refuted :
    ∃ db : Database, Reachable .debug db ∧ Valid db ∧ (∀ n, db.gotoRecord .debug n = .error .overflow) ∧
      db.gotoNext .debug = .error .overflow ∧ db.gotoLast .debug = .error .overflow := by
  have hr : Reachable .debug petDb := ⟨petSchema, petDb, [], petDb_generated, rfl⟩
  have h := empty_navigation_panics petDb ((petDb.occs[1]?).getD {}) (by decide) (by decide)
  exact ⟨petDb, hr, reachable_valid _ _ hr, fun n => (h n).1, (h 0).2.1, (h 0).2.2⟩

/-- C35, the part that holds: without overflow checks no navigation panics, with any found set, and previous
and first never panic. The found set and all data stay as they are; there still is no current record. -/
theorem empty_navigation_partial (db : Database) (o : DOcc) (ho : db.occs[db.handle]? = some o)
    (he : o.foundSet = []) (n : Nat) :
    (∃ a, db.gotoPrevious = .ok a) ∧ (∃ a, db.gotoFirst = .ok a) ∧
      (∃ a m, db.gotoRecord .release n = .ok a ∧ MovedTo db a o m) ∧
      (∃ a m, db.gotoNext .release = .ok a ∧ MovedTo db a o m) ∧
      (∃ a m, db.gotoLast .release = .ok a ∧ MovedTo db a o m) := by
  refine ⟨⟨_, modCurrentOcc_ok.mpr ⟨o, ho, rfl⟩⟩, ⟨_, modCurrentOcc_ok.mpr ⟨o, ho, rfl⟩⟩, ?_, ?_, ?_⟩
  · unfold Database.gotoRecord
    rw [currentOcc_ok.mpr ho, ok_bind, if_pos (by rw [he]; exact Nat.zero_le n), he]
    exact ⟨_, _, modCurrentOcc_ok.mpr ⟨o, ho, rfl⟩, rfl⟩
  · unfold Database.gotoNext
    rw [currentOcc_ok.mpr ho, ok_bind, he]
    by_cases h : o.recordPtr < 2 ^ 64 + ([] : List Nat).length - 1
    · refine ⟨_, o.recordPtr + 1, modCurrentOcc_ok.mpr ⟨o, ho, rfl⟩, ?_⟩
      unfold MovedTo
      simp only [if_pos h]
    · refine ⟨_, o.recordPtr, modCurrentOcc_ok.mpr ⟨o, ho, rfl⟩, ?_⟩
      unfold MovedTo
      simp only [if_neg h]
  · unfold Database.gotoLast
    rw [currentOcc_ok.mpr ho, ok_bind, he]
    exact ⟨_, _, modCurrentOcc_ok.mpr ⟨o, ho, rfl⟩, rfl⟩

/-! ### C62 -/

/-- What deleting record `id` should leave: every field without that record. -/
def withoutRecord (t : DTable) (id : Nat) : DTable :=
  { t with fields := t.fields.map (fun f => { f with records := f.records.eraseIdx id }) }

/-- C62, refuted for every table: deleting a record never leaves the table without that record. It either panics or removes a whole field. -/
theorem delete_record_refuted (t : DTable) (id : Nat) :
    t.deleteRecord id ≠ .ok (withoutRecord t id) := by
  intro h
  unfold DTable.deleteRecord at h
  split at h
  · rename_i hlt
    have h := Except.ok.inj h
    have : (t.fields.eraseIdx id).length = (t.fields.map (fun f => ({ f with records := f.records.eraseIdx id } : DField))).length := by
      have := congrArg (fun t => t.fields.length) h
      exact this
    rw [List.length_eraseIdx_of_lt hlt, List.length_map] at this
    omega
  · cases h

/-- C62: what it does instead, for every table and number. -/
theorem delete_record_removes_field (t : DTable) (id : Nat) :
    (id < t.fields.length → ∃ t', t.deleteRecord id = .ok t' ∧ t'.name = t.name ∧
      t'.fields = t.fields.take id ++ t.fields.drop (id + 1)) ∧
    (t.fields.length ≤ id → t.deleteRecord id = .error .index) := by
  unfold DTable.deleteRecord
  constructor
  · intro h
    rw [if_pos h]
    exact ⟨_, rfl, rfl, List.eraseIdx_eq_take_drop_succ ..⟩
  · intro h
    rw [if_neg (by omega)]

/-- C62, the part that holds: the other fields keep all their records, including the deleted one. -/
theorem delete_record_keeps_others_partial (t t' : DTable) (id : Nat) (h : t.deleteRecord id = .ok t') :
    t'.name = t.name ∧ ∀ f ∈ t'.fields, f ∈ t.fields := by
  unfold DTable.deleteRecord at h
  split at h
  · cases h
    exact ⟨rfl, fun f hf => List.mem_of_mem_eraseIdx hf⟩
  · cases h

example : DTable.deleteRecord { name := t!"t", fields := [⟨t!"a", [t!"1", t!"2"]⟩, ⟨t!"b", [t!"3", t!"4"]⟩] } 1 =
    .ok { name := t!"t", fields := [⟨t!"a", [t!"1", t!"2"]⟩] } := by decide

end BurnFm.Props
