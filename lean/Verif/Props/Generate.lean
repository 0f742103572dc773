import Verif.Proofs.Generate

/-! Property C27: generating the test database from a file. -/

namespace BurnFm.Props
open Spec

theorem tableOf_spec (t : FTable) (hnd : (t.fields.map (·.1)).Nodup) :
    (tableOf t).name = t.name ∧ (tableOf t).fields.length = maxKey t.fields + 1 ∧
      (∀ j f, HMap.get t.fields j = some f → (tableOf t).fields[j]? = some { name := f.name, records := [] }) ∧
      (∀ j, HMap.get t.fields j = none → ∀ f, (tableOf t).fields[j]? = some f → f = { name := [], records := [] }) := by
  obtain ⟨fs, h1, h2, h3⟩ := genFields_spec t.fields hnd
  have hfs : (tableOf t).fields = fs := by unfold tableOf; rw [h1]
  refine ⟨rfl, by rw [hfs, h2], ?_, ?_⟩
  · intro j f hj
    rw [hfs, h3, HMap.contains_eq, hj]; rfl
  · intro j hj f hf
    rw [hfs, h3, HMap.contains_eq, hj] at hf
    simp at hf
    exact hf.2.symm

/-- C27: every table sits at its own id, under its own name, every field at its own id with its name and no
records; positions no id uses hold a nameless field. -/
theorem generated_tables (file : FmpFile) (hd : DistinctIds file) (db : Database)
    (h : Database.generate {} file = .ok db) (i : Nat) (t : FTable) (ht : HMap.get file.tables i = some t) :
    ∃ dt, db.tables[i]? = some dt ∧ dt.name = t.name ∧
      (∀ j f, HMap.get t.fields j = some f → dt.fields[j]? = some { name := f.name, records := [] }) ∧
      (∀ j, HMap.get t.fields j = none → ∀ f, dt.fields[j]? = some f → f = { name := [], records := [] }) := by
  obtain ⟨_, hg⟩ := generate_iff file hd db h
  have := hg.tables i
  rw [HMap.contains_eq, ht] at this
  obtain ⟨s1, _, s3, s4⟩ := tableOf_spec t (hd.fields (i, t) (HMap.mem_of_get ht))
  exact ⟨tableOf t, this, s1, s3, s4⟩

/-- C27: there are no other tables than those of the file, up to nameless fillers without fields. -/
theorem generated_no_other (file : FmpFile) (hd : DistinctIds file) (db : Database)
    (h : Database.generate {} file = .ok db) (i : Nat) (ht : HMap.get file.tables i = none) (dt : DTable)
    (hdt : db.tables[i]? = some dt) : dt = { name := [], fields := [] } := by
  obtain ⟨_, hg⟩ := generate_iff file hd db h
  have := hg.tables i
  rw [HMap.contains_eq, ht, hdt] at this
  simp at this
  exact this.2

/-- C27: every occurrence sits at its own id, points to its own table and starts with an empty found set. -/
theorem generated_occurrences (file : FmpFile) (hd : DistinctIds file) (db : Database)
    (h : Database.generate {} file = .ok db) (i : Nat) (o : FOccurrence)
    (ho : HMap.get file.tableOccurrences i = some o) :
    ∃ d, db.occs[i]? = some d ∧ d.tablePtr = o.tableActual ∧ d.foundSet = [] ∧ d.recordPtr = 0 := by
  obtain ⟨_, hg⟩ := generate_iff file hd db h
  have := hg.occs i
  rw [HMap.contains_eq, ho] at this
  exact ⟨_, this, rfl, rfl, rfl⟩

/-- Occurrence names are distinct, and ids fit the `u16` in which the code keeps them. -/
structure DistinctOccurrences (file : FmpFile) : Prop where
  names : (file.tableOccurrences.map (·.2.name)).Nodup
  small : ∀ e ∈ file.tableOccurrences, e.1 < 65536

theorem find_reverse {α : Type} (l : List (Nat × α)) (key : Nat × α → Str) (hd : (l.map key).Nodup)
    (e : Nat × α) (he : e ∈ l) : l.reverse.find? (fun x => key x == key e) = some e := by
  have hd : (l.reverse.map key).Nodup := by
    rw [List.map_reverse]; exact (List.reverse_perm _).nodup_iff.mpr hd
  have he : e ∈ l.reverse := List.mem_reverse.mpr he
  generalize l.reverse = l at hd he
  induction l with
  | nil => cases he
  | cons a l ih =>
    rw [List.map_cons, List.nodup_cons] at hd
    rw [List.find?_cons]
    rcases List.mem_cons.mp he with rfl | he
    · simp
    · have : key a ≠ key e := fun h => hd.1 (List.mem_map.mpr ⟨e, he, h.symm⟩)
      have hb : (key a == key e) = false := by simpa using this
      rw [hb]
      exact ih hd.2 he

theorem indicesOf_get (file : FmpFile) (hn : DistinctOccurrences file) (i : Nat) (o : FOccurrence)
    (ho : (i, o) ∈ file.tableOccurrences) : SMap.get (indicesOf file) o.name = some i := by
  unfold indicesOf
  rw [SMap.get_foldl_insert file.tableOccurrences (fun e => e.2.name) (fun e => e.1 % 65536)]
  have := find_reverse file.tableOccurrences (fun e => e.2.name) hn.names (i, o) ho
  simp only at this
  rw [this]
  have := hn.small (i, o) ho
  simp only at this
  simp [Nat.mod_eq_of_lt this]

theorem indicesOf_none (file : FmpFile) (name : Str) (h : ∀ e ∈ file.tableOccurrences, e.2.name ≠ name) :
    SMap.get (indicesOf file) name = none := by
  unfold indicesOf
  rw [SMap.get_foldl_insert file.tableOccurrences (fun e => e.2.name) (fun e => e.1 % 65536)]
  have : file.tableOccurrences.reverse.find? (fun x => x.2.name == name) = none := by
    rw [List.find?_eq_none]
    intro x hx
    simpa using h x (List.mem_reverse.mp hx)
  rw [this]; rfl

/-- C27: when the names are distinct, the name of an occurrence resolves to that occurrence. -/
theorem generated_names (file : FmpFile) (hd : DistinctIds file) (hn : DistinctOccurrences file) (db : Database)
    (h : Database.generate {} file = .ok db) (i : Nat) (o : FOccurrence)
    (ho : HMap.get file.tableOccurrences i = some o) :
    ∃ d, db.occurrenceByName o.name = .ok d ∧ db.occs[i]? = some d ∧ d.tablePtr = o.tableActual := by
  obtain ⟨_, hg⟩ := generate_iff file hd db h
  obtain ⟨d, h1, h2, _⟩ := generated_occurrences file hd db h i o ho
  refine ⟨d, ?_, h1, h2⟩
  unfold Database.occurrenceByName
  rw [hg.indices, indicesOf_get file hn i o (HMap.mem_of_get ho)]
  exact idx_of h1

/-- C27: generation succeeds whenever the relationships join occurrences of the file. -/
theorem generate_succeeds (file : FmpFile) (hd : DistinctIds file)
    (hr : ∀ e ∈ file.relationships, e.2.table1 ∈ file.tableOccurrences.map (·.1) ∧
      e.2.table2 ∈ file.tableOccurrences.map (·.1)) :
    ∃ db, Database.generate {} file = .ok db := by
  obtain ⟨db, h, _⟩ := generate_ok file hd (fun e he => ⟨le_maxKey _ (hr e he).1, le_maxKey _ (hr e he).2⟩)
  exact ⟨db, h⟩

theorem get_perm {α : Type} {m n : HMap α} (hp : m.Perm n) (hd : (m.map (·.1)).Nodup) (k : Nat) :
    HMap.get m k = HMap.get n k := by
  cases hn : HMap.get n k with
  | some v => exact HMap.get_of_mem hd (hp.mem_iff.mpr (HMap.mem_of_get hn))
  | none =>
    cases hm : HMap.get m k with
    | none => rfl
    | some v =>
      have := HMap.get_of_mem ((hp.map (·.1)).nodup_iff.mp hd) (hp.mem_iff.mp (HMap.mem_of_get hm))
      rw [hn] at this; cases this

theorem contains_perm {α : Type} {m n : HMap α} (hp : m.Perm n) (hd : (m.map (·.1)).Nodup) (k : Nat) :
    HMap.contains m k = HMap.contains n k := by
  rw [HMap.contains_eq, HMap.contains_eq, get_perm hp hd]

/-- C27: two files that differ only in the iteration order of their maps give the same tables, the same
current occurrence, the same name resolution and the same occurrences, up to the order in which an
occurrence lists its relationships. -/
theorem generate_order_irrelevant (f₁ f₂ : FmpFile) (hd : DistinctIds f₁) (hn : DistinctOccurrences f₁)
    (ht : f₁.tables.Perm f₂.tables) (ho : f₁.tableOccurrences.Perm f₂.tableOccurrences)
    (hr : f₁.relationships.Perm f₂.relationships) (d₁ : Database) (h₁ : Database.generate {} f₁ = .ok d₁) :
    ∃ d₂, Database.generate {} f₂ = .ok d₂ ∧ d₂.tables = d₁.tables ∧ d₂.handle = d₁.handle ∧
      (∀ name, SMap.get d₂.indices name = SMap.get d₁.indices name) ∧ d₂.occs.length = d₁.occs.length ∧
      ∀ (i : Nat) (a b : DOcc), d₁.occs[i]? = some a → d₂.occs[i]? = some b →
        b.tablePtr = a.tablePtr ∧ b.foundSet = a.foundSet ∧ b.recordPtr = a.recordPtr ∧
          b.related.Perm a.related := by
  obtain ⟨hr1, g1⟩ := generate_iff f₁ hd d₁ h₁
  have hd2 : DistinctIds f₂ := ⟨(ht.map (·.1)).nodup_iff.mp hd.tables,
    fun e he => hd.fields e (ht.mem_iff.mpr he), (ho.map (·.1)).nodup_iff.mp hd.occs⟩
  have hn2 : DistinctOccurrences f₂ := ⟨(ho.map (·.2.name)).nodup_iff.mp hn.names,
    fun e he => hn.small e (ho.mem_iff.mpr he)⟩
  obtain ⟨d₂, h₂, g2⟩ := generate_ok f₂ hd2 (fun e he => by
    rw [← maxKey_perm ho]; exact hr1 e (hr.mem_iff.mpr he))
  refine ⟨d₂, h₂, ?_, ?_, ?_, ?_, ?_⟩
  · apply List.ext_getElem?
    intro i
    rw [g1.tables, g2.tables, contains_perm ht hd.tables, get_perm ht hd.tables, maxKey_perm ht]
  · rw [g1.handle, g2.handle, minKey_perm ho]
  · intro name
    rw [g1.indices, g2.indices]
    by_cases h : ∃ e ∈ f₁.tableOccurrences, e.2.name = name
    · obtain ⟨⟨i, o⟩, he, rfl⟩ := h
      rw [indicesOf_get f₁ hn i o he, indicesOf_get f₂ hn2 i o (ho.mem_iff.mp he)]
    · have h1 : ∀ e ∈ f₁.tableOccurrences, e.2.name ≠ name := fun e he hx => h ⟨e, he, hx⟩
      rw [indicesOf_none f₁ name h1, indicesOf_none f₂ name (fun e he => h1 e (ho.mem_iff.mpr he))]
  · rw [g1.occsLen, g2.occsLen, maxKey_perm ho]
  · intro i a b ha hb
    rw [g1.occs, contains_perm ho hd.occs, get_perm ho hd.occs, maxKey_perm ho] at ha
    rw [g2.occs] at hb
    cases hx : (if HMap.contains f₂.tableOccurrences i then (HMap.get f₂.tableOccurrences i).map occOf
        else if i < maxKey f₂.tableOccurrences + 1 then some {} else none) with
    | none => rw [hx] at ha; cases ha
    | some o =>
      rw [hx] at ha hb
      cases ha; cases hb
      refine ⟨rfl, rfl, rfl, ?_⟩
      exact (List.Perm.flatMap_right _ hr.symm)

/-- C27: what is stored for the relationships: each side once in each of its two occurrences, and one
neighbour pair. -/
theorem generated_relationships (file : FmpFile) (hd : DistinctIds file) (db : Database)
    (h : Database.generate {} file = .ok db) (i : Nat) (d : DOcc) (hi : db.occs[i]? = some d) :
    d.related = file.relationships.flatMap (fun e =>
      (if e.2.table1 = i then [⟨e.2.comparison, e.2.field1, e.2.field2, e.2.table2, []⟩] else []) ++
      (if e.2.table2 = i then [⟨e.2.comparison, e.2.field2, e.2.field1, e.2.table1, []⟩] else [])) := by
  obtain ⟨_, hg⟩ := generate_iff file hd db h
  have := hg.occs i
  rw [hi] at this
  cases hx : (if HMap.contains file.tableOccurrences i then (HMap.get file.tableOccurrences i).map occOf
        else if i < maxKey file.tableOccurrences + 1 then some {} else none) with
  | none => rw [hx] at this; cases this
  | some o =>
    rw [hx] at this
    cases this
    rfl

/-- A schema with two tables (one with a gap in its field ids), three occurrences and two relationships. -/
def petSchema : FmpFile :=
  { tables := [(3, { name := t!"pet", fields := [(1, { name := t!"owner" }), (4, { name := t!"kind" })] }),
               (1, { name := t!"person", fields := [(1, { name := t!"id" }), (2, { name := t!"name" })] })]
    tableOccurrences := [(2, { name := t!"pets", tableActual := 3 }), (1, { name := t!"people", tableActual := 1 }),
                         (5, { name := t!"others", tableActual := 1 })]
    relationships := [(1, { table1 := 1, field1 := 1, table2 := 2, field2 := 1, comparison := .equal }),
                      (2, { table1 := 2, field1 := 1, table2 := 5, field2 := 1, comparison := .notEqual })] }

theorem petSchema_distinct : DistinctIds petSchema := by
  refine ⟨by decide, ?_, by decide⟩
  intro e he
  have : e ∈ [((3 : Nat), ({ name := t!"pet", fields := [(1, { name := t!"owner" }), (4, { name := t!"kind" })] } : FTable)),
               (1, { name := t!"person", fields := [(1, { name := t!"id" }), (2, { name := t!"name" })] })] := he
  simp only [List.mem_cons, List.not_mem_nil, or_false] at this
  rcases this with rfl | rfl <;> decide

theorem petSchema_names : DistinctOccurrences petSchema := by
  refine ⟨by decide, ?_⟩
  intro e he
  have : e.1 ∈ petSchema.tableOccurrences.map (·.1) := List.mem_map.mpr ⟨e, he, rfl⟩
  have : e.1 ∈ [2, 1, 5] := this
  simp only [List.mem_cons, List.not_mem_nil, or_false] at this
  omega

/-- The database generated from `petSchema`. -/
def petDb : Database := match Database.generate {} petSchema with | .ok db => db | .error _ => {}

theorem petDb_generated : Database.generate {} petSchema = .ok petDb := by rfl

example : petDb.tables.map (·.name) = [[], t!"person", [], t!"pet"] := by decide
example : petDb.occs.map (·.tablePtr) = [0, 1, 3, 0, 0, 1] := by decide

end BurnFm.Props
