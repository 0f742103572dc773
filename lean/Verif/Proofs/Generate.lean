import Verif.Proofs.Database
import Verif.Proofs.HMap
import Verif.Proofs.SMap

/-! Generation of the database from a file. -/

namespace BurnFm
open Spec

theorem le_maxKey {α : Type} (m : HMap α) {k : Nat} (h : k ∈ m.map (·.1)) : k ≤ maxKey m := by
  unfold maxKey
  cases hm : (m.map (·.1)).max? with
  | none => rw [List.max?_eq_none_iff] at hm; rw [hm] at h; cases h
  | some b => exact (List.max?_eq_some_iff.mp hm).2 k h

theorem maxKey_perm {α : Type} {m n : HMap α} (h : m.Perm n) : maxKey m = maxKey n := by
  have hk := h.map (·.1)
  have key : ∀ (a b : HMap α), (a.map (·.1)).Perm (b.map (·.1)) → maxKey a ≤ maxKey b := by
    intro a b hab
    unfold maxKey
    cases ha : (a.map (·.1)).max? with
    | none => simp
    | some x => exact le_maxKey b (hab.mem_iff.mp (List.max?_eq_some_iff.mp ha).1)
  exact Nat.le_antisymm (key _ _ hk) (key _ _ hk.symm)

theorem minKey_perm {α : Type} {m n : HMap α} (h : m.Perm n) : minKey m = minKey n := by
  have hk := h.map (·.1)
  have key : ∀ (a b : HMap α), (a.map (·.1)).Perm (b.map (·.1)) → minKey a ≤ minKey b := by
    intro a b hab
    unfold minKey
    cases hb : (b.map (·.1)).min? with
    | none =>
      rw [List.min?_eq_none_iff] at hb
      rw [hb] at hab
      rw [List.perm_nil.mp hab]; simp
    | some x =>
      have hx := hab.mem_iff.mpr (List.min?_eq_some_iff.mp hb).1
      cases ha : (a.map (·.1)).min? with
      | none => simp
      | some y => exact (List.min?_eq_some_iff.mp ha).2 x hx
  exact Nat.le_antisymm (key _ _ hk) (key _ _ hk.symm)

theorem resize_nil {α : Type} (n : Nat) (d : α) : resize [] n d = List.replicate n d := by
  simp [resize]

/-- Storing the entries of a map in a vector that is long enough. -/
theorem store_all {α β : Type} (mk : Nat × α → Res β) (g : α → β) (m : HMap α) (hnd : (m.map (·.1)).Nodup)
    (hmk : ∀ e ∈ m, mk e = .ok (g e.2)) (xs : List β) (hl : ∀ k ∈ m.map (·.1), k < xs.length) :
    ∃ ys, m.foldlM (fun acc e => do let v ← mk e; setIdx acc e.1 v) xs = .ok ys ∧ ys.length = xs.length ∧
      ∀ i, ys[i]? = if HMap.contains m i then (HMap.get m i).map g else xs[i]? := by
  induction m generalizing xs with
  | nil => exact ⟨xs, rfl, rfl, fun i => by simp [HMap.contains]⟩
  | cons e m ih =>
    rw [List.map_cons, List.nodup_cons] at hnd
    have he : e.1 < xs.length := hl e.1 (by simp)
    obtain ⟨ys, h1, h2, h3⟩ := ih hnd.2 (fun x hx => hmk x (List.mem_cons_of_mem _ hx)) (xs.set e.1 (g e.2))
      (fun k hk => by rw [List.length_set]; exact hl k (by rw [List.map_cons]; exact List.mem_cons_of_mem _ hk))
    refine ⟨ys, ?_, by rw [h2, List.length_set], ?_⟩
    · rw [List.foldlM_cons, hmk e List.mem_cons_self, ok_bind, setIdx_ok.mpr ⟨he, rfl⟩, ok_bind]
      exact h1
    · intro i
      rw [h3, HMap.contains_cons, HMap.get_cons]
      by_cases hi : e.1 = i
      · have hc : HMap.contains m i = false := by
          cases hc : HMap.contains m i with
          | false => rfl
          | true => rw [HMap.contains_iff] at hc; exact absurd (hi ▸ hc) hnd.1
        subst hi
        simp [hc, List.getElem?_set_self he]
      · simp [hi, List.getElem?_set_ne hi]

theorem genFields_spec (m : HMap FField) (hnd : (m.map (·.1)).Nodup) :
    ∃ fs, genFields m = .ok fs ∧ fs.length = maxKey m + 1 ∧
      ∀ j, fs[j]? = if HMap.contains m j then (HMap.get m j).map (fun f => { name := f.name })
        else if j < maxKey m + 1 then some {} else none := by
  obtain ⟨fs, h1, h2, h3⟩ := store_all (fun e => (pure { name := e.2.name, records := [] } : Res DField))
    (fun f => ({ name := f.name } : DField)) m hnd (fun e _ => rfl) (List.replicate (maxKey m + 1) {})
    (fun k hk => by simp; have := le_maxKey m hk; omega)
  refine ⟨fs, ?_, by simpa using h2, ?_⟩
  · unfold genFields
    rw [resize_nil]
    exact h1
  · intro j
    rw [h3, List.getElem?_replicate]

/-- The table generated from a table definition. -/
def tableOf (t : FTable) : DTable :=
  { name := t.name
    fields := match genFields t.fields with | .ok fs => fs | .error _ => [] }

theorem genTables_spec (file : FmpFile) (hnd : (file.tables.map (·.1)).Nodup)
    (hf : ∀ e ∈ file.tables, (e.2.fields.map (·.1)).Nodup) :
    ∃ ts, genTables [] file = .ok ts ∧ ts.length = maxKey file.tables + 1 ∧
      ∀ i, ts[i]? = if HMap.contains file.tables i then (HMap.get file.tables i).map tableOf
        else if i < maxKey file.tables + 1 then some {} else none := by
  obtain ⟨ts, h1, h2, h3⟩ := store_all
    (fun e => do let fields ← genFields e.2.fields; (pure { name := e.2.name, fields := fields } : Res DTable))
    tableOf file.tables hnd (fun e he => by
      obtain ⟨fs, h, _⟩ := genFields_spec e.2.fields (hf e he)
      unfold tableOf
      rw [h]; rfl)
    (List.replicate (maxKey file.tables + 1) {})
    (fun k hk => by simp; have := le_maxKey _ hk; omega)
  refine ⟨ts, ?_, by simpa using h2, ?_⟩
  · unfold genTables
    rw [resize_nil, ← h1]
    congr 1
    funext acc e
    cases genFields e.2.fields <;> rfl
  · intro i
    rw [h3, List.getElem?_replicate]

/-- The occurrence generated from an occurrence definition. -/
def occOf (o : FOccurrence) : DOcc := { tablePtr := o.tableActual }

theorem pair_fold {α β γ : Type} (l : List α) (f : β → α → Res β) (g : γ → α → γ) (b : β) (c : γ) :
    l.foldlM (fun (acc : β × γ) e => do let x ← f acc.1 e; pure (x, g acc.2 e)) (b, c) =
      (do let x ← l.foldlM f b; pure (x, l.foldl g c) : Res (β × γ)) := by
  induction l generalizing b c with
  | nil => rfl
  | cons a l ih =>
    rw [List.foldlM_cons, List.foldlM_cons, List.foldl_cons]
    cases h : f b a with
    | error e => rfl
    | ok x =>
      simp only [ok_bind, pure_ok]
      exact ih x (g c a)

/-- The names of the occurrences. -/
def indicesOf (file : FmpFile) : SMap Nat :=
  file.tableOccurrences.foldl (fun m e => SMap.insert m e.2.name (e.1 % 65536)) []

theorem genOccs_eq (file : FmpFile) :
    genOccs [] [] file = (do
      let os ← file.tableOccurrences.foldlM (fun acc e => setIdx acc e.1 (occOf e.2))
        (List.replicate (maxKey file.tableOccurrences + 1) {})
      pure (os, indicesOf file)) := by
  unfold genOccs
  rw [resize_nil]
  exact pair_fold file.tableOccurrences (fun acc e => setIdx acc e.1 (occOf e.2))
    (fun m e => SMap.insert m e.2.name (e.1 % 65536)) _ _

theorem genOccs_spec (file : FmpFile) (hnd : (file.tableOccurrences.map (·.1)).Nodup) :
    ∃ os, genOccs [] [] file = .ok (os, indicesOf file) ∧ os.length = maxKey file.tableOccurrences + 1 ∧
      ∀ i, os[i]? = if HMap.contains file.tableOccurrences i then (HMap.get file.tableOccurrences i).map occOf
        else if i < maxKey file.tableOccurrences + 1 then some {} else none := by
  obtain ⟨os, h1, h2, h3⟩ := store_all (fun e => (pure (occOf e.2) : Res DOcc)) occOf file.tableOccurrences hnd
    (fun e _ => rfl) (List.replicate (maxKey file.tableOccurrences + 1) {})
    (fun k hk => by simp; have := le_maxKey _ hk; omega)
  refine ⟨os, ?_, by simpa using h2, ?_⟩
  · rw [genOccs_eq]
    have : file.tableOccurrences.foldlM (fun acc e => setIdx acc e.1 (occOf e.2))
        (List.replicate (maxKey file.tableOccurrences + 1) {}) = .ok os := h1
    rw [this]; rfl
  · intro i
    rw [h3, List.getElem?_replicate]

/-- The side of a relationship seen from its first occurrence. -/
def forward (r : FRelationship) : RelSet :=
  { joinBy := r.comparison, field1 := r.field1, field2 := r.field2, occurrence := r.table2 }

/-- The side of a relationship seen from its second occurrence. -/
def backward (r : FRelationship) : RelSet :=
  { joinBy := r.comparison, field1 := r.field2, field2 := r.field1, occurrence := r.table1 }

/-- What a relationship adds to occurrence `i`. -/
def sides (r : FRelationship) (i : Nat) : List RelSet :=
  (if r.table1 = i then [forward r] else []) ++ (if r.table2 = i then [backward r] else [])

theorem modIdx_of {α : Type} {xs : List α} {i : Nat} (f : α → α) (h : i < xs.length) :
    modIdx xs i f = .ok (xs.set i (f xs[i])) := modIdx_ok.mpr ⟨xs[i], List.getElem?_eq_getElem h, rfl⟩

theorem getElem?_mod {α : Type} (xs : List α) (i k : Nat) (f : α → α) (h : i < xs.length) :
    (xs.set i (f xs[i]))[k]? = (xs[k]?).map (fun a => if i = k then f a else a) := by
  by_cases hk : i = k
  · subst hk
    rw [List.getElem?_set_self h, List.getElem?_eq_getElem h]
    simp
  · rw [List.getElem?_set_ne hk]
    simp [hk]

theorem modIdx_spec {α : Type} {xs : List α} {i : Nat} (f : α → α) (h : i < xs.length) :
    ∃ ys, modIdx xs i f = .ok ys ∧ ys.length = xs.length ∧
      ∀ k, ys[k]? = (xs[k]?).map (fun a => if i = k then f a else a) :=
  ⟨_, modIdx_of f h, by simp, fun k => getElem?_mod xs i k f h⟩

theorem addRelSets_ok {occs : List DOcc} {r : FRelationship} (h1 : r.table1 < occs.length)
    (h2 : r.table2 < occs.length) :
    ∃ os, addRelSets occs r = .ok os ∧ os.length = occs.length ∧
      ∀ i : Nat, os[i]? = (occs[i]?).map (fun o : DOcc => { o with related := o.related ++ sides r i }) := by
  unfold addRelSets
  obtain ⟨y1, a1, a2, a3⟩ := modIdx_spec (xs := occs) (i := r.table1) (fun o : DOcc => { o with related := o.related ++
    [{ joinBy := r.comparison, field1 := r.field1, field2 := r.field2, occurrence := r.table2 }] }) h1
  obtain ⟨y2, b1, b2, b3⟩ := modIdx_spec (xs := y1) (i := r.table2) (fun o : DOcc => { o with related := o.related ++
    [{ joinBy := r.comparison, field1 := r.field2, field2 := r.field1, occurrence := r.table1 }] }) (by omega)
  rw [a1, ok_bind, b1]
  refine ⟨_, rfl, by omega, ?_⟩
  intro i
  rw [b3, a3]
  cases occs[i]? with
  | none => rfl
  | some o =>
    simp only [Option.map_some, sides, forward, backward]
    by_cases e1 : r.table1 = i <;> by_cases e2 : r.table2 = i <;> simp [e1, e2]

theorem addRelSets_fail {occs : List DOcc} {r : FRelationship}
    (h : ¬ (r.table1 < occs.length ∧ r.table2 < occs.length)) : addRelSets occs r = .error .index := by
  unfold addRelSets
  by_cases h1 : r.table1 < occs.length
  · rw [modIdx_of _ h1, ok_bind]
    have h2 : ¬ r.table2 < occs.length := fun x => h ⟨h1, x⟩
    unfold modIdx idx
    rw [List.getElem?_eq_none (by simp; omega)]
    rfl
  · unfold modIdx idx
    rw [List.getElem?_eq_none (by omega)]
    rfl

/-- The relation pairs handed to the relation manager. -/
def relPairs (rels : HMap FRelationship) : List (Nat × Nat) := rels.map (fun e => (e.2.table1, e.2.table2))

theorem genRels_eq (occs : List DOcc) (g : Graph) (file : FmpFile) :
    genRels occs g file = (do
      let os ← file.relationships.foldlM (fun acc e => addRelSets acc e.2) occs
      pure (os, (relPairs file.relationships).foldl (fun g c => addRelation g c.1 c.2) g)) := by
  unfold genRels relPairs
  rw [List.foldl_map]
  exact pair_fold file.relationships (fun acc e => addRelSets acc e.2)
    (fun g e => addRelation g e.2.table1 e.2.table2) _ _

theorem genRels_ok (rels : HMap FRelationship) (occs : List DOcc)
    (h : ∀ e ∈ rels, e.2.table1 < occs.length ∧ e.2.table2 < occs.length) :
    ∃ os, rels.foldlM (fun acc e => addRelSets acc e.2) occs = .ok os ∧ os.length = occs.length ∧
      ∀ i : Nat, os[i]? = (occs[i]?).map (fun o : DOcc =>
        { o with related := o.related ++ rels.flatMap (fun e => sides e.2 i) }) := by
  induction rels generalizing occs with
  | nil =>
    refine ⟨occs, rfl, rfl, fun i => ?_⟩
    cases occs[i]? <;> simp
  | cons e rels ih =>
    have he := h e List.mem_cons_self
    obtain ⟨o1, a1, a2, a3⟩ := addRelSets_ok he.1 he.2
    obtain ⟨os, b1, b2, b3⟩ := ih o1 (fun x hx => by rw [a2]; exact h x (List.mem_cons_of_mem _ hx))
    refine ⟨os, ?_, b2.trans a2, ?_⟩
    · rw [List.foldlM_cons, a1, ok_bind]; exact b1
    · intro i
      rw [b3, a3]
      cases occs[i]? <;> simp

theorem genRels_fail (rels : HMap FRelationship) (occs : List DOcc)
    (h : ¬ ∀ e ∈ rels, e.2.table1 < occs.length ∧ e.2.table2 < occs.length) :
    rels.foldlM (fun acc e => addRelSets acc e.2) occs = .error .index := by
  induction rels generalizing occs with
  | nil => exact absurd (fun _ h => by cases h) h
  | cons e rels ih =>
    rw [List.foldlM_cons]
    by_cases he : e.2.table1 < occs.length ∧ e.2.table2 < occs.length
    · obtain ⟨o1, a1, a2, _⟩ := addRelSets_ok he.1 he.2
      rw [a1, ok_bind]
      apply ih
      intro hall
      apply h
      intro x hx
      rcases List.mem_cons.mp hx with rfl | hx
      · exact he
      · have := hall x hx; rw [a2] at this; exact this
    · rw [addRelSets_fail he]; rfl

/-- Every relationship joins occurrences within the range of occurrence ids. -/
def RelsInRange (file : FmpFile) : Prop :=
  ∀ e ∈ file.relationships, e.2.table1 ≤ maxKey file.tableOccurrences ∧ e.2.table2 ≤ maxKey file.tableOccurrences

/-- Everything about the generated database. -/
structure Generated (file : FmpFile) (db : Database) : Prop where
  tablesLen : db.tables.length = maxKey file.tables + 1
  tables : ∀ i, db.tables[i]? = if HMap.contains file.tables i then (HMap.get file.tables i).map tableOf
        else if i < maxKey file.tables + 1 then some {} else none
  occsLen : db.occs.length = maxKey file.tableOccurrences + 1
  occs : ∀ i, db.occs[i]? = (if HMap.contains file.tableOccurrences i then (HMap.get file.tableOccurrences i).map occOf
        else if i < maxKey file.tableOccurrences + 1 then some {} else none).map (fun o : DOcc =>
          { o with related := file.relationships.flatMap (fun e => sides e.2 i) })
  indices : db.indices = indicesOf file
  handle : db.handle = minKey file.tableOccurrences % 65536
  graph : db.graph = (relPairs file.relationships).foldl (fun g c => addRelation g c.1 c.2) Graph.new

theorem generate_ok (file : FmpFile) (hd : DistinctIds file) (hr : RelsInRange file) :
    ∃ db, Database.generate {} file = .ok db ∧ Generated file db := by
  obtain ⟨ts, t1, t2, t3⟩ := genTables_spec file hd.tables hd.fields
  obtain ⟨os, o1, o2, o3⟩ := genOccs_spec file hd.occs
  obtain ⟨os', r1, r2, r3⟩ := genRels_ok file.relationships os (fun e he => by
    have := hr e he; rw [o2]; omega)
  refine ⟨{ occs := os', indices := indicesOf file, handle := minKey file.tableOccurrences % 65536, tables := ts,
            graph := (relPairs file.relationships).foldl (fun g c => addRelation g c.1 c.2) Graph.new },
    ?_, t2, t3, r2.trans o2, ?_, rfl, rfl, rfl⟩
  · unfold Database.generate
    simp only [t1, o1, ok_bind, genRels_eq, r1]
    rfl
  · intro i
    show os'[i]? = _
    rw [r3, o3]
    by_cases hc : HMap.contains file.tableOccurrences i = true
    · rw [if_pos hc]
      cases HMap.get file.tableOccurrences i <;> simp [occOf]
    · rw [if_neg hc]
      split <;> simp

theorem generate_iff (file : FmpFile) (hd : DistinctIds file) (db : Database) :
    Database.generate {} file = .ok db → RelsInRange file ∧ Generated file db := by
  intro h
  by_cases hr : RelsInRange file
  · obtain ⟨db', h1, h2⟩ := generate_ok file hd hr
    rw [h] at h1; cases h1
    exact ⟨hr, h2⟩
  · exfalso
    obtain ⟨ts, t1, _, _⟩ := genTables_spec file hd.tables hd.fields
    obtain ⟨os, o1, o2, _⟩ := genOccs_spec file hd.occs
    have hf := genRels_fail file.relationships os (fun hall => hr (fun e he => by
      have := hall e he; rw [o2] at this; omega))
    unfold Database.generate at h
    simp only [t1, o1, ok_bind, genRels_eq, hf] at h
    cases h

/-! Generated databases satisfy the invariant, with any keys. -/

theorem store_forall {α β : Type} {P : β → Prop} (mk : Nat × α → Res β) (m : HMap α)
    (hmk : ∀ e v, mk e = .ok v → P v) (xs ys : List β) (hx : ∀ x ∈ xs, P x)
    (h : m.foldlM (fun acc e => do let v ← mk e; setIdx acc e.1 v) xs = .ok ys) : ∀ y ∈ ys, P y := by
  induction m generalizing xs with
  | nil => cases h; exact hx
  | cons e m ih =>
    rw [List.foldlM_cons] at h
    obtain ⟨xs', h1, h2⟩ := bind_ok.mp h
    obtain ⟨v, hv, h1⟩ := bind_ok.mp h1
    obtain ⟨_, rfl⟩ := setIdx_ok.mp h1
    refine ih _ ?_ h2
    intro x hxm
    rcases mem_set hxm with rfl | hxm
    · exact hmk e _ hv
    · exact hx x hxm

theorem genFields_blank {m : HMap FField} {fs : List DField} (h : genFields m = .ok fs) : ∀ f ∈ fs, f.records = [] := by
  unfold genFields at h
  rw [resize_nil] at h
  refine store_forall (P := fun f : DField => f.records = [])
    (fun e : Nat × FField => (pure { name := e.2.name, records := [] } : Res DField)) m ?_
    (List.replicate (maxKey m + 1) {}) fs ?_ h
  · intro e v hv; cases hv; rfl
  · intro x hx; rw [List.eq_of_mem_replicate hx]

theorem genTables_blank {file : FmpFile} {ts : List DTable} (h : genTables [] file = .ok ts) :
    ∀ t ∈ ts, ∀ f ∈ t.fields, f.records = [] := by
  unfold genTables at h
  rw [resize_nil] at h
  refine store_forall (P := fun t : DTable => ∀ f ∈ t.fields, f.records = [])
    (fun e : Nat × FTable => do
      let fields ← genFields e.2.fields; (pure { name := e.2.name, fields := fields } : Res DTable))
    file.tables ?_ (List.replicate (maxKey file.tables + 1) {}) ts ?_ ?_
  · intro e v hv
    obtain ⟨fs, hf, hv⟩ := bind_ok.mp hv
    cases hv
    exact genFields_blank hf
  · intro x hx; rw [List.eq_of_mem_replicate hx]; simp
  · rw [← h]
    congr 1
    funext acc e
    cases genFields e.2.fields <;> rfl

theorem genOccs_blank {file : FmpFile} {r : List DOcc × SMap Nat} (h : genOccs [] [] file = .ok r) :
    ∀ o ∈ r.1, o.foundSet = [] := by
  rw [genOccs_eq] at h
  obtain ⟨os, h1, h2⟩ := bind_ok.mp h
  cases h2
  refine store_forall (P := fun o : DOcc => o.foundSet = []) (fun e : Nat × FOccurrence => (pure (occOf e.2) : Res DOcc))
    file.tableOccurrences ?_ (List.replicate (maxKey file.tableOccurrences + 1) {}) os ?_ h1
  · intro e v hv; cases hv; rfl
  · intro x hx; rw [List.eq_of_mem_replicate hx]

theorem addRelSets_blank {occs os : List DOcc} {r : FRelationship} (h : addRelSets occs r = .ok os)
    (hb : ∀ o ∈ occs, o.foundSet = []) : ∀ o ∈ os, o.foundSet = [] := by
  by_cases hr : r.table1 < occs.length ∧ r.table2 < occs.length
  · obtain ⟨os', h1, _, h3⟩ := addRelSets_ok hr.1 hr.2
    rw [h] at h1; cases h1
    intro o ho
    obtain ⟨i, hi, rfl⟩ := List.getElem_of_mem ho
    have := h3 i
    rw [List.getElem?_eq_getElem hi] at this
    cases hc : occs[i]? with
    | none => rw [hc] at this; cases this
    | some o' =>
      rw [hc] at this
      simp only [Option.map_some, Option.some.injEq] at this
      rw [this]
      exact hb o' (List.mem_of_getElem? hc)
  · rw [addRelSets_fail hr] at h; cases h

theorem relSets_blank (rels : HMap FRelationship) {occs os : List DOcc}
    (h : rels.foldlM (fun acc e => addRelSets acc e.2) occs = .ok os)
    (hb : ∀ o ∈ occs, o.foundSet = []) : ∀ o ∈ os, o.foundSet = [] := by
  induction rels generalizing occs with
  | nil => cases h; exact hb
  | cons e rels ih =>
    rw [List.foldlM_cons] at h
    obtain ⟨o1, a, b⟩ := bind_ok.mp h
    exact ih b (addRelSets_blank a hb)

theorem inv_generate {file : FmpFile} {db : Database} (h : Database.generate {} file = .ok db) : Inv' db := by
  unfold Database.generate at h
  obtain ⟨ts, h1, h⟩ := bind_ok.mp h
  obtain ⟨⟨os, ix⟩, h2, h⟩ := bind_ok.mp h
  obtain ⟨⟨os', g⟩, h3, h⟩ := bind_ok.mp h
  have hb := genTables_blank h1
  have ho : ∀ o ∈ os', o.foundSet = [] := by
    have h0 := genOccs_blank h2
    rw [genRels_eq] at h3
    obtain ⟨os2, h4, h5⟩ := bind_ok.mp h3
    cases h5
    exact relSets_blank _ h4 h0
  cases h
  refine ⟨?_, ?_⟩
  · rw [rect_iff]
    intro t ht f hf g hg
    rw [hb t ht f hf, hb t ht g hg]
  · intro o hom
    have he := ho o hom
    refine ⟨by rw [he]; exact List.Pairwise.nil, by rw [he]; simp, fun hne => absurd he hne, ?_⟩
    intro _ row hrow n hn
    have hmem := List.mem_of_getElem? hrow
    obtain ⟨t, ht, rfl⟩ := List.mem_map.mp hmem
    obtain ⟨f, hf, rfl⟩ := List.mem_map.mp hn
    rw [hb t ht f hf]; rfl

theorem inv_reachable {p : Profile} {db : Database} (h : Reachable p db) : Inv' db := by
  obtain ⟨file, start, ops, h1, h2⟩ := h
  exact inv_runOps (inv_generate h1) h2

end BurnFm
