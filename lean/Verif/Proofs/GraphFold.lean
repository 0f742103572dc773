import Verif.Proofs.FileRun
import Verif.Proofs.SchemaFold

/-! Running the events about tables, layouts, occurrences and relationships. -/

namespace BurnFm
open Spec (Event What OccurrenceDef CriterionDef LayoutDef LayoutItem byteAt)

theorem modify_last {α : Type} {m : HMap α} {k : Nat} {v : α} (hm : HMap.contains m k = false) (f : α → α) :
    HMap.modify (m ++ [(k, v)]) k f = m ++ [(k, f v)] := modify_mid hm (b := []) rfl f

/-! Tables -/

theorem shape_toChunk (e : Event) : Shape (toChunk e) := by
  obtain ⟨path, what⟩ := e
  cases what <;> exact ⟨by simp [toChunk], by simp [toChunk], by simp [toChunk], by simp [toChunk]⟩

theorem meaning_toChunk (e : Event) : meaning (toChunk e) = some e.what := by
  obtain ⟨path, what⟩ := e
  cases what <;> rfl

theorem path_toChunk (e : Event) : (toChunk e).path = e.path := by
  obtain ⟨path, what⟩ := e
  cases what <;> rfl

theorem eventsOf_toChunk (es : List Event) : eventsOf (es.map toChunk) = es := by
  unfold eventsOf
  rw [List.filterMap_map]
  rw [show ((fun ch : Chunk => (meaning ch).map fun w => (⟨ch.path, w⟩ : Event)) ∘ toChunk) = some from funext fun e => by
    simp only [Function.comp, meaning_toChunk, path_toChunk, Option.map_some]]
  exact List.filterMap_some

theorem runChunks_toChunk (p : Profile) (st : DState) (es : List Event) : runChunks p st (es.map toChunk) = runEvents p st es := by
  unfold runChunks runEvents
  rw [List.foldlM_map]
  congr 1
  funext st e
  rw [path_toChunk]
  rfl

theorem run_tables_events {p : Profile} {ts : List Spec.TableDef} (h : Spec.WellNumbered ts) :
    ∃ T, runEvents p {} (Spec.tableEvents fmStringEncrypt ts ++ Spec.fieldEvents fmStringEncrypt ts) = .ok T ∧
      T.file.tables = ts.map fun t => (t.id, t.table) := by
  have hd : ∀ e ∈ Spec.tableEvents fmStringEncrypt ts ++ Spec.fieldEvents fmStringEncrypt ts, Spec.describesSchema e = true := by
    intro e he
    unfold Spec.tableEvents Spec.fieldEvents at he
    simp only [List.mem_append, List.mem_flatMap] at he
    rcases he with ⟨t, _, he⟩ | ⟨t, _, f, _, he⟩
    · exact entry_describes _ _ _ (isEntry_table _) e he
    · exact entry_describes _ _ _ (isEntry_field _ (by omega)) e he
  generalize hes : Spec.tableEvents fmStringEncrypt ts ++ Spec.fieldEvents fmStringEncrypt ts = es at hd ⊢
  have hsteps := steps_schema h
  rw [hes] at hsteps
  obtain ⟨st, h1, _, h3⟩ := run_success (p := p) (chs := es.map toChunk) (st := {}) (T := ts.map fun t => (t.id, t.table))
    (fun ch hc => by obtain ⟨e, _, rfl⟩ := List.mem_map.mp hc; exact shape_toChunk e)
    (fun ch hc => by
      obtain ⟨e, he, rfl⟩ := List.mem_map.mp hc
      right
      rw [path_toChunk]
      have := hd e he
      unfold Spec.describesSchema at this
      exact (Bool.and_eq_true_iff.mp this).1)
    (by rw [eventsOf_toChunk, List.filter_eq_self.mpr hd]; exact hsteps)
  exact ⟨st, by rw [← runChunks_toChunk]; exact h1, h3⟩

/-! Layouts -/

def layoutState (m : HMap FLayout) : DState := { file := { layouts := m } }

theorem layout_item {p : Profile} {m : HMap FLayout} {id : Nat} (hm : HMap.contains m id = false) (l : FLayout) {i : LayoutItem} (hi : i.Ok) :
    edispatch p (layoutState (m ++ [(id, l)])) ⟨[4, 1, 7, id], i.what fmStringEncrypt⟩ =
      .ok (layoutState (m ++ [(id, Spec.layoutItem l i)])) := by
  have hc : HMap.contains (layoutState (m ++ [(id, l)])).file.layouts id = true := contains_mid m [] id l
  unfold edispatch dispatch
  dsimp only
  rw [classify_layout]
  dsimp only
  unfold armLayout
  cases i with
  | info b =>
    obtain ⟨h1, h2⟩ := hi
    simp only [LayoutItem.what, toChunk, hc, and_true]
    have e1 : idx b 1 = .ok (b.getD 1 0) := idx_of (by rw [List.getD_eq_getElem?_getD, List.getElem?_eq_getElem (by omega)]; rfl)
    rw [if_neg (by simp), if_pos trivial]
    simp only [unwrap, ok_bind, e1]
    have e2 : usub p (b.getD 1 0).toNat 128 = .ok (byteAt b 1 - 128) := by
      unfold usub byteAt at *
      rw [if_pos h2]
    rw [e2, ok_bind]
    simp only [layoutState, modify_last hm]
    rfl
  | name s =>
    simp only [LayoutItem.what, toChunk, hc, and_true]
    rw [if_neg (by simp), if_neg (by simp), if_pos trivial]
    simp only [unwrap, ok_bind, decrypt_encrypt, layoutState, modify_last hm]
    rfl
  | other k v =>
    obtain ⟨h1, h2⟩ := hi
    simp only [LayoutItem.what, toChunk, hc, and_true]
    rw [if_neg (by simp), if_neg (by simpa using h1), if_neg (by simpa using h2)]
    rfl

theorem layout_items {p : Profile} {m : HMap FLayout} {id : Nat} (hm : HMap.contains m id = false) (is : List LayoutItem) :
    ∀ (l : FLayout), (∀ i ∈ is, i.Ok) → runEvents p (layoutState (m ++ [(id, l)])) (is.map fun i => ⟨[4, 1, 7, id], i.what fmStringEncrypt⟩) =
      .ok (layoutState (m ++ [(id, is.foldl Spec.layoutItem l)])) := by
  induction is with
  | nil => intro l _; rfl
  | cons i is ih =>
    intro l h
    rw [List.map_cons, runEvents_cons, layout_item hm l (h i (by simp)), ok_bind, ih _ (fun j hj => h j (by simp [hj]))]
    rfl

theorem run_layouts {p : Profile} (ls : List LayoutDef) : ∀ done : List LayoutDef, Spec.LayoutsOk (done ++ ls) →
    runEvents p (layoutState (done.map fun l => (l.id, l.layout))) (ls.flatMap (Spec.layoutEvents fmStringEncrypt)) =
      .ok (layoutState ((done ++ ls).map fun l => (l.id, l.layout))) := by
  induction ls with
  | nil => intro done _; simp; rfl
  | cons l ls ih =>
    intro done h
    have hm : HMap.contains (done.map fun l => (l.id, l.layout)) l.id = false := by
      unfold HMap.contains
      rw [List.any_eq_false]
      intro x hx
      obtain ⟨y, hy, rfl⟩ := List.mem_map.mp hx
      have := (List.pairwise_append.mp h.ids).2.2 y hy l (by simp)
      simpa using this
    rw [List.flatMap_cons, runEvents_append]
    have e1 : runEvents p (layoutState (done.map fun l => (l.id, l.layout))) (Spec.layoutEvents fmStringEncrypt l) =
        .ok (layoutState ((done ++ [l]).map fun l => (l.id, l.layout))) := by
      unfold Spec.layoutEvents
      rw [runEvents_cons]
      have : edispatch p (layoutState (done.map fun l => (l.id, l.layout))) ⟨[4, 1, 7, l.id], .push⟩ =
          .ok (layoutState ((done.map fun l => (l.id, l.layout)) ++ [(l.id, ({} : FLayout))])) := by
        unfold edispatch dispatch
        dsimp only
        rw [classify_layout]
        dsimp only
        unfold armLayout
        rw [if_pos (by simp [toChunk])]
        simp only [layoutState, HMap.insert_new hm]
        rfl
      rw [this, ok_bind, layout_items hm l.items {} (h.items l (by simp)), List.map_append]
      rfl
    rw [e1, ok_bind, ih (done ++ [l]) (by simpa using h)]
    simp

/-! Occurrences and relationships -/

def graphState (occs : HMap FOccurrence) (rels : HMap FRelationship) : DState :=
  { file := { tableOccurrences := occs, relationships := rels } }

def enumOccs (os : List OccurrenceDef) : HMap FOccurrence :=
  os.zipIdx.map fun (o, i) => (i + 1, { name := o.name, tableActual := byteAt o.info 6 })

def enumRels (pairs : List (Nat × Nat)) : HMap FRelationship :=
  pairs.zipIdx.map fun (pair, r) => (r + 1, { table1 := pair.1, table2 := pair.2 })

theorem zipIdx_keys {α β : Type} (l : List α) (g : α → Nat → β) (k : Nat) (h : l.length < k) :
    HMap.contains (l.zipIdx.map fun (x, i) => (i + 1, g x i)) k = false := by
  unfold HMap.contains
  rw [List.any_eq_false]
  intro x hx
  obtain ⟨⟨y, i⟩, hy, rfl⟩ := List.mem_map.mp hx
  have := List.mem_zipIdx hy
  simp
  omega

theorem enumOccs_length (os : List OccurrenceDef) : (enumOccs os).length = os.length := by simp [enumOccs]
theorem enumRels_length (ps : List (Nat × Nat)) : (enumRels ps).length = ps.length := by simp [enumRels]

theorem enumOccs_snoc (os : List OccurrenceDef) (o : OccurrenceDef) :
    enumOccs (os ++ [o]) = enumOccs os ++ [(os.length + 1, { name := o.name, tableActual := byteAt o.info 6 })] := by
  simp [enumOccs, List.zipIdx_append]

theorem enumRels_snoc (ps : List (Nat × Nat)) (q : Nat × Nat) :
    enumRels (ps ++ [q]) = enumRels ps ++ [(ps.length + 1, { table1 := q.1, table2 := q.2 })] := by
  simp [enumRels, List.zipIdx_append]

theorem linkedPairs_snoc (os : List OccurrenceDef) (o : OccurrenceDef) :
    Spec.linkedPairs (os ++ [o]) = Spec.linkedPairs os ++ (o.linked.filter (os.length + 1 ≤ ·)).map fun j => (os.length + 1, j) := by
  simp [Spec.linkedPairs, List.zipIdx_append]

theorem mem_linkedPairs (os : List OccurrenceDef) (i j : Nat) :
    (i, j) ∈ Spec.linkedPairs os ↔ 1 ≤ i ∧ i ≤ j ∧ ∃ o, os[i - 1]? = some o ∧ j ∈ o.linked := by
  unfold Spec.linkedPairs
  rw [List.mem_flatMap]
  constructor
  · rintro ⟨⟨o, k⟩, h1, h2⟩
    obtain ⟨j', h3, h4⟩ := List.mem_map.mp h2
    rw [List.mem_filter] at h3
    simp at h4 h3
    obtain ⟨rfl, rfl⟩ := h4
    rw [List.mem_zipIdx_iff_getElem?] at h1
    exact ⟨by omega, by omega, o, h1, h3.1⟩
  · rintro ⟨h1, h2, o, h3, h4⟩
    refine ⟨(o, i - 1), List.mem_zipIdx_iff_getElem?.mpr h3, List.mem_map.mpr ⟨j, List.mem_filter.mpr ⟨h4, ?_⟩, ?_⟩⟩
    · simp; omega
    · simp; omega

theorem any_enumRels (ps : List (Nat × Nat)) (a b : Nat) :
    ((enumRels ps).any fun e => e.2.table1 == a && e.2.table2 == b) = decide ((a, b) ∈ ps) := by
  unfold enumRels
  rw [Bool.eq_iff_iff, List.any_map, List.any_eq_true, decide_eq_true_eq]
  constructor
  · rintro ⟨⟨⟨x, y⟩, i⟩, h1, h2⟩
    simp at h2
    obtain ⟨rfl, rfl⟩ := h2
    have := List.mem_zipIdx_iff_getElem?.mp h1
    exact List.mem_of_getElem? this
  · intro h
    obtain ⟨i, hi⟩ := List.mem_iff_getElem?.mp h
    exact ⟨((a, b), i), List.mem_zipIdx_iff_getElem?.mpr hi, by simp⟩

theorem graph_link {p : Profile} (occs : HMap FOccurrence) (ps : List (Nat × Nat)) (l : Bytes) (hl : 3 ≤ l.length) (ho : occs.length < 65536) :
    edispatch p (graphState occs (enumRels ps)) ⟨[3, 17, 5, 0, 251], .data l⟩ =
      .ok (graphState occs (enumRels (if (byteAt l 2, occs.length) ∈ ps then ps else ps ++ [(occs.length, byteAt l 2)]))) := by
  unfold edispatch dispatch
  have : classify [3, 17, 5, 0, 251] = .relationship := rfl
  dsimp only
  rw [this]
  dsimp only
  unfold armRelationship
  have e1 : idx l 2 = .ok (l.getD 2 0) := idx_of (by rw [List.getD_eq_getElem?_getD, List.getElem?_eq_getElem (by omega)]; rfl)
  rw [if_pos (by simp [toChunk])]
  simp only [toChunk, unwrap, ok_bind, e1]
  have e2 : (graphState occs (enumRels ps)).file.tableOccurrences.length % 65536 = occs.length := Nat.mod_eq_of_lt ho
  rw [e2]
  have e3 : (graphState occs (enumRels ps)).file.relationships = enumRels ps := rfl
  rw [e3]
  have e4 := any_enumRels ps (byteAt l 2) occs.length
  unfold byteAt at e4 ⊢
  rw [e4]
  simp only [decide_eq_true_eq]
  split
  · rfl
  · rw [HMap.insert_new (by
      have := zipIdx_keys ps (fun pair _ => ({ table1 := pair.1, table2 := pair.2 } : FRelationship)) (ps.length + 1) (by omega)
      rw [enumRels_length]
      exact this), enumRels_length, enumRels_snoc]
    rfl

theorem graph_links {p : Profile} (done : List OccurrenceDef) (o : OccurrenceDef) (rest : List OccurrenceDef)
    (hok : Spec.GraphOk (done ++ o :: rest) []) (occs : HMap FOccurrence) (hocc : occs.length = done.length + 1) :
    ∀ (todo : List Bytes) (seen : List Bytes), o.links = seen ++ todo →
    runEvents p (graphState occs (enumRels (Spec.linkedPairs done ++ ((seen.map (byteAt · 2)).filter (done.length + 1 ≤ ·)).map fun j => (done.length + 1, j))))
      (todo.map fun l => ⟨[3, 17, 5, 0, 251], .data l⟩) =
      .ok (graphState occs (enumRels (Spec.linkedPairs (done ++ [o])))) := by
  intro todo
  have hcount := hok.count
  rw [List.length_append, List.length_cons] at hcount
  induction todo with
  | nil =>
    intro seen h
    rw [List.append_nil] at h
    rw [linkedPairs_snoc]
    unfold OccurrenceDef.linked
    rw [h]
    rfl
  | cons l todo ih =>
    intro seen h
    have hl : 3 ≤ l.length := (hok.info o (by simp)).2 l (by rw [h]; simp)
    have hj : byteAt l 2 ∈ o.linked := by unfold OccurrenceDef.linked; rw [h]; simp
    rw [List.map_cons, runEvents_cons, graph_link _ _ _ hl (by omega), ok_bind, hocc]
    have goal := ih (seen ++ [l]) (by rw [h]; simp)
    rw [← goal]
    congr 3
    rw [List.map_append, List.filter_append, List.map_append, ← List.append_assoc]
    have hnodup : byteAt l 2 ∉ seen.map (byteAt · 2) := by
      have := hok.once o (by simp)
      unfold OccurrenceDef.linked at this
      rw [h, List.map_append, List.nodup_append] at this
      intro hm
      exact this.2.2 _ hm _ (by simp) rfl
    by_cases hlt : done.length + 1 ≤ byteAt l 2
    · rw [if_neg]
      · simp [hlt]
      · intro hm
        rcases List.mem_append.mp hm with hm | hm
        · obtain ⟨h1, h2, x, h3, _⟩ := (mem_linkedPairs _ _ _).mp hm
          have : byteAt l 2 - 1 < done.length := (List.getElem?_eq_some_iff.mp h3).1
          omega
        · obtain ⟨j, h1, h2⟩ := List.mem_map.mp hm
          simp only [Prod.mk.injEq] at h2
          have h3 := (List.mem_filter.mp h1).1
          rw [h2.2, h2.1] at h3
          exact hnodup h3
    · rw [if_pos]
      · simp [hlt]
      · obtain ⟨o', h1, h2, h3⟩ := hok.symmetric done.length o (by simp) _ hj
        refine List.mem_append_left _ ((mem_linkedPairs _ _ _).mpr ⟨h1, by omega, o', ?_, h3⟩)
        rw [List.getElem?_append_left (by omega)] at h2
        exact h2

theorem graph_occurrence {p : Profile} (done : List OccurrenceDef) (o : OccurrenceDef) (rest : List OccurrenceDef)
    (hok : Spec.GraphOk (done ++ o :: rest) []) :
    runEvents p (graphState (enumOccs done) (enumRels (Spec.linkedPairs done))) (Spec.occurrenceEvents fmStringEncrypt o) =
      .ok (graphState (enumOccs (done ++ [o])) (enumRels (Spec.linkedPairs (done ++ [o])))) := by
  have hl := (hok.info o (by simp)).1
  have cl : classify [3, 17, 5, 0] = .occurrence := rfl
  have hnew : HMap.contains (enumOccs done) (done.length + 1) = false :=
    zipIdx_keys done (fun o _ => ({ name := o.name, tableActual := byteAt o.info 6 } : FOccurrence)) (done.length + 1) (by omega)
  have ge : ∀ i, i < 7 → idx o.info i = .ok (o.info.getD i 0) := fun i hi =>
    idx_of (by rw [List.getD_eq_getElem?_getD, List.getElem?_eq_getElem (by omega)]; rfl)
  have e1 : edispatch p (graphState (enumOccs done) (enumRels (Spec.linkedPairs done))) ⟨[3, 17, 5, 0], .kv 2 o.info⟩ =
      .ok (graphState (enumOccs done ++ [(done.length + 1, { tableActual := byteAt o.info 6 })]) (enumRels (Spec.linkedPairs done))) := by
    unfold edispatch dispatch
    dsimp only
    rw [cl]
    dsimp only
    unfold armOccurrence
    rw [if_pos (by simp [toChunk])]
    simp only [toChunk, unwrap, ok_bind, ge 6 (by omega), ge 2 (by omega)]
    simp only [graphState, enumOccs_length, HMap.insert_new hnew]
    rfl
  have e2 : edispatch p (graphState (enumOccs done ++ [(done.length + 1, { tableActual := byteAt o.info 6 })]) (enumRels (Spec.linkedPairs done)))
      ⟨[3, 17, 5, 0], .kv 16 (fmStringEncrypt o.name)⟩ =
      .ok (graphState (enumOccs (done ++ [o])) (enumRels (Spec.linkedPairs done))) := by
    unfold edispatch dispatch
    dsimp only
    rw [cl]
    dsimp only
    unfold armOccurrence
    rw [if_neg (by simp [toChunk]), if_pos (by simp [toChunk])]
    simp only [graphState, List.length_append, enumOccs_length, List.length_cons, List.length_nil, Nat.zero_add]
    rw [if_pos (contains_mid _ [] _ _), modify_last hnew]
    simp only [dataOr, toChunk, Option.getD_some, decrypt_encrypt, enumOccs_snoc]
    rfl
  unfold Spec.occurrenceEvents
  rw [runEvents_append, runEvents_cons, e1, ok_bind, runEvents_cons, e2, ok_bind]
  show (Except.ok _ >>= _) = _
  rw [ok_bind]
  have := graph_links (p := p) done o rest hok (enumOccs (done ++ [o])) (by rw [enumOccs_length]; simp) o.links [] (by simp)
  simpa using this

theorem graph_occurrences {p : Profile} (os : List OccurrenceDef) : ∀ done : List OccurrenceDef, Spec.GraphOk (done ++ os) [] →
    runEvents p (graphState (enumOccs done) (enumRels (Spec.linkedPairs done))) (os.flatMap (Spec.occurrenceEvents fmStringEncrypt)) =
      .ok (graphState (enumOccs (done ++ os)) (enumRels (Spec.linkedPairs (done ++ os)))) := by
  induction os with
  | nil => intro done _; simp; rfl
  | cons o os ih =>
    intro done h
    rw [List.flatMap_cons, runEvents_append, graph_occurrence done o os h, ok_bind, ih (done ++ [o]) (by simpa using h)]
    simp

set_option maxRecDepth 20000 in
theorem comparison_code (b : UInt8) : comparisonOf b = Spec.comparisonWithCode b.toNat := by
  revert b
  have h : ∀ n : Fin 256, comparisonOf (UInt8.ofNat n.val) = Spec.comparisonWithCode n.val := by decide +kernel
  intro b
  have := h ⟨b.toNat, b.toNat_lt⟩
  simpa using this

def withCriteria (pairs : List (Nat × Nat)) (cs : List CriterionDef) : HMap FRelationship :=
  pairs.zipIdx.map fun (pair, r) => (r + 1, Spec.relationshipOf cs (r + 1) pair)

theorem criterionOf_snoc (cs : List CriterionDef) (c : CriterionDef) (r : Nat) :
    Spec.criterionOf (cs ++ [c]) r = if c.rel = r then some c.info else Spec.criterionOf cs r := by
  unfold Spec.criterionOf
  rw [List.filter_append]
  by_cases h : c.rel = r
  · simp [h]
  · simp [h]

theorem graph_criterion {p : Profile} (occs : HMap FOccurrence) (pairs : List (Nat × Nat)) (cs : List CriterionDef) (c : CriterionDef)
    (hc : 7 ≤ c.info.length) :
    edispatch p (graphState occs (withCriteria pairs cs)) (Spec.criterionEvent c) =
      .ok (graphState occs (withCriteria pairs (cs ++ [c]))) := by
  unfold edispatch dispatch Spec.criterionEvent
  dsimp only
  rw [classify_join]
  dsimp only
  unfold armJoin
  rw [if_pos (by simp [toChunk])]
  obtain ⟨b0, b1, b2, b3, b4, b5, b6, rest, hb⟩ : ∃ b0 b1 b2 b3 b4 b5 b6 rest, c.info = b0 :: b1 :: b2 :: b3 :: b4 :: b5 :: b6 :: rest := by
    match hi : c.info, hc with
    | b0 :: b1 :: b2 :: b3 :: b4 :: b5 :: b6 :: rest, _ => exact ⟨_, _, _, _, _, _, _, _, rfl⟩
  have s1 : slice c.info 2 4 = .ok [b2, b3] := by rw [hb]; simp [slice]
  have s2 : slice c.info 5 7 = .ok [b5, b6] := by rw [hb]; simp [slice]
  have i0 : idx c.info 0 = .ok b0 := by rw [hb]; rfl
  have u : ∀ a b : UInt8, usub p (getPathInt [a, b]) 128 = .ok b.toNat := by
    intro a b
    unfold usub
    rw [getPathInt_two, if_pos (by omega), Nat.add_sub_cancel_left]
  simp only [toChunk, unwrap, ok_bind, i0, s1, s2, u]
  have m : ∀ b : UInt8, b.toNat % 65536 = b.toNat := fun b => Nat.mod_eq_of_lt (by have := b.toNat_lt; omega)
  rw [m, m, comparison_code]
  unfold graphState withCriteria
  dsimp only
  unfold HMap.modify
  rw [List.map_map]
  congr 4
  funext ⟨⟨x, y⟩, r⟩
  simp only [Function.comp, Spec.relationshipOf, criterionOf_snoc]
  by_cases h : r + 1 = c.rel
  · rw [if_pos h, if_pos h.symm, hb]
    simp only [byteAt]
    cases Spec.criterionOf cs (r + 1) <;> rfl
  · rw [if_neg h, if_neg (fun e => h e.symm)]

theorem graph_criteria {p : Profile} (occs : HMap FOccurrence) (pairs : List (Nat × Nat)) (cs : List CriterionDef) : ∀ (done : List CriterionDef),
    (∀ c ∈ cs, 7 ≤ c.info.length) →
    runEvents p (graphState occs (withCriteria pairs done)) (cs.map Spec.criterionEvent) =
      .ok (graphState occs (withCriteria pairs (done ++ cs))) := by
  induction cs with
  | nil => intro done _; simp; rfl
  | cons c cs ih =>
    intro done h
    rw [List.map_cons, runEvents_cons, graph_criterion _ _ _ _ (h c (by simp)), ok_bind, ih (done ++ [c]) (fun x hx => h x (by simp [hx]))]
    simp

theorem run_graph {p : Profile} {os : List OccurrenceDef} {cs : List CriterionDef} (h : Spec.GraphOk os cs) :
    runEvents p {} (Spec.graphEvents fmStringEncrypt os cs) =
      .ok (graphState (enumOccs os) (withCriteria (Spec.linkedPairs os) cs)) := by
  unfold Spec.graphEvents
  rw [runEvents_append]
  have h0 : Spec.GraphOk ([] ++ os) [] := ⟨h.count, h.info, h.once, h.symmetric, by simp⟩
  have := graph_occurrences (p := p) os [] h0
  rw [show graphState (enumOccs []) (enumRels (Spec.linkedPairs [])) = {} from rfl] at this
  rw [this, ok_bind, List.nil_append]
  have e : enumRels (Spec.linkedPairs os) = withCriteria (Spec.linkedPairs os) [] := rfl
  rw [e, graph_criteria _ _ _ _ h.criteria, List.nil_append]

end BurnFm
