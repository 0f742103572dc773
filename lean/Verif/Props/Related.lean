import Verif.Props.Find
import Verif.Props.Relation
import Verif.Proofs.Related

/-! Properties C36 and C37: reading fields of related records. -/

namespace BurnFm.Props
open Spec

/-- The path between two occurrences with a declared relation is the direct one. -/
theorem direct_path (calls : List (Nat × Nat)) (a b fuel : Nat) (h : Related calls a b) (hf : pathFuel calls ≤ fuel) :
    getPathFuel fuel (graphAfter calls) a b = some (some [a, b]) := by
  have hw : IsWalk calls a b [a, b] := by
    refine ⟨rfl, rfl, by simp, ?_⟩
    intro i hi
    have : i = 0 := by simp at hi; omega
    subst this
    exact h
  obtain ⟨p, hp⟩ := (get_path_some_iff calls a b fuel hf).mpr ⟨_, hw⟩
  have hl := get_path_shortest calls a b fuel p _ hp hw
  have hs := get_path_sound calls a b fuel p hp
  have h2 := hs.long
  rw [hp]
  obtain ⟨x, y, rfl⟩ : ∃ x y, p = [x, y] := by
    match p, hl, h2 with
    | [x, y], _, _ => exact ⟨x, y, rfl⟩
  have hx := hs.starts
  have hy := hs.ends
  simp at hx hy
  rw [hx, hy]

/-- One hop from the current occurrence: the code's answer in terms of its own comparison. -/
theorem related_hop (db : Database) (calls : List (Nat × Nat)) (fuel : Nat) (occ field : Str) (b : Nat)
    (oa ob : DOcc) (ta tb : DTable) (rel : RelSet) (rels : List RelSet) (r : Nat) (fa fb ft : DField) (v : Str)
    (hg : db.graph = graphAfter calls) (hrel : Related calls db.handle b) (hf : pathFuel calls ≤ fuel)
    (hb : SMap.get db.indices occ = some b) (hoa : db.occs[db.handle]? = some oa) (hob : db.occs[b]? = some ob)
    (hta : db.tables[oa.tablePtr]? = some ta) (htb : db.tables[ob.tablePtr]? = some tb)
    (hsel : oa.related.filter (fun x => x.occurrence == b) = rel :: rels)
    (hr : oa.currentRecord = some r) (hfa : ta.fields[rel.field1]? = some fa) (hv : fa.records[r]? = some v)
    (hfb : tb.fields[rel.field2]? = some fb) (hft : tb.fields.find? (fun f => f.name == field) = some ft) :
    ((∀ w ∈ fb.records, joins rel.joinBy v w = false) → db.relatedField fuel occ field = .ok (some none)) ∧
    (∀ (k : Nat) (w x : Str), fb.records[k]? = some w → joins rel.joinBy v w = true →
      (∀ j : Nat, j < k → ∀ y, fb.records[j]? = some y → joins rel.joinBy v y = false) → ft.records[k]? = some x →
      db.relatedField fuel occ field = .ok (some (some x))) := by
  have hhop : hops db (windows2 [db.handle, b]) [] =
      (if (relatedSet rel.joinBy [(r, v)] fb.records).isEmpty then pure none
        else pure (some (relatedSet rel.joinBy [(r, v)] fb.records))) := by
    show hops db [(db.handle, b)] [] = _
    unfold hops
    have h1 : db.occurrence db.handle = .ok oa := idx_of hoa
    have h2 : db.occurrence b = .ok ob := idx_of hob
    simp only [h1, h2, ok_bind, hr, hsel, List.isEmpty_nil, if_true, currentTable_ok.mpr ⟨oa, hoa, hta⟩,
      idx_of hfa, idx_of hv, idx_of htb, idx_of hfb, pure_ok]
    rfl
  unfold Database.relatedField
  simp only [hb, unwrap, ok_bind, hg, direct_path calls db.handle b fuel hrel hf, hhop]
  rw [relatedSet_single]
  constructor
  · intro hno
    have : fb.records.zipIdx.filter (fun e => joins rel.joinBy v e.1) = [] :=
      (find_zipIdx fb.records (fun w => joins rel.joinBy v w) 0).mpr hno
    rw [this]
    rfl
  · intro k w x hk hw hmin hx
    obtain ⟨rest, hrest⟩ := head_zipIdx fb.records (fun w => joins rel.joinBy v w) 0 k w hk hw hmin
    rw [hrest]
    simp only [List.map_cons, List.isEmpty_cons, Bool.false_eq_true, if_false, pure_ok, ok_bind]
    unfold targetField
    have h2 : db.occurrence b = .ok ob := idx_of hob
    have h3 : ([db.handle, b] : List Nat).getLast? = some b := rfl
    simp only [h3, unwrap, ok_bind, h2, idx_of htb, firstField_ok.mpr hft, idx_zero, Nat.zero_add, idx_of hx]

/-- The state of the database of a file during a test run. -/
def ReachableFrom (p : Profile) (file : FmpFile) (db : Database) : Prop :=
  ∃ start ops, Database.generate {} file = .ok start ∧ runOps p start ops = .ok db

/-- Which side of a relationship occurrence `a` is on when it looks at occurrence `b`, with the join field on
`a`'s side, the join field on `b`'s side. -/
inductive Looks (r : FRelationship) : Nat → Nat → Nat → Nat → Prop where
  | fromFirst : Looks r r.table1 r.table2 r.field1 r.field2
  | fromSecond : Looks r r.table2 r.table1 r.field2 r.field1

/-- `e` is the only relationship between `a` and `b`. -/
def OnlyRelation (file : FmpFile) (e : Nat × FRelationship) (a b : Nat) : Prop :=
  file.relationships.filter (fun x =>
    decide ((x.2.table1 = a ∧ x.2.table2 = b) ∨ (x.2.table1 = b ∧ x.2.table2 = a))) = [e]

theorem sides_occurrence (r : FRelationship) (a b : Nat)
    (h : ¬ ((r.table1 = a ∧ r.table2 = b) ∨ (r.table1 = b ∧ r.table2 = a))) :
    (sides r a).filter (fun x => x.occurrence == b) = [] := by
  unfold sides forward backward
  by_cases h1 : r.table1 = a <;> by_cases h2 : r.table2 = a <;> by_cases h3 : r.table1 = b <;>
    by_cases h4 : r.table2 = b <;> simp_all

/-- The relationships between `a` and `b`, in the order in which the database was generated. -/
def relationsBetween (file : FmpFile) (a b : Nat) : List (Nat × FRelationship) :=
  file.relationships.filter (fun x =>
    decide ((x.2.table1 = a ∧ x.2.table2 = b) ∨ (x.2.table1 = b ∧ x.2.table2 = a)))

theorem between_filter (file : FmpFile) (a b : Nat) :
    (file.relationships.flatMap (fun e => sides e.2 a)).filter (fun x => x.occurrence == b) =
      (relationsBetween file a b).flatMap (fun e => (sides e.2 a).filter (fun x => x.occurrence == b)) := by
  unfold relationsBetween
  induction file.relationships with
  | nil => rfl
  | cons x l ih =>
    rw [List.flatMap_cons, List.filter_append, ih, List.filter_cons]
    split
    · rw [List.flatMap_cons]
    · rename_i hx
      rw [sides_occurrence x.2 a b (by simpa using hx)]
      rfl

theorem only_filter (file : FmpFile) (e : Nat × FRelationship) (a b : Nat) (h : OnlyRelation file e a b) :
    (file.relationships.flatMap (fun e => sides e.2 a)).filter (fun x => x.occurrence == b) =
      (sides e.2 a).filter (fun x => x.occurrence == b) := by
  rw [between_filter, show relationsBetween file a b = [e] from h]
  simp

/-- The declared comparison as seen from occurrence `a`, between the join value on its own side and the one on
the other side. -/
def StandsFrom (r : FRelationship) (a : Nat) (own other : Str) : Prop :=
  if a = r.table1 then Stands r.comparison own other else Stands r.comparison other own

theorem stands_symm {c : Comparison} (h : c = .equal ∨ c = .notEqual ∨ c = .cartesian) (a b : Str) :
    Stands c a b ↔ Stands c b a := by
  rcases h with rfl | rfl | rfl
  · exact eq_comm
  · exact ne_comm
  · exact Iff.rfl

/-- C36, exactly what the code does for every relationship and both directions: reading `occ::field` from the current
occurrence `a` gives the field of the lowest-numbered record of the table of `b = occ` whose join field stands in the declared
comparison to the join field of the current record, with the value of the current record always on the left and with strict
comparisons read as their loosened ones; and an error if there is none. If several relationships connect the two occurrences,
the first one in the order of generation is used. -/
theorem related_read_exact (p : Profile) (file : FmpFile) (hd : DistinctIds file) (hn : DistinctOccurrences file)
    (db : Database) (hreach : ReachableFrom p file db) (e : Nat × FRelationship) (rest : List (Nat × FRelationship)) (b ja jb : Nat)
    (hfirst : relationsBetween file db.handle b = e :: rest) (hlook : Looks e.2 db.handle b ja jb)
    (hab : db.handle ≠ b)
    (o : FOccurrence) (hb : HMap.get file.tableOccurrences b = some o) (field : Str)
    (oa ob : DOcc) (ta tb : DTable) (r : Nat) (fa fb ft : DField) (v : Str)
    (hoa : db.occs[db.handle]? = some oa) (hob : db.occs[b]? = some ob)
    (hta : db.tables[oa.tablePtr]? = some ta) (htb : db.tables[ob.tablePtr]? = some tb)
    (hr : oa.currentRecord = some r) (hfa : ta.fields[ja]? = some fa) (hv : fa.records[r]? = some v)
    (hfb : tb.fields[jb]? = some fb) (hft : tb.fields.find? (fun f => f.name == field) = some ft)
    (fuel : Nat) (hfuel : 2 * file.relationships.length + 2 ≤ fuel) :
    ((∀ w ∈ fb.records, ¬ Stands (loosened e.2.comparison) v w) → db.relatedField fuel o.name field = .ok (some none)) ∧
    (∀ (k : Nat) (w : Str), fb.records[k]? = some w → Stands (loosened e.2.comparison) v w →
      (∀ j : Nat, j < k → ∀ y, fb.records[j]? = some y → ¬ Stands (loosened e.2.comparison) v y) →
      ∃ x, ft.records[k]? = some x ∧ db.relatedField fuel o.name field = .ok (some (some x))) := by
  obtain ⟨start, ops, hs, hops⟩ := hreach
  obtain ⟨hrange, hgen⟩ := generate_iff file hd start hs
  have hsame := same_runOps hops
  have hrect := (inv_runOps (inv_generate hs) hops).valid.rect
  have hgraph : db.graph = graphAfter (relPairs file.relationships) := hsame.graph.trans hgen.graph
  have hix : SMap.get db.indices o.name = some b := by
    rw [hsame.indices, hgen.indices]
    exact indicesOf_get file hn b o (HMap.mem_of_get hb)
  have hem : e ∈ file.relationships := by
    have : e ∈ relationsBetween file db.handle b := by rw [hfirst]; simp
    exact (List.mem_filter.mp this).1
  -- the sides stored in the current occurrence
  have hrelated : oa.related = file.relationships.flatMap (fun e => sides e.2 db.handle) := by
    have h1 : (db.occs.map (fun o => (o.tablePtr, o.related)))[db.handle]? = some (oa.tablePtr, oa.related) := by
      rw [List.getElem?_map, hoa]; rfl
    rw [hsame.occs, List.getElem?_map] at h1
    cases hso : start.occs[db.handle]? with
    | none => rw [hso] at h1; cases h1
    | some so =>
      rw [hso] at h1
      simp only [Option.map_some, Option.some.injEq, Prod.mk.injEq] at h1
      rw [← h1.2]
      exact generated_relationships file hd start hs db.handle so hso
  have hfl := between_filter file db.handle b
  rw [← hrelated, hfirst, List.flatMap_cons] at hfl
  have hpf : pathFuel (relPairs file.relationships) ≤ fuel := by
    unfold pathFuel relPairs; rw [List.length_map]; exact hfuel
  have hpair : (e.2.table1, e.2.table2) ∈ relPairs file.relationships := List.mem_map.mpr ⟨e, hem, rfl⟩
  -- the side in use
  obtain ⟨rel, rels, hsel, h1, h2, hj⟩ : ∃ (rel : RelSet) (rels : List RelSet), oa.related.filter (fun x => x.occurrence == b) = rel :: rels ∧
      rel.field1 = ja ∧ rel.field2 = jb ∧ ∀ w, joins rel.joinBy v w = true ↔ Stands (loosened e.2.comparison) v w := by
    rw [hfl]
    generalize db.handle = a at hlook hab
    cases hlook with
    | fromFirst =>
      have hs1 : (sides e.2 e.2.table1).filter (fun x => x.occurrence == e.2.table2) = [forward e.2] := by
        simp [sides, forward, Ne.symm hab]
      rw [hs1]
      exact ⟨forward e.2, _, rfl, rfl, rfl, fun w => joins_loosened _ v w⟩
    | fromSecond =>
      have hs1 : (sides e.2 e.2.table2).filter (fun x => x.occurrence == e.2.table1) = [backward e.2] := by
        simp [sides, backward, Ne.symm hab]
      rw [hs1]
      exact ⟨backward e.2, _, rfl, rfl, rfl, fun w => joins_loosened _ v w⟩
  have hrel : Related (relPairs file.relationships) db.handle b := by
    generalize db.handle = a at hlook
    cases hlook with
    | fromFirst => exact .inl hpair
    | fromSecond => exact .inr hpair
  have hmain := related_hop db (relPairs file.relationships) fuel o.name field b oa ob ta tb rel rels r fa fb ft v hgraph hrel hpf hix hoa hob hta
    htb hsel hr (by rw [h1]; exact hfa) hv (by rw [h2]; exact hfb) hft
  have hjf : ∀ w, joins rel.joinBy v w = false ↔ ¬ Stands (loosened e.2.comparison) v w := by
    intro w; rw [← hj w]; simp
  constructor
  · intro hno
    exact hmain.1 (fun w hw => (hjf w).mpr (hno w hw))
  · intro k w hk hst hmin
    have hlen : k < ft.records.length := by
      rw [hrect tb (List.mem_of_getElem? htb) ft (List.mem_of_find?_eq_some hft) fb (List.mem_of_getElem? hfb)]
      exact (List.getElem?_eq_some_iff.mp hk).1
    refine ⟨ft.records[k], List.getElem?_eq_getElem hlen, ?_⟩
    exact hmain.2 k w _ hk ((hj w).mpr hst) (fun j hj' y hy => (hjf y).mpr (hmin j hj' y hy))
      (List.getElem?_eq_getElem hlen)

/-- C36, for relationships that are not declared with a strict comparison and are read from the first of
their two occurrences (or from either one, for the symmetric comparisons `=`, `≠` and `×`): in every state
of a test run, reading `occ::field` from the current occurrence `a`, joined to `b = occ` by one
relationship, gives the field of the lowest-numbered record of `b`'s table whose join field stands in the
declared comparison to the join field of the current record, and an error if there is none.

Missing from the full property: strict comparisons, inequalities read from the second occurrence (both
refuted below), and pairs of occurrences with several relationships, where the code uses one of them. -/
theorem related_read_partial (p : Profile) (file : FmpFile) (hd : DistinctIds file) (hn : DistinctOccurrences file)
    (db : Database) (hreach : ReachableFrom p file db) (e : Nat × FRelationship) (b ja jb : Nat)
    (honly : OnlyRelation file e db.handle b) (hlook : Looks e.2 db.handle b ja jb)
    (hcmp : (e.2.comparison ≠ .less ∧ e.2.comparison ≠ .greater) ∧
      (db.handle ≠ e.2.table1 → e.2.comparison = .equal ∨ e.2.comparison = .notEqual ∨ e.2.comparison = .cartesian))
    (hab : db.handle ≠ b)
    (o : FOccurrence) (hb : HMap.get file.tableOccurrences b = some o) (field : Str)
    (oa ob : DOcc) (ta tb : DTable) (r : Nat) (fa fb ft : DField) (v : Str)
    (hoa : db.occs[db.handle]? = some oa) (hob : db.occs[b]? = some ob)
    (hta : db.tables[oa.tablePtr]? = some ta) (htb : db.tables[ob.tablePtr]? = some tb)
    (hr : oa.currentRecord = some r) (hfa : ta.fields[ja]? = some fa) (hv : fa.records[r]? = some v)
    (hfb : tb.fields[jb]? = some fb) (hft : tb.fields.find? (fun f => f.name == field) = some ft)
    (fuel : Nat) (hfuel : 2 * file.relationships.length + 2 ≤ fuel) :
    ((∀ w ∈ fb.records, ¬ StandsFrom e.2 db.handle v w) → db.relatedField fuel o.name field = .ok (some none)) ∧
    (∀ (k : Nat) (w : Str), fb.records[k]? = some w → StandsFrom e.2 db.handle v w →
      (∀ j : Nat, j < k → ∀ y, fb.records[j]? = some y → ¬ StandsFrom e.2 db.handle v y) →
      ∃ x, ft.records[k]? = some x ∧ db.relatedField fuel o.name field = .ok (some (some x))) := by
  have hst : ∀ w, StandsFrom e.2 db.handle v w ↔ Stands (loosened e.2.comparison) v w := by
    intro w
    have hl : loosened e.2.comparison = e.2.comparison := by
      have := hcmp.1
      generalize e.2.comparison = c at this
      cases c <;> simp_all [loosened]
    rw [hl]
    unfold StandsFrom
    split
    · exact Iff.rfl
    · rename_i h
      exact stands_symm (hcmp.2 h) w v
  have := related_read_exact p file hd hn db hreach e [] b ja jb honly hlook hab o hb field oa ob ta tb r fa fb ft v hoa hob hta htb
    hr hfa hv hfb hft fuel hfuel
  simp only [hst]
  exact this

/-! The example state meets the hypotheses: from `people` (1) the relationship to `pets` (2) is an equality of
`id` and `owner`. -/

/-- The example state seen from `people`. -/
def petStateOnPeople : Database := petState.setCurrentOccurrence 1

theorem petStateOnPeople_reachable : ReachableFrom .debug petSchema petStateOnPeople := by
  refine ⟨petDb, petHistory ++ [.layout 1], petDb_generated, ?_⟩
  unfold runOps
  rw [List.foldlM_append]
  show (runOps .debug petDb petHistory >>= _) = _
  rw [petState_runs]
  rfl

example : OnlyRelation petSchema (1, { table1 := 1, field1 := 1, table2 := 2, field2 := 1, comparison := .equal }) 1 2 := by
  unfold OnlyRelation; decide
example : Looks { table1 := 1, field1 := 1, table2 := 2, field2 := 1, comparison := .equal } 1 2 1 1 := .fromFirst
set_option maxRecDepth 20000 in
example : petStateOnPeople.relatedField 6 t!"pets" t!"owner" = .ok (some (some t!"7")) := by decide
set_option maxRecDepth 20000 in
example : ((petStateOnPeople.gotoFirst).bind fun db => db.relatedField 6 t!"pets" t!"owner") = .ok (some none) := by
  decide

/-! ### Where the code departs from C36 and C37 -/

/-- Two tables with one number each, joined by `c`. -/
def pairSchema (c : Comparison) : FmpFile :=
  { tables := [(1, { name := t!"a", fields := [(1, { name := t!"x" })] }),
               (2, { name := t!"b", fields := [(1, { name := t!"y" })] })]
    tableOccurrences := [(1, { name := t!"a", tableActual := 1 }), (2, { name := t!"b", tableActual := 2 })]
    relationships := [(1, { table1 := 1, field1 := 1, table2 := 2, field2 := 1, comparison := c })] }

/-- One record in each table, with the given join values; the first occurrence is current. -/
def pairHistory (x y : Str) : List Op :=
  [.create, .set t!"a" t!"x" x, .layout 2, .create, .set t!"b" t!"y" y, .layout 1]

/-- The value read through the join, from the first occurrence or from the second. -/
def pairRead (c : Comparison) (x y : Str) (fromFirst : Bool) : Res (Option (Option Str)) := do
  let db ← Database.generate {} (pairSchema c)
  let db ← runOps .debug db (pairHistory x y)
  if fromFirst then db.relatedField 4 t!"b" t!"y"
  else (db.setCurrentOccurrence 2).relatedField 4 t!"a" t!"x"

set_option maxRecDepth 20000 in
/-- `related_read_exact` covers strict comparisons read from the second occurrence: the second occurrence, with the value `3`,
looks for records that are not below `3` and finds the record with `5`, although `5 < 3` was declared. -/
example : relationsBetween (pairSchema .less) 2 1 = [(1, { table1 := 1, field1 := 1, table2 := 2, field2 := 1, comparison := .less })] ∧
    Looks { table1 := 1, field1 := 1, table2 := 2, field2 := 1, comparison := .less } 2 1 1 1 ∧
    Stands (loosened .less) t!"3" t!"5" ∧ pairRead .less t!"5" t!"3" false = .ok (some (some t!"5")) := by
  refine ⟨rfl, .fromSecond, .inl ?_, rfl⟩
  decide

/-- C36, refuted for strict comparisons: the record with `5` is returned as being greater than `5`, and as being
less than `5`. -/
theorem related_read_strict_refuted :
    pairRead .less t!"5" t!"5" true = .ok (some (some t!"5")) ∧ ¬ Stands .less t!"5" t!"5" ∧
      pairRead .greater t!"5" t!"5" true = .ok (some (some t!"5")) ∧ ¬ Stands .greater t!"5" t!"5" := by
  refine ⟨by rfl, ?_, by rfl, ?_⟩ <;> exact List.lt_irrefl _

/-- C36 and C37, refuted for inequalities seen from the second occurrence: `1 ≤ 2` holds, the first occurrence
finds the second's record, the second does not find the first's. With `2` and `1` it is the other way round. -/
theorem join_symmetric_refuted :
    pairRead .lessEqual t!"1" t!"2" true = .ok (some (some t!"2")) ∧
      pairRead .lessEqual t!"1" t!"2" false = .ok (some none) ∧
      pairRead .lessEqual t!"2" t!"1" true = .ok (some none) ∧
      pairRead .lessEqual t!"2" t!"1" false = .ok (some (some t!"2")) := by
  refine ⟨by rfl, by rfl, by rfl, by rfl⟩

/-- C37, the part that holds: the two stored sides of a relationship declared with `=`, `≠` or `×` relate the
same pairs of values. -/
theorem join_symmetric_partial (file : FmpFile) (hd : DistinctIds file) (db : Database)
    (h : Database.generate {} file = .ok db) (e : Nat × FRelationship) (he : e ∈ file.relationships)
    (hc : e.2.comparison = .equal ∨ e.2.comparison = .notEqual ∨ e.2.comparison = .cartesian) :
    ∃ oa ob fwd bwd, db.occs[e.2.table1]? = some oa ∧ db.occs[e.2.table2]? = some ob ∧
      fwd ∈ oa.related ∧ bwd ∈ ob.related ∧ fwd.occurrence = e.2.table2 ∧ bwd.occurrence = e.2.table1 ∧
      fwd.field1 = bwd.field2 ∧ fwd.field2 = bwd.field1 ∧
      ∀ v w, joins fwd.joinBy v w = joins bwd.joinBy w v := by
  obtain ⟨hr, hg⟩ := generate_iff file hd db h
  have h1 : e.2.table1 < db.occs.length := by have := hr e he; rw [hg.occsLen]; omega
  have h2 : e.2.table2 < db.occs.length := by have := hr e he; rw [hg.occsLen]; omega
  have hoa := List.getElem?_eq_getElem h1
  have hob := List.getElem?_eq_getElem h2
  refine ⟨_, _, forward e.2, backward e.2, hoa, hob, ?_, ?_, rfl, rfl, rfl, rfl, ?_⟩
  · rw [generated_relationships file hd db h _ _ hoa, List.mem_flatMap]
    exact ⟨e, he, by simp [forward]⟩
  · rw [generated_relationships file hd db h _ _ hob, List.mem_flatMap]
    exact ⟨e, he, by simp [backward]⟩
  · intro v w
    show joins e.2.comparison v w = joins e.2.comparison w v
    have hx : e.2.comparison ≠ .less ∧ e.2.comparison ≠ .greater := by
      rcases hc with h | h | h <;> rw [h] <;> exact ⟨by decide, by decide⟩
    rw [Bool.eq_iff_iff, joins_iff _ hx, joins_iff _ hx]
    exact stands_symm hc v w

/-- C37: for the inequalities the two sides agree on no pair of different values. -/
theorem join_inequality_sides (r : FRelationship)
    (hc : r.comparison ≠ .equal ∧ r.comparison ≠ .notEqual ∧ r.comparison ≠ .cartesian) (v w : Str)
    (h : joins (forward r).joinBy v w = joins (backward r).joinBy w v) : v = w := by
  have tot : ∀ a b : Str, strLe a b = true ∨ strLe b a = true := by
    intro a b
    rw [strLe_iff, strLe_iff]
    rcases List.le_total a b with h | h
    · rcases List.le_iff_lt_or_eq.mp h with h | h
      · exact .inl (.inl h)
      · exact .inl (.inr h)
    · rcases List.le_iff_lt_or_eq.mp h with h | h
      · exact .inr (.inl h)
      · exact .inr (.inr h)
  have anti : ∀ a b : Str, strLe a b = true → strLe b a = true → a = b := by
    intro a b h1 h2
    rw [strLe_iff] at h1 h2
    rcases h1 with h1 | h1
    · rcases h2 with h2 | h2
      · exact absurd h2 (List.lt_asymm h1)
      · exact h2.symm
    · exact h1
  have key : ∀ a b : Str, strLe a b = strLe b a → a = b := by
    intro a b he
    rcases tot a b with h1 | h1
    · exact anti a b h1 (he ▸ h1)
    · exact anti a b (he.symm ▸ h1) h1
  unfold forward backward joins at h
  cases hr : r.comparison with
  | equal => exact absurd hr hc.1
  | notEqual => exact absurd hr hc.2.1
  | cartesian => exact absurd hr hc.2.2
  | less => rw [hr] at h; exact key _ _ h
  | lessEqual => rw [hr] at h; exact key _ _ h
  | greater => rw [hr] at h; exact (key _ _ h).symm
  | greaterEqual => rw [hr] at h; exact (key _ _ h).symm

/-- The related-record cache that the functions `get_related_record_field_mut`, `get_nth_related_record_field`
and `get_nth_related_record_field_mut` read first is never filled: in every state of a test run they panic,
whatever their arguments. -/
theorem cached_related_panics (p : Profile) (file : FmpFile) (hd : DistinctIds file) (db : Database)
    (h : ReachableFrom p file db) (occ : Str) : ∃ e, db.cachedRelated occ = .error e := by
  obtain ⟨start, ops, hs, hops⟩ := h
  have hsame := same_runOps hops
  cases hr : db.cachedRelated occ with
  | error e => exact ⟨e, rfl⟩
  | ok n =>
    exfalso
    unfold Database.cachedRelated at hr
    obtain ⟨b, _, hr⟩ := bind_ok.mp hr
    obtain ⟨_, _, hr⟩ := bind_ok.mp hr
    obtain ⟨oa, hoa, hr⟩ := bind_ok.mp hr
    obtain ⟨rel, hrel, hr⟩ := bind_ok.mp hr
    have hmem : rel ∈ oa.related :=
      List.mem_of_mem_filter (List.mem_of_mem_take (List.mem_of_getElem? (idx_ok.mp hrel)))
    have h1 : (db.occs.map (fun o => (o.tablePtr, o.related)))[db.handle]? = some (oa.tablePtr, oa.related) := by
      rw [List.getElem?_map, currentOcc_ok.mp hoa]; rfl
    rw [hsame.occs, List.getElem?_map] at h1
    cases hso : start.occs[db.handle]? with
    | none => rw [hso] at h1; cases h1
    | some so =>
      rw [hso] at h1
      simp only [Option.map_some, Option.some.injEq, Prod.mk.injEq] at h1
      rw [← h1.2, generated_relationships file hd start hs db.handle so hso, List.mem_flatMap] at hmem
      obtain ⟨e, _, hm⟩ := hmem
      have : rel.records = [] := by
        rw [List.mem_append] at hm
        rcases hm with hm | hm
        · split at hm
          · rw [List.mem_singleton.mp hm]
          · cases hm
        · split at hm
          · rw [List.mem_singleton.mp hm]
          · cases hm
      rw [this] at hr
      cases hr

end BurnFm.Props
