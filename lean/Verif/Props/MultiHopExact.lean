import Verif.Props.MultiHop
import Verif.Proofs.Carried

/-! Property C92, exactly: what reading a field through several relationships returns. -/

namespace BurnFm.Props
open Spec

/-- `CarriedFrom file db v path rs`: the records `rs` of the occurrences after the first one of `path` are such that `v` stands
in the (loosened) comparison of the first relationship to the join field of the first record, the value of that field in the
comparison of the second relationship to the join field of the second record, and so on. -/
inductive CarriedFrom (file : FmpFile) (db : Database) : Str → List Nat → List Nat → Prop
  | one {v : Str} {a : Nat} : CarriedFrom file db v [a] []
  | cons {v w : Str} {a b s ja jb : Nat} {path rs : List Nat} {e : Nat × FRelationship} :
      (relationsBetween file a b).head? = some e → Looks e.2 a b ja jb → cellAt db b jb s = some w →
      Stands (loosened e.2.comparison) v w → CarriedFrom file db w (b :: path) rs →
      CarriedFrom file db v (a :: b :: path) (s :: rs)

/-- The value of record `r` of the first occurrence of `path` in the field by which `path` leaves it is `v`. -/
def LeavesWith (file : FmpFile) (db : Database) (path : List Nat) (r : Nat) (v : Str) : Prop :=
  ∃ a b e ja jb, path[0]? = some a ∧ path[1]? = some b ∧ (relationsBetween file a b).head? = some e ∧ Looks e.2 a b ja jb ∧
    cellAt db a ja r = some v

/-- The stored side of the first relationship between two different occurrences. -/
theorem first_side {p : Profile} {file : FmpFile} (hd : DistinctIds file) {db : Database} (hreach : ReachableFrom p file db)
    {a b : Nat} (hab : a ≠ b) (hrel : Related (relPairs file.relationships) a b) :
    ∃ (e : Nat × FRelationship) (ja jb : Nat) (oa : DOcc) (tl : List RelSet), (relationsBetween file a b).head? = some e ∧
      Looks e.2 a b ja jb ∧ db.occs[a]? = some oa ∧ oa.related.filter (fun x => x.occurrence == b) = sideOf db a b :: tl ∧
      (sideOf db a b).field1 = ja ∧ (sideOf db a b).field2 = jb ∧ (sideOf db a b).joinBy = e.2.comparison := by
  obtain ⟨start, ops, hs, hops⟩ := hreach
  obtain ⟨hrange, hgen⟩ := generate_iff file hd start hs
  have hsame := same_runOps hops
  have hmem : ∃ e ∈ file.relationships, (e.2.table1 = a ∧ e.2.table2 = b) ∨ (e.2.table1 = b ∧ e.2.table2 = a) := by
    unfold relPairs at hrel
    rcases hrel with h | h
    · obtain ⟨e, he, h⟩ := List.mem_map.mp h
      injection h with h1 h2
      exact ⟨e, he, .inl ⟨h1, h2⟩⟩
    · obtain ⟨e, he, h⟩ := List.mem_map.mp h
      injection h with h1 h2
      exact ⟨e, he, .inr ⟨h1, h2⟩⟩
  have hlen : db.occs.length = start.occs.length := by simpa using congrArg List.length hsame.occs
  obtain ⟨oa, hoa⟩ : ∃ oa, db.occs[a]? = some oa := by
    obtain ⟨e, he, h⟩ := hmem
    have h1 := hrange e he
    have h2 : a < db.occs.length := by rw [hlen, hgen.occsLen]; omega
    exact ⟨_, List.getElem?_eq_getElem h2⟩
  have hrelated : oa.related = file.relationships.flatMap (fun e => sides e.2 a) := by
    have h1 : (db.occs.map (fun o => (o.tablePtr, o.related)))[a]? = some (oa.tablePtr, oa.related) := by
      rw [List.getElem?_map, hoa]; rfl
    rw [hsame.occs, List.getElem?_map] at h1
    cases hso : start.occs[a]? with
    | none => rw [hso] at h1; cases h1
    | some so =>
      rw [hso] at h1
      simp only [Option.map_some, Option.some.injEq, Prod.mk.injEq] at h1
      rw [← h1.2]
      exact generated_relationships file hd start hs a so hso
  have hfl := between_filter file a b
  rw [← hrelated] at hfl
  have hside : ∀ rel tl, oa.related.filter (fun x => x.occurrence == b) = rel :: tl → sideOf db a b = rel := by
    intro rel tl h
    simp [sideOf, hoa, h]
  cases hb : relationsBetween file a b with
  | nil =>
    obtain ⟨e, he, h⟩ := hmem
    have : e ∈ relationsBetween file a b := List.mem_filter.mpr ⟨he, by simpa using h⟩
    rw [hb] at this
    cases this
  | cons e rest =>
    have he : e ∈ relationsBetween file a b := by rw [hb]; simp
    have he2 := (List.mem_filter.mp he).2
    rw [hb, List.flatMap_cons] at hfl
    simp only [decide_eq_true_eq] at he2
    rcases he2 with ⟨rfl, rfl⟩ | ⟨rfl, rfl⟩
    · have hs1 : (sides e.2 e.2.table1).filter (fun x => x.occurrence == e.2.table2) = [forward e.2] := by
        simp [sides, forward, Ne.symm hab]
      rw [hs1] at hfl
      have := hside _ _ hfl
      rw [this]
      exact ⟨e, e.2.field1, e.2.field2, oa, _, rfl, .fromFirst, hoa, hfl, rfl, rfl, rfl⟩
    · have hs1 : (sides e.2 e.2.table2).filter (fun x => x.occurrence == e.2.table1) = [backward e.2] := by
        simp [sides, backward, Ne.symm hab]
      rw [hs1] at hfl
      have := hside _ _ hfl
      rw [this]
      exact ⟨e, e.2.field2, e.2.field1, oa, _, rfl, .fromSecond, hoa, hfl, rfl, rfl, rfl⟩

theorem carriedFrom_iff {p : Profile} {file : FmpFile} (hd : DistinctIds file) {db : Database} (hreach : ReachableFrom p file db) :
    ∀ (path : List Nat), path ≠ [] →
    (∀ i (h : i + 1 < path.length), path[i] ≠ path[i + 1] ∧ Related (relPairs file.relationships) path[i] path[i + 1]) →
    ∀ v rs, rs ∈ carriedOf db (sideOf db) (windows2 path) v ↔ CarriedFrom file db v path rs
  | [], h, _, _, _ => absurd rfl h
  | [a], _, _, v, rs => by
    show rs ∈ [[]] ↔ _
    rw [List.mem_singleton]
    constructor
    · rintro rfl; exact .one
    · intro h; cases h; rfl
  | a :: b :: path, _, hsteps, v, rs => by
    have h0 := hsteps 0 (by simp)
    obtain ⟨e, ja, jb, oa, tl, h1, h2, _, _, _, h3, h4⟩ := first_side hd hreach h0.1 h0.2
    have ih := carriedFrom_iff hd hreach (b :: path) (by simp) (fun i h => by
      have := hsteps (i + 1) (by simp at h ⊢; omega)
      simpa using this)
    show rs ∈ carriedOf db (sideOf db) ((a, b) :: windows2 (b :: path)) v ↔ _
    simp only [List.getElem_cons_zero, Nat.zero_add, List.getElem_cons_succ] at h1 h2 h3 h4
    rw [carriedOf_cons, h3, h4, List.mem_flatMap]
    constructor
    · rintro ⟨⟨w, s⟩, hm, hrs⟩
      obtain ⟨hz, hj⟩ := List.mem_filter.mp hm
      obtain ⟨rs', hrs', rfl⟩ := List.mem_map.mp hrs
      refine .cons h1 h2 (w := w) ?_ ((joins_loosened _ _ _).mp hj) ((ih w rs').mp hrs')
      rw [← columnAt_get]
      exact List.mem_zipIdx_iff_getElem?.mp hz
    · intro h
      cases h with
      | cons g1 g2 g3 g4 g5 =>
        rename_i w s ka kb rs' e'
        rw [h1] at g1
        cases g1
        obtain ⟨_, hk⟩ := looks_unique h0.1 h2 g2
        subst hk
        refine ⟨(w, s), List.mem_filter.mpr ⟨?_, (joins_loosened _ _ _).mpr g4⟩, List.mem_map.mpr ⟨rs', (ih w rs').mpr g5, rfl⟩⟩
        rw [← columnAt_get] at g3
        exact List.mem_zipIdx_iff_getElem?.mpr g3

theorem windows2_adjacent : ∀ (path : List Nat) (a b c d : Nat) (l r : List (Nat × Nat)),
    windows2 path = l ++ (a, b) :: (c, d) :: r → b = c
  | x :: y :: path, a, b, c, d, l, r, h => by
    have hw : windows2 (x :: y :: path) = (x, y) :: windows2 (y :: path) := rfl
    rw [hw] at h
    cases l with
    | nil =>
      simp only [List.nil_append, List.cons.injEq, Prod.mk.injEq] at h
      cases path with
      | nil => cases h.2
      | cons z path =>
        have : windows2 (y :: z :: path) = (y, z) :: windows2 (z :: path) := rfl
        rw [this] at h
        simp only [List.cons.injEq, Prod.mk.injEq] at h
        rw [← h.1.2, ← h.2.1.1]
    | cons w l =>
      simp only [List.cons_append, List.cons.injEq] at h
      exact windows2_adjacent (y :: path) a b c d l r h.2
  | [], _, _, _, _, l, _, h => by cases l <;> cases h
  | [_], _, _, _, _, l, _, h => by cases l <;> cases h

theorem windows2_mem : ∀ (path : List Nat) (w : Nat × Nat), w ∈ windows2 path →
    ∃ i, ∃ h : i + 1 < path.length, w = (path[i], path[i + 1])
  | x :: y :: path, w, h => by
    have hw : windows2 (x :: y :: path) = (x, y) :: windows2 (y :: path) := rfl
    rw [hw] at h
    rcases List.mem_cons.mp h with rfl | h
    · exact ⟨0, by simp, rfl⟩
    · obtain ⟨i, hi, rfl⟩ := windows2_mem (y :: path) w h
      exact ⟨i + 1, by simp at hi ⊢; omega, by simp⟩
  | [], _, h => by cases h
  | [_], _, h => by cases h

/-- C92, exactly what the code does, for every schema without relationships of an occurrence with itself: a read of `occ::field`
takes a shortest path to `occ` and returns the field of the last record of the first chain in which, at every hop, the value by
which the hop before was made is compared; it is an error only if there is no such chain or no path. -/
theorem multi_hop_exact (p : Profile) (file : FmpFile) (hd : DistinctIds file) (hn : DistinctOccurrences file)
    (hself : ∀ e ∈ file.relationships, e.2.table1 ≠ e.2.table2)
    (db : Database) (hreach : ReachableFrom p file db) (b : Nat) (o : FOccurrence)
    (hb : HMap.get file.tableOccurrences b = some o) (oa : DOcc) (r : Nat) (hoa : db.occs[db.handle]? = some oa)
    (hr : oa.currentRecord = some r) (fuel : Nat) (hfuel : 2 * file.relationships.length + 2 ≤ fuel) (field : Str)
    (res : Option Str) (hres : db.relatedField fuel o.name field = .ok (some res)) :
    (res = none ∧ ∀ path, ¬IsWalk (file.relationships.map fun e => (e.2.table1, e.2.table2)) db.handle b path) ∨
    ∃ path v, IsWalk (file.relationships.map fun e => (e.2.table1, e.2.table2)) db.handle b path ∧
      (∀ q, IsWalk (file.relationships.map fun e => (e.2.table1, e.2.table2)) db.handle b q → path.length ≤ q.length) ∧
      LeavesWith file db path r v ∧
      (∀ x, res = some x → ∃ rs ob tb f, CarriedFrom file db v path rs ∧ (∀ rs', CarriedFrom file db v path rs' → ¬rs' < rs) ∧
        db.occs[b]? = some ob ∧ db.tables[ob.tablePtr]? = some tb ∧ tb.fields.find? (fun f => f.name == field) = some f ∧
        f.records[rs.getLastD r]? = some x) ∧
      (res = none → ∀ rs, ¬CarriedFrom file db v path rs) := by
  have hreach' := hreach
  obtain ⟨start, ops, hgen0, hops0⟩ := hreach'
  obtain ⟨hrange, hgen⟩ := generate_iff file hd start hgen0
  have hsame := same_runOps hops0
  have hgraph : db.graph = graphAfter (relPairs file.relationships) := hsame.graph.trans hgen.graph
  have hix : SMap.get db.indices o.name = some b := by
    rw [hsame.indices, hgen.indices]
    exact indicesOf_get file hn b o (HMap.mem_of_get hb)
  have hpf : pathFuel (relPairs file.relationships) ≤ fuel := by
    unfold pathFuel relPairs; rw [List.length_map]; exact hfuel
  unfold Database.relatedField at hres
  simp only [hix, unwrap, ok_bind] at hres
  cases hgp : getPathFuel fuel db.graph db.handle b with
  | none => rw [hgp] at hres; cases hres
  | some op =>
  cases op with
  | none =>
    rw [hgp] at hres
    cases hres
    refine .inl ⟨rfl, fun path hw => ?_⟩
    obtain ⟨q, hq⟩ := (get_path_some_iff (relPairs file.relationships) db.handle b fuel hpf).mpr ⟨_, hw⟩
    rw [← hgraph, hgp] at hq
    cases hq
  | some path =>
  rw [hgp] at hres
  dsimp only at hres
  rw [hgraph] at hgp
  have hwalk := get_path_sound _ _ _ _ _ hgp
  have hshort : ∀ q, IsWalk (relPairs file.relationships) db.handle b q → path.length ≤ q.length :=
    fun q hq => get_path_shortest _ _ _ _ _ _ hgp hq
  have hne : ∀ x y, Related (relPairs file.relationships) x y → x ≠ y := by
    intro x y h
    unfold relPairs at h
    rcases h with h | h
    · obtain ⟨e, he, h⟩ := List.mem_map.mp h
      injection h with h1 h2
      rw [← h1, ← h2]
      exact hself e he
    · obtain ⟨e, he, h⟩ := List.mem_map.mp h
      injection h with h1 h2
      rw [← h1, ← h2]
      exact (hself e he).symm
  have hsteps : ∀ i (h : i + 1 < path.length), path[i] ≠ path[i + 1] ∧ Related (relPairs file.relationships) path[i] path[i + 1] :=
    fun i h => ⟨hne _ _ (hwalk.steps i h), hwalk.steps i h⟩
  obtain ⟨hopsRes, hh, hres⟩ := bind_ok.mp hres
  obtain ⟨a, c, rest, rfl⟩ : ∃ a c rest, path = a :: c :: rest := by
    have := hwalk.long
    match path, this with
    | a :: c :: rest, _ => exact ⟨a, c, rest, rfl⟩
  have ha : a = db.handle := by have := hwalk.starts; simpa using this
  subst ha
  have hchains := carriedFrom_iff hd hreach (db.handle :: c :: rest) (by simp) hsteps
  have h0 := hsteps 0 (by simp)
  simp only [List.getElem_cons_zero, Nat.zero_add, List.getElem_cons_succ] at h0
  obtain ⟨e, ja, jb, oa', tl, h1, h2, hoa', hfil, hf1, _, _⟩ := first_side hd hreach h0.1 h0.2
  rw [hoa] at hoa'
  cases hoa'
  -- the first hop starts with the current record
  obtain ⟨v, hv, hh'⟩ : ∃ v, cellAt db db.handle ja r = some v ∧
      hops db (windows2 (db.handle :: c :: rest)) [(r, v)] = .ok hopsRes := by
    have h1 : db.occurrence db.handle = .ok oa := idx_of hoa
    have e : windows2 (db.handle :: c :: rest) = (db.handle, c) :: windows2 (c :: rest) := rfl
    rw [e] at hh ⊢
    unfold hops at hh ⊢
    simp only [h1, ok_bind, hr, hfil, List.isEmpty_nil, if_true] at hh
    obtain ⟨cur, hcur', hh⟩ := bind_ok.mp hh
    obtain ⟨t, ht, hcur'⟩ := bind_ok.mp hcur'
    obtain ⟨f, hf, hcur'⟩ := bind_ok.mp hcur'
    obtain ⟨v, hv, hcur'⟩ := bind_ok.mp hcur'
    cases hcur'
    refine ⟨v, ?_, ?_⟩
    · obtain ⟨o', ho', ht'⟩ := currentTable_ok.mp ht
      rw [hoa] at ho'
      injection ho' with ho'
      subst ho'
      rw [hf1] at hf
      simp [cellAt, hoa, ht', idx_ok.mp hf, idx_ok.mp hv]
    · simp only [h1, ok_bind, hr, hfil, List.isEmpty_cons, Bool.false_eq_true, if_false, pure_ok]
      exact hh
  have hgood : ∀ w ∈ windows2 (db.handle :: c :: rest), ∃ o tl, db.occs[w.1]? = some o ∧
      (o.currentRecord = none → ∀ j r, cellAt db w.1 j r = none) ∧
      o.related.filter (fun x => x.occurrence == w.2) = sideOf db w.1 w.2 :: tl := by
    intro w hw
    obtain ⟨i, hi, rfl⟩ := windows2_mem _ _ hw
    obtain ⟨_, _, _, ow, tl, _, _, how, hfw, _⟩ := first_side hd hreach (hsteps i hi).1 (hsteps i hi).2
    exact ⟨ow, tl, how, no_current_no_cell ⟨file, start, ops, hgen0, hops0⟩ how, hfw⟩
  obtain ⟨c1, c2⟩ := hops_carried _ _ _ hh' (by simp)
    (by
      intro a' b' rest' hw x hx
      rw [List.mem_singleton.mp hx]
      have : windows2 (db.handle :: c :: rest) = (db.handle, c) :: windows2 (c :: rest) := rfl
      rw [this] at hw
      injection hw with hw _
      injection hw with hw _
      exact ⟨ja, by rw [← hw]; exact hv⟩)
    (windows2_adjacent _) hgood
  refine .inr ⟨_, v, hwalk, hshort, ⟨_, _, e, ja, jb, rfl, rfl, h1, h2, hv⟩, ?_⟩
  cases hopsRes with
  | none =>
    injection hres with hres
    injection hres with hres
    subst hres
    refine ⟨by simp, fun _ rs hch => ?_⟩
    have := c2 rfl (r, v) (by simp)
    have hm := (hchains v rs).mpr hch
    dsimp only at this
    rw [this] at hm
    cases hm
  | some set =>
    obtain ⟨d1, d2⟩ := c1 set rfl
    obtain ⟨x, hx, hres⟩ := bind_ok.mp hres
    injection hres with hres
    injection hres with hres
    subst hres
    refine ⟨?_, by simp⟩
    intro y hy
    injection hy with hy
    subst hy
    simp only [List.flatMap_cons, List.flatMap_nil, List.append_nil] at d2
    have hsorted := carriedOf_sorted db (sideOf db) (windows2 (db.handle :: c :: rest)) v
    cases hcs : carriedOf db (sideOf db) (windows2 (db.handle :: c :: rest)) v with
    | nil =>
      rw [hcs] at d2
      exact absurd (List.map_eq_nil_iff.mp d2) d1
    | cons rs more =>
      rw [hcs] at d2 hsorted
      obtain ⟨e, set', rfl⟩ := List.exists_cons_of_ne_nil d1
      simp only [List.map_cons, List.cons.injEq] at d2
      unfold targetField at hx
      obtain ⟨n, hn', hx⟩ := bind_ok.mp hx
      obtain ⟨ob, hob, hx⟩ := bind_ok.mp hx
      obtain ⟨tb, htb, hx⟩ := bind_ok.mp hx
      obtain ⟨f, hf, hx⟩ := bind_ok.mp hx
      obtain ⟨e', he', hx⟩ := bind_ok.mp hx
      have hnb : n = b := by
        have h1 := hwalk.ends
        rw [h1] at hn'
        cases hn'
        rfl
      subst hnb
      rw [idx_zero] at he'
      cases he'
      refine ⟨rs, ob, tb, f, (hchains v rs).mp (by rw [hcs]; simp), ?_, idx_ok.mp hob, idx_ok.mp htb, firstField_ok.mp hf, ?_⟩
      · intro rs' hch hlt
        have hm := (hchains v rs').mpr hch
        rw [hcs] at hm
        rcases List.mem_cons.mp hm with rfl | hm
        · exact List.lt_irrefl _ hlt
        · exact List.lt_asymm hlt (List.rel_of_pairwise_cons hsorted hm)
      · rw [← d2.1]
        exact idx_ok.mp hx

set_option maxRecDepth 20000 in
/-- The hypotheses are met by the schema of the refutations of C92, in which `b` is entered by `y` and left by `z`: the value
`1` of `y`, and not the value `2` of `z`, is compared with `w`. -/
example : ∃ db, ReachableFrom .debug (chainSchema 2) db ∧ (∀ e ∈ (chainSchema 2).relationships, e.2.table1 ≠ e.2.table2) ∧
    LeavesWith (chainSchema 2) db [1, 2, 3] 0 t!"1" ∧ CarriedFrom (chainSchema 2) db t!"1" [1, 2, 3] [0, 0] ∧
    cellAt db 2 2 0 = some t!"2" ∧ db.relatedField 6 t!"c" t!"w" = .ok (some (some t!"1")) := by
  obtain ⟨db, hdb⟩ : ∃ db, chainState 2 t!"1" = .ok db := ⟨_, rfl⟩
  refine ⟨db, chainState_reachable hdb, by decide, ?_, ?_, ?_, ?_⟩
  · cases hdb
    exact ⟨1, 2, _, _, _, rfl, rfl, rfl, .fromFirst, rfl⟩
  · cases hdb
    exact .cons (ja := 1) (jb := 1) (w := t!"1") rfl .fromFirst rfl rfl (.cons (ja := 2) (jb := 1) (w := t!"1") rfl .fromFirst rfl rfl .one)
  · cases hdb; rfl
  · cases hdb; rfl

end BurnFm.Props
