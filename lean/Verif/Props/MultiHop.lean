import Verif.Props.Related
import Verif.Proofs.MultiHop

/-! Property C92: reading a field through several relationships. -/

namespace BurnFm.Props
open Spec

/-- Record `r` of occurrence `a` and record `s` of occurrence `b` are related by the relationship between `a` and `b`. -/
def RecordsRelated (file : FmpFile) (db : Database) (a b r s : Nat) : Prop :=
  ∃ e ja jb v w, OnlyRelation file e a b ∧ Looks e.2 a b ja jb ∧ cellAt db a ja r = some v ∧ cellAt db b jb s = some w ∧
    StandsFrom e.2 a v w

/-- A chain of records along a path of occurrences, each related to the next. -/
inductive Chain (file : FmpFile) (db : Database) : List Nat → List Nat → Prop
  | one {a r : Nat} : Chain file db [a] [r]
  | cons {a b r s : Nat} {path rs : List Nat} : RecordsRelated file db a b r s → Chain file db (b :: path) (s :: rs) →
      Chain file db (a :: b :: path) (r :: s :: rs)

/-- The hop from `a`, where it uses the field `ja`, to `b`, where it uses the field `jb`, is one for which C36 holds. -/
def GoodHop (file : FmpFile) (a b ja jb : Nat) : Prop :=
  a ≠ b ∧ ∃ e, OnlyRelation file e a b ∧ Looks e.2 a b ja jb ∧
    (e.2.comparison ≠ .less ∧ e.2.comparison ≠ .greater) ∧
    (a ≠ e.2.table1 → e.2.comparison = .equal ∨ e.2.comparison = .notEqual ∨ e.2.comparison = .cartesian)

/-- A path of good hops that leaves each occurrence by the same field as it enters it; `j` is the field by which it
leaves the first. -/
inductive SameFields (file : FmpFile) : List Nat → Nat → Prop
  | one {a j : Nat} : SameFields file [a] j
  | cons {a b j k : Nat} {path : List Nat} : GoodHop file a b j k → SameFields file (b :: path) k →
      SameFields file (a :: b :: path) j

/-- `path` is the only shortest path from `a` to `b`. -/
def OnlyShortest (calls : List (Nat × Nat)) (a b : Nat) (path : List Nat) : Prop :=
  IsWalk calls a b path ∧ ∀ q, IsWalk calls a b q → q.length ≤ path.length → q = path

/-- The stored side of a good hop. -/
theorem stored_side {p : Profile} {file : FmpFile} (hd : DistinctIds file) {db : Database} (hreach : ReachableFrom p file db)
    {a b ja jb : Nat} (hg : GoodHop file a b ja jb) {oa : DOcc} (hoa : db.occs[a]? = some oa) :
    ∃ rel : RelSet, oa.related.filter (fun x => x.occurrence == b) = [rel] ∧ rel.field1 = ja ∧ rel.field2 = jb ∧
      ∃ e, OnlyRelation file e a b ∧ Looks e.2 a b ja jb ∧ ∀ v w, joins rel.joinBy v w = true ↔ StandsFrom e.2 a v w := by
  obtain ⟨hab, e, honly, hlook, hcmp1, hcmp2⟩ := hg
  obtain ⟨start, ops, hs, hops⟩ := hreach
  have hsame := same_runOps hops
  have hrelated : oa.related = file.relationships.flatMap (fun e => sides e.2 a) := by
    have h1 : (db.occs.map (fun o => (o.tablePtr, o.related)))[a]? = some (oa.tablePtr, oa.related) := by
      rw [List.getElem?_map, hoa]; rfl
    rw [hsame.occs, List.getElem?_map] at h1
    cases hso : start.occs[a]? with
    | none => rw [hso] at h1; cases h1
    | some so =>
      rw [hso] at h1
      simp only [Option.map_some, Option.some.injEq, Prod.mk.injEq] at h1
      rw [← h1.2]
      exact generated_relationships file hd start hs a so hso
  have hfl := only_filter file e a b honly
  rw [← hrelated] at hfl
  rw [hfl]
  cases id hlook with
  | fromFirst =>
    refine ⟨forward e.2, ?_, rfl, rfl, e, honly, hlook, fun v w => ?_⟩
    · simp [sides, forward, Ne.symm hab]
    · unfold StandsFrom
      rw [if_pos rfl]
      exact joins_iff _ hcmp1 v w
  | fromSecond =>
    refine ⟨backward e.2, ?_, rfl, rfl, e, honly, hlook, fun v w => ?_⟩
    · simp [sides, backward, Ne.symm hab]
    · unfold StandsFrom
      rw [if_neg hab, ← stands_symm (hcmp2 hab)]
      exact joins_iff _ hcmp1 v w

theorem looks_cases {e : FRelationship} {a b ja jb : Nat} (h : Looks e a b ja jb) :
    (a = e.table1 ∧ b = e.table2 ∧ ja = e.field1 ∧ jb = e.field2) ∨
      (a = e.table2 ∧ b = e.table1 ∧ ja = e.field2 ∧ jb = e.field1) := by
  cases h with
  | fromFirst => exact .inl ⟨rfl, rfl, rfl, rfl⟩
  | fromSecond => exact .inr ⟨rfl, rfl, rfl, rfl⟩

theorem looks_unique {e : FRelationship} {a b ja jb ka kb : Nat} (hab : a ≠ b) (h : Looks e a b ja jb) (h' : Looks e a b ka kb) :
    ja = ka ∧ jb = kb := by
  have h1 := looks_cases h
  have h2 := looks_cases h'
  omega

theorem only_unique {file : FmpFile} {a b : Nat} {e e' : Nat × FRelationship} (h : OnlyRelation file e a b)
    (h' : OnlyRelation file e' a b) : e = e' := by
  unfold OnlyRelation at h h'
  rw [h] at h'
  injection h'

/-- The side of a hop that the code uses. -/
def sideOf (db : Database) (a b : Nat) : RelSet :=
  match db.occs[a]? with
  | none => ⟨.equal, 0, 0, 0, []⟩
  | some o => (o.related.filter (fun x => x.occurrence == b)).headD ⟨.equal, 0, 0, 0, []⟩

theorem linked_iff {p : Profile} {file : FmpFile} (hd : DistinctIds file) {db : Database} (hreach : ReachableFrom p file db)
    {a b ja jb : Nat} (hg : GoodHop file a b ja jb) {oa : DOcc} (hoa : db.occs[a]? = some oa) :
    (∃ tl, oa.related.filter (fun x => x.occurrence == b) = sideOf db a b :: tl) ∧ (sideOf db a b).field1 = ja ∧
      (sideOf db a b).field2 = jb ∧ ∀ r s, linked db (sideOf db a b) a b r s = true ↔ RecordsRelated file db a b r s := by
  obtain ⟨rel, h1, h2, h3, e, h4, h5, h6⟩ := stored_side hd hreach hg hoa
  have hside : sideOf db a b = rel := by simp [sideOf, hoa, h1]
  rw [hside]
  refine ⟨⟨[], h1⟩, h2, h3, fun r s => ?_⟩
  unfold linked
  rw [h2, h3]
  constructor
  · intro h
    split at h
    · rename_i v w hv hw
      exact ⟨e, ja, jb, v, w, h4, h5, hv, hw, (h6 v w).mp h⟩
    · cases h
  · rintro ⟨e', ka, kb, v, w, g1, g2, g3, g4, g5⟩
    have := only_unique h4 g1
    subst this
    obtain ⟨rfl, rfl⟩ := looks_unique hg.1 h5 g2
    rw [g3, g4]
    exact (h6 v w).mpr g5

theorem chains_iff {p : Profile} {file : FmpFile} (hd : DistinctIds file) {db : Database} (hreach : ReachableFrom p file db)
    {path : List Nat} {j : Nat} (hs : SameFields file path j) (hocc : ∀ a ∈ path.dropLast, ∃ o, db.occs[a]? = some o) :
    ∀ r rs, rs ∈ chainsOf db (sideOf db) (windows2 path) r ↔ Chain file db path (r :: rs) := by
  induction hs with
  | one =>
    intro r rs
    show rs ∈ [[]] ↔ _
    rw [List.mem_singleton]
    constructor
    · rintro rfl; exact .one
    · intro h; cases h; rfl
  | @cons a b j k path hg hs ih =>
    intro r rs
    obtain ⟨oa, hoa⟩ := hocc a (by simp)
    obtain ⟨_, l1, l2, l3⟩ := linked_iff hd hreach hg hoa
    have ih' := ih (fun x hx => hocc x (by rw [List.dropLast_cons_of_ne_nil (by simp)]; exact List.mem_cons_of_mem _ hx))
    show rs ∈ chainsOf db (sideOf db) ((a, b) :: windows2 (b :: path)) r ↔ _
    unfold chainsOf
    rw [List.mem_flatMap]
    constructor
    · rintro ⟨s, hs', hm⟩
      obtain ⟨rs', hrs, rfl⟩ := List.mem_map.mp hm
      exact .cons ((l3 r s).mp (List.mem_filter.mp hs').2) ((ih' s rs').mp hrs)
    · intro h
      cases h with
      | @cons _ _ _ s _ rs' hrel hch =>
        refine ⟨s, ?_, List.mem_map.mpr ⟨rs', (ih' s rs').mpr hch, rfl⟩⟩
        have hl := (l3 r s).mpr hrel
        refine List.mem_filter.mpr ⟨List.mem_range.mpr ?_, hl⟩
        unfold linked at hl
        split at hl
        · rename_i v w hv hw; exact cellAt_rows hw
        · cases hl

theorem sameMiddle_of {p : Profile} {file : FmpFile} (hd : DistinctIds file) {db : Database} (hreach : ReachableFrom p file db)
    {path : List Nat} {j : Nat} (hs : SameFields file path j) (hocc : ∀ a ∈ path.dropLast, ∃ o, db.occs[a]? = some o) :
    SameMiddle (sideOf db) (windows2 path) ∧ (∀ a b rest, path = a :: b :: rest → (sideOf db a b).field1 = j) ∧
      ∀ w ∈ windows2 path, w.1 ∈ path.dropLast ∧ ∀ o, db.occs[w.1]? = some o →
        ∃ tl, o.related.filter (fun x => x.occurrence == w.2) = sideOf db w.1 w.2 :: tl := by
  induction hs with
  | one => exact ⟨trivial, by simp, by simp [windows2]⟩
  | @cons a b j k path hg hs ih =>
    obtain ⟨oa, hoa⟩ := hocc a (by simp)
    obtain ⟨l0, l1, l2, l3⟩ := linked_iff hd hreach hg hoa
    have hdl : (a :: b :: path).dropLast = a :: (b :: path).dropLast := List.dropLast_cons_of_ne_nil (by simp)
    obtain ⟨i1, i2, i3⟩ := ih (fun x hx => hocc x (by rw [hdl]; exact List.mem_cons_of_mem _ hx))
    refine ⟨?_, ?_, ?_⟩
    · cases path with
      | nil => trivial
      | cons c rest => exact ⟨rfl, l2.trans (i2 b c rest rfl).symm, i1⟩
    · intro a' b' rest' h
      injection h with h1 h2
      injection h2 with h2 h3
      subst h1 h2
      exact l1
    · intro w hw
      rcases List.mem_cons.mp (show w ∈ (a, b) :: windows2 (b :: path) from hw) with rfl | hw
      · refine ⟨by rw [hdl]; exact List.mem_cons_self, fun o ho => ?_⟩
        dsimp only at ho
        rw [hoa] at ho
        injection ho with ho
        subst ho
        exact l0
      · obtain ⟨j1, j2⟩ := i3 w hw
        exact ⟨by rw [hdl]; exact List.mem_cons_of_mem _ j1, j2⟩

/-- All occurrences of a path of hops exist, except possibly the last. -/
theorem path_occurrences {p : Profile} {file : FmpFile} (hd : DistinctIds file) {db : Database} (hreach : ReachableFrom p file db)
    {path : List Nat} {j : Nat} (hs : SameFields file path j) : ∀ a ∈ path.dropLast, ∃ o, db.occs[a]? = some o := by
  obtain ⟨start, ops, hgen0, hops0⟩ := hreach
  obtain ⟨hrange, hgen⟩ := generate_iff file hd start hgen0
  have hlen : db.occs.length = maxKey file.tableOccurrences + 1 := by
    rw [← hgen.occsLen]
    simpa using congrArg List.length (same_runOps hops0).occs
  induction hs with
  | one => intro a ha; cases ha
  | @cons a b j k path hg hs ih =>
    intro x hx
    rw [List.dropLast_cons_of_ne_nil (by simp)] at hx
    rcases List.mem_cons.mp hx with rfl | hx
    · obtain ⟨_, e, honly, hlook, _⟩ := hg
      have he : e ∈ file.relationships := by
        have : e ∈ [e] := by simp
        rw [← honly] at this
        exact (List.mem_filter.mp this).1
      have h1 := hrange e he
      have h2 : x < db.occs.length := by
        rcases looks_cases hlook with h | h <;> omega
      exact ⟨_, List.getElem?_eq_getElem h2⟩
    · exact ih x hx

/-- An occurrence without a current record shows a table without records. -/
theorem no_current_no_cell {p : Profile} {db : Database} (h : Reachable p db) {a : Nat} {o : DOcc} (ho : db.occs[a]? = some o)
    (hn : o.currentRecord = none) (j r : Nat) : cellAt db a j r = none := by
  have hi := inv_reachable h
  have hok := hi.occ o (List.mem_of_getElem? ho)
  have he : o.foundSet = [] := by
    apply Classical.byContradiction
    intro hne
    have := hok.pointer hne
    rw [DOcc.currentRecord, List.getElem?_eq_getElem this] at hn
    cases hn
  unfold cellAt
  simp only [ho]
  cases ht : db.tables[o.tablePtr]? with
  | none => rfl
  | some t =>
    dsimp only
    cases hf : t.fields[j]? with
    | none => rfl
    | some f =>
      have hz := hok.full he (t.fields.map (·.records.length)) (by unfold sizes; rw [List.getElem?_map, ht]; rfl) f.records.length
        (List.mem_map.mpr ⟨f, List.mem_of_getElem? hf, rfl⟩)
      exact List.getElem?_eq_none (by omega)

/-- C92, for paths that leave every occurrence by the field by which they enter it: if `path` is the only shortest path
from the current occurrence to `occ`, then reading `occ::field` gives the field of the last record of the first chain of
related records that starts with the current record; it is an error only if there is no such chain.

Missing: paths that enter an occurrence by one field and leave it by another; these are refuted below. -/
theorem multi_hop_partial (p : Profile) (file : FmpFile) (hd : DistinctIds file) (hn : DistinctOccurrences file)
    (db : Database) (hreach : ReachableFrom p file db) (b : Nat) (o : FOccurrence)
    (hb : HMap.get file.tableOccurrences b = some o) (path : List Nat)
    (hpath : OnlyShortest (file.relationships.map fun e => (e.2.table1, e.2.table2)) db.handle b path) (j : Nat)
    (hs : SameFields file path j) (oa : DOcc) (r : Nat) (hoa : db.occs[db.handle]? = some oa) (hr : oa.currentRecord = some r)
    (fuel : Nat) (hfuel : 2 * file.relationships.length + 2 ≤ fuel) (field : Str) (res : Option Str)
    (hres : db.relatedField fuel o.name field = .ok (some res)) :
    (∀ x, res = some x → ∃ rs ob tb f, Chain file db path (r :: rs) ∧ (∀ rs', Chain file db path (r :: rs') → ¬rs' < rs) ∧
      db.occs[b]? = some ob ∧ db.tables[ob.tablePtr]? = some tb ∧ tb.fields.find? (fun f => f.name == field) = some f ∧
      f.records[rs.getLastD r]? = some x) ∧
    (res = none → ∀ rs, ¬Chain file db path (r :: rs)) := by
  have hocc := path_occurrences hd hreach hs
  have hchains := chains_iff hd hreach hs hocc
  obtain ⟨hmid, hfirst, hwin⟩ := sameMiddle_of hd hreach hs hocc
  have hreach' := hreach
  obtain ⟨start, ops, hgen0, hops0⟩ := hreach'
  obtain ⟨hrange, hgen⟩ := generate_iff file hd start hgen0
  have hsame := same_runOps hops0
  have hgraph : db.graph = graphAfter (relPairs file.relationships) := hsame.graph.trans hgen.graph
  have hix : SMap.get db.indices o.name = some b := by
    rw [hsame.indices, hgen.indices]
    exact indicesOf_get file hn b o (HMap.mem_of_get hb)
  have hpf : pathFuel (relPairs file.relationships) ≤ fuel := by
    unfold pathFuel relPairs; rw [List.length_map]; exact hfuel
  have hgp : getPathFuel fuel db.graph db.handle b = some (some path) := by
    rw [hgraph]
    obtain ⟨q, hq⟩ := (get_path_some_iff (relPairs file.relationships) db.handle b fuel hpf).mpr ⟨_, hpath.1⟩
    rw [hq, hpath.2 q (get_path_sound _ _ _ _ _ hq) (get_path_shortest _ _ _ _ _ _ hq hpath.1)]
  unfold Database.relatedField at hres
  simp only [hix, unwrap, ok_bind, hgp] at hres
  obtain ⟨hopsRes, hh, hres⟩ := bind_ok.mp hres
  -- the path has at least two occurrences
  obtain ⟨a, c, rest, rfl⟩ : ∃ a c rest, path = a :: c :: rest := by
    have := hpath.1.long
    match path, this with
    | a :: c :: rest, _ => exact ⟨a, c, rest, rfl⟩
  have ha : a = db.handle := by have := hpath.1.starts; simpa using this
  subst ha
  have hf1 := hfirst db.handle c rest rfl
  obtain ⟨tl, hfil⟩ := (hwin (db.handle, c) (by simp [windows2])).2 oa hoa
  -- the first hop starts with the current record
  obtain ⟨v, hv, hh'⟩ : ∃ v, cellAt db db.handle j r = some v ∧
      hops db (windows2 (db.handle :: c :: rest)) [(r, v)] = .ok hopsRes := by
    have h1 : db.occurrence db.handle = .ok oa := idx_of hoa
    have e : windows2 (db.handle :: c :: rest) = (db.handle, c) :: windows2 (c :: rest) := rfl
    rw [e] at hh ⊢
    unfold hops at hh ⊢
    dsimp only at hfil
    simp only [h1, ok_bind, hr, hfil, List.isEmpty_nil, if_true] at hh
    obtain ⟨cur, hcur', hh⟩ := bind_ok.mp hh
    obtain ⟨t, ht, hcur'⟩ := bind_ok.mp hcur'
    obtain ⟨f, hf, hcur'⟩ := bind_ok.mp hcur'
    obtain ⟨v, hv, hcur'⟩ := bind_ok.mp hcur'
    cases hcur'
    refine ⟨v, ?_, ?_⟩
    · obtain ⟨o', ho', ht'⟩ := currentTable_ok.mp ht
      rw [hoa] at ho'
      injection ho' with ho'
      subst ho'
      rw [hf1] at hf
      simp [cellAt, hoa, ht', idx_ok.mp hf, idx_ok.mp hv]
    · simp only [h1, ok_bind, hr, hfil, List.isEmpty_cons, Bool.false_eq_true, if_false, pure_ok]
      exact hh
  have hfit : Fits db (sideOf db) [(r, v)] (windows2 (db.handle :: c :: rest)) := by
    intro e he
    rw [List.mem_singleton.mp he, hf1]
    exact hv
  have hgood : ∀ w ∈ windows2 (db.handle :: c :: rest), ∃ o tl, db.occs[w.1]? = some o ∧
      (o.currentRecord = none → ∀ j r, cellAt db w.1 j r = none) ∧
      o.related.filter (fun x => x.occurrence == w.2) = sideOf db w.1 w.2 :: tl := by
    intro w hw
    obtain ⟨hm, hf⟩ := hwin w hw
    obtain ⟨ow, h1⟩ := hocc w.1 hm
    obtain ⟨tl, htl⟩ := hf ow h1
    exact ⟨ow, tl, h1, no_current_no_cell ⟨file, start, ops, hgen0, hops0⟩ h1, htl⟩
  obtain ⟨c1, c2⟩ := hops_chains _ _ _ hh' (by simp) hfit hmid hgood
  cases hopsRes with
  | none =>
    injection hres with hres
    injection hres with hres
    subst hres
    refine ⟨by simp, fun _ rs hch => ?_⟩
    have := c2 rfl (r, v) (by simp)
    have hm := (hchains r rs).mpr hch
    dsimp only at this
    rw [this] at hm
    cases hm
  | some set =>
    obtain ⟨d1, d2⟩ := c1 set rfl
    obtain ⟨x, hx, hres⟩ := bind_ok.mp hres
    injection hres with hres
    injection hres with hres
    subst hres
    refine ⟨?_, by simp⟩
    intro y hy
    injection hy with hy
    subst hy
    simp only [List.flatMap_cons, List.flatMap_nil, List.append_nil] at d2
    have hsorted := chainsOf_sorted db (sideOf db) (windows2 (db.handle :: c :: rest)) r
    cases hcs : chainsOf db (sideOf db) (windows2 (db.handle :: c :: rest)) r with
    | nil =>
      rw [hcs] at d2
      exact absurd (List.map_eq_nil_iff.mp d2) d1
    | cons rs more =>
      rw [hcs] at d2 hsorted
      obtain ⟨e, set', rfl⟩ := List.exists_cons_of_ne_nil d1
      simp only [List.map_cons, List.cons.injEq] at d2
      unfold targetField at hx
      obtain ⟨n, hn', hx⟩ := bind_ok.mp hx
      obtain ⟨ob, hob, hx⟩ := bind_ok.mp hx
      obtain ⟨tb, htb, hx⟩ := bind_ok.mp hx
      obtain ⟨f, hf, hx⟩ := bind_ok.mp hx
      obtain ⟨e', he', hx⟩ := bind_ok.mp hx
      have hnb : n = b := by
        have h1 := hpath.1.ends
        rw [h1] at hn'
        cases hn'
        rfl
      subst hnb
      rw [idx_zero] at he'
      cases he'
      refine ⟨rs, ob, tb, f, (hchains r rs).mp (by rw [hcs]; simp), ?_, idx_ok.mp hob, idx_ok.mp htb, firstField_ok.mp hf, ?_⟩
      · intro rs' hch hlt
        have hm := (hchains r rs').mpr hch
        rw [hcs] at hm
        rcases List.mem_cons.mp hm with rfl | hm
        · exact List.lt_irrefl _ hlt
        · exact List.lt_asymm hlt (List.rel_of_pairwise_cons hsorted hm)
      · rw [← d2.1]
        exact idx_ok.mp hx

/-! ### Example and refutations -/

/-- Tables and occurrences `a`, `b`, `c`; `a::x = b::y`, and `c::w` equals field `m`
of `b` (1 is `y`, 2 is `z`). -/
def chainSchema (m : Nat) : FmpFile :=
  { tables := [(1, { name := t!"a", fields := [(1, { name := t!"x" })] }),
               (2, { name := t!"b", fields := [(1, { name := t!"y" }), (2, { name := t!"z" })] }),
               (3, { name := t!"c", fields := [(1, { name := t!"w" })] })]
    tableOccurrences := [(1, { name := t!"a", tableActual := 1 }), (2, { name := t!"b", tableActual := 2 }),
                         (3, { name := t!"c", tableActual := 3 })]
    relationships := [(1, { table1 := 1, field1 := 1, table2 := 2, field2 := 1, comparison := .equal }),
                      (2, { table1 := 2, field1 := m, table2 := 3, field2 := 1, comparison := .equal })] }

/-- A record in each of the three tables: `x = 1`, `y = 1`, `z = 2` and `w` as given. -/
def chainHistory (w : Str) : List Op :=
  [.create, .set t!"a" t!"x" t!"1", .layout 2, .create, .set t!"b" t!"y" t!"1", .set t!"b" t!"z" t!"2",
    .layout 3, .create, .set t!"c" t!"w" w, .layout 1]

/-- The state after that history. -/
def chainState (m : Nat) (w : Str) : Res Database := do
  let db ← Database.generate {} (chainSchema m)
  runOps .debug db (chainHistory w)

theorem chainState_reachable {m : Nat} {w : Str} {db : Database} (h : chainState m w = .ok db) :
    ReachableFrom .debug (chainSchema m) db := by
  obtain ⟨start, h1, h2⟩ := bind_ok.mp h
  exact ⟨start, _, h1, h2⟩

theorem chain_three {m : Nat} {db : Database} (hm : m = 1 ∨ m = 2) {v w x y : Str} (h1 : cellAt db 1 1 0 = some v)
    (h2 : cellAt db 2 1 0 = some w) (h3 : v = w) (h4 : cellAt db 2 m 0 = some x) (h5 : cellAt db 3 1 0 = some y) (h6 : x = y) :
    Chain (chainSchema m) db [1, 2, 3] [0, 0, 0] := by
  refine .cons ⟨(1, { table1 := 1, field1 := 1, table2 := 2, field2 := 1, comparison := .equal }), 1, 1, v, w, ?_, .fromFirst, h1, h2, ?_⟩
    (.cons ⟨(2, { table1 := 2, field1 := m, table2 := 3, field2 := 1, comparison := .equal }), m, 1, x, y, ?_, .fromFirst, h4, h5, ?_⟩ .one)
  · rcases hm with rfl | rfl <;> (unfold OnlyRelation; decide)
  · exact h3
  · rcases hm with rfl | rfl <;> (unfold OnlyRelation; decide)
  · exact h6

set_option maxRecDepth 20000 in
/-- C92 is false: the chain of records `x = 1`, `y = 1` and `z = 2`, `w = 2` exists, and the read finds nothing. -/
theorem multi_hop_missed : ∃ db, ReachableFrom .debug (chainSchema 2) db ∧ db.handle = 1 ∧
    Chain (chainSchema 2) db [1, 2, 3] [0, 0, 0] ∧ db.relatedField 6 t!"c" t!"w" = .ok (some none) := by
  obtain ⟨db, hdb⟩ : ∃ db, chainState 2 t!"2" = .ok db := ⟨_, rfl⟩
  refine ⟨db, chainState_reachable hdb, ?_, ?_, ?_⟩
  · cases hdb; rfl
  · cases hdb
    exact chain_three (.inr rfl) (v := t!"1") (w := t!"1") rfl rfl rfl (x := t!"2") (y := t!"2") rfl rfl rfl
  · cases hdb; rfl

set_option maxRecDepth 20000 in
theorem only_z {db : Database} (hdb : chainState 2 t!"1" = .ok db) (s : Nat) (v : Str) (h : cellAt db 2 2 s = some v) : v = t!"2" := by
  have hf : ∃ o t f, db.occs[2]? = some o ∧ db.tables[o.tablePtr]? = some t ∧ t.fields[2]? = some f ∧ f.records = [t!"2"] := by
    cases hdb
    exact ⟨_, _, _, rfl, rfl, rfl, rfl⟩
  obtain ⟨o, t, f, h1, h2, h3, h4⟩ := hf
  simp only [cellAt, h1, h2, h3, h4] at h
  cases s with
  | zero => injection h with h; exact h.symm
  | succ s => cases h

set_option maxRecDepth 20000 in
theorem only_w {db : Database} (hdb : chainState 2 t!"1" = .ok db) (s : Nat) (v : Str) (h : cellAt db 3 1 s = some v) : v = t!"1" := by
  have hf : ∃ o t f, db.occs[3]? = some o ∧ db.tables[o.tablePtr]? = some t ∧ t.fields[1]? = some f ∧ f.records = [t!"1"] := by
    cases hdb
    exact ⟨_, _, _, rfl, rfl, rfl, rfl⟩
  obtain ⟨o, t, f, h1, h2, h3, h4⟩ := hf
  simp only [cellAt, h1, h2, h3, h4] at h
  cases s with
  | zero => injection h with h; exact h.symm
  | succ s => cases h

theorem no_pair {db : Database} (hdb : chainState 2 t!"1" = .ok db) (s t : Nat) : ¬RecordsRelated (chainSchema 2) db 2 3 s t := by
  rintro ⟨e, ja, jb, v, w, h1, h2, h3, h4, h5⟩
  have he : OnlyRelation (chainSchema 2) (2, { table1 := 2, field1 := 2, table2 := 3, field2 := 1, comparison := .equal }) 2 3 := by
    unfold OnlyRelation; decide
  have := only_unique h1 he
  subst this
  obtain ⟨rfl, rfl⟩ := looks_unique (by decide) h2 (.fromFirst)
  have hw : v = w := h5
  rw [only_z hdb s v h3, only_w hdb t w h4] at hw
  exact absurd hw (by decide)

set_option maxRecDepth 20000 in
/-- C92 is false: with `w = 1` there is no chain of related records, and the read returns the record. -/
theorem multi_hop_wrong : ∃ db, ReachableFrom .debug (chainSchema 2) db ∧ db.handle = 1 ∧
    (∀ rs, ¬Chain (chainSchema 2) db [1, 2, 3] rs) ∧ db.relatedField 6 t!"c" t!"w" = .ok (some (some t!"1")) := by
  obtain ⟨db, hdb⟩ : ∃ db, chainState 2 t!"1" = .ok db := ⟨_, rfl⟩
  refine ⟨db, chainState_reachable hdb, ?_, ?_, ?_⟩
  · cases hdb; rfl
  · intro rs h
    cases h with
    | @cons _ _ _ s _ rs _ hch =>
    cases hch with
    | @cons _ _ _ t _ _ hrel _ =>
    exact no_pair hdb s t hrel
  · cases hdb; rfl

/-- The hypotheses of `multi_hop_partial` are met: the path of the example is the only shortest one, and it leaves `b` by
the field by which it enters it. -/
example : SameFields (chainSchema 1) [1, 2, 3] 1 := by
  refine .cons (k := 1) ⟨by decide, (1, { table1 := 1, field1 := 1, table2 := 2, field2 := 1, comparison := .equal }), ?_, .fromFirst, by decide, by decide⟩
    (.cons (k := 1) ⟨by decide, (2, { table1 := 2, field1 := 1, table2 := 3, field2 := 1, comparison := .equal }), ?_, .fromFirst, by decide, by decide⟩ .one)
  · unfold OnlyRelation; decide
  · unfold OnlyRelation; decide

set_option maxRecDepth 20000 in
example : ∃ db, chainState 1 t!"1" = .ok db ∧ db.handle = 1 ∧ db.relatedField 6 t!"c" t!"w" = .ok (some (some t!"1")) ∧
    db.occs.map (fun o => o.currentRecord) = [none, some 0, some 0, some 0] := by
  obtain ⟨db, hdb⟩ : ∃ db, chainState 1 t!"1" = .ok db := ⟨_, rfl⟩
  refine ⟨db, hdb, ?_, ?_, ?_⟩ <;> (cases hdb; rfl)

example : OnlyShortest [(1, 2), (2, 3)] 1 3 [1, 2, 3] := by
  refine ⟨⟨rfl, rfl, by decide, ?_⟩, ?_⟩
  · intro i hi
    match i, hi with
    | 0, _ => simp [Related]
    | 1, _ => simp [Related]
  · intro q hq hl
    have h1 := hq.starts
    have h2 := hq.ends
    have h3 := hq.long
    match q, hl with
    | [x, y], _ =>
      simp at h1 h2
      have := hq.steps 0 (by simp)
      subst h1 h2
      simp [Related] at this
    | [x, y, z], _ =>
      simp at h1 h2
      subst h1 h2
      have := hq.steps 0 (by simp)
      simp [Related] at this
      subst this
      rfl

end BurnFm.Props
