import Verif.Proofs.Related

/-! Following several relationships. -/

namespace BurnFm

/-- The cell of a record in the table of an occurrence, by the position of the field. -/
def cellAt (db : Database) (occ field row : Nat) : Option Str :=
  match db.occs[occ]? with
  | none => none
  | some o => match db.tables[o.tablePtr]? with
    | none => none
    | some t => match t.fields[field]? with
      | none => none
      | some f => f.records[row]?

/-- The number of records, counted in a field. -/
def rowsOf (db : Database) (occ field : Nat) : Nat :=
  match db.occs[occ]? with
  | none => 0
  | some o => match db.tables[o.tablePtr]? with
    | none => 0
    | some t => match t.fields[field]? with
      | none => 0
      | some f => f.records.length

/-- The code's comparison of two records. -/
def linked (db : Database) (rel : RelSet) (a b r s : Nat) : Bool :=
  match cellAt db a rel.field1 r, cellAt db b rel.field2 s with
  | some v, some w => joins rel.joinBy v w
  | _, _ => false

/-- All chains of records along a path, in lexicographic order. -/
def chainsOf (db : Database) (rels : Nat → Nat → RelSet) : List (Nat × Nat) → Nat → List (List Nat)
  | [], _ => [[]]
  | (a, b) :: rest, r =>
    ((List.range (rowsOf db b (rels a b).field2)).filter (linked db (rels a b) a b r)).flatMap fun s =>
      (chainsOf db rels rest s).map (s :: ·)

/-- The join field of the first hop is the field in which `cur` was compared before. -/
def Fits (db : Database) (rels : Nat → Nat → RelSet) (cur : List (Nat × Str)) : List (Nat × Nat) → Prop
  | [] => True
  | (a, b) :: _ => ∀ e ∈ cur, cellAt db a (rels a b).field1 e.1 = some e.2

/-- Consecutive hops use the same field of the occurrence between them. -/
def SameMiddle (rels : Nat → Nat → RelSet) : List (Nat × Nat) → Prop
  | (a, b) :: (b', c) :: rest => b = b' ∧ (rels a b).field2 = (rels b' c).field1 ∧ SameMiddle rels ((b', c) :: rest)
  | _ => True

theorem zipIdx_filter (l : List Str) (P : Str → Bool) (k : Nat) :
    ((l.zipIdx k).filter (fun r => P r.1)).map (fun r => (r.2, r.1)) =
      ((List.range' k l.length).filter (fun s => match l[s - k]? with | some w => P w | none => false)).filterMap
        (fun s => l[s - k]?.map (fun w => (s, w))) := by
  induction l generalizing k with
  | nil => rfl
  | cons x l ih =>
    have e : ∀ s ∈ List.range' (k + 1) l.length, (x :: l)[s - k]? = l[s - (k + 1)]? := by
      intro s hs
      rw [List.mem_range'_1] at hs
      rw [show s - k = s - (k + 1) + 1 by omega, List.getElem?_cons_succ]
    have ih' := ih (k + 1)
    rw [List.zipIdx_cons, List.length_cons, List.range'_succ, List.filter_cons, List.filter_cons]
    have e0 : (x :: l)[k - k]? = some x := by simp
    have e1 : (List.range' (k + 1) l.length).filter (fun s => match (x :: l)[s - k]? with | some w => P w | none => false) =
        (List.range' (k + 1) l.length).filter (fun s => match l[s - (k + 1)]? with | some w => P w | none => false) :=
      List.filter_congr (fun s hs => by rw [e s hs])
    have e2 : ((List.range' (k + 1) l.length).filter (fun s => match l[s - (k + 1)]? with | some w => P w | none => false)).filterMap
          (fun s => (x :: l)[s - k]?.map (fun w => (s, w))) =
        ((List.range' (k + 1) l.length).filter (fun s => match l[s - (k + 1)]? with | some w => P w | none => false)).filterMap
          (fun s => l[s - (k + 1)]?.map (fun w => (s, w))) :=
      List.filterMap_congr (fun s hs => by rw [e s (List.mem_of_mem_filter hs)])
    rw [e0]
    simp only
    by_cases hx : P x = true
    · rw [if_pos hx, if_pos hx, List.map_cons, List.filterMap_cons, e0, e1, e2, ih']
      rfl
    · rw [if_neg hx, if_neg hx, e1, e2, ih']

/-- One hop, in terms of the records it leads to. -/
theorem relatedSet_eq {db : Database} {rel : RelSet} {a b : Nat} {no : DOcc} {nt : DTable} {rf : DField}
    {cur : List (Nat × Str)} (hno : db.occs[b]? = some no) (hnt : db.tables[no.tablePtr]? = some nt)
    (hrf : nt.fields[rel.field2]? = some rf) (hcur : ∀ e ∈ cur, cellAt db a rel.field1 e.1 = some e.2) :
    relatedSet rel.joinBy cur rf.records = cur.flatMap (fun e =>
      ((List.range (rowsOf db b rel.field2)).filter (linked db rel a b e.1)).filterMap
        (fun s => (cellAt db b rel.field2 s).map (fun w => (s, w)))) := by
  have hc : ∀ s, cellAt db b rel.field2 s = rf.records[s]? := by
    intro s; simp [cellAt, hno, hnt, hrf]
  have hn : rowsOf db b rel.field2 = rf.records.length := by simp [rowsOf, hno, hnt, hrf]
  unfold relatedSet
  apply List.flatMap_congr
  intro e he
  have hz := zipIdx_filter rf.records (fun w => joins rel.joinBy e.2 w) 0
  rw [hz, hn, ← List.range_eq_range']
  have e1 : (List.range rf.records.length).filter (linked db rel a b e.1) =
      (List.range rf.records.length).filter (fun s => match rf.records[s - 0]? with | some w => joins rel.joinBy e.2 w | none => false) := by
    apply List.filter_congr
    intro s hs
    unfold linked
    rw [hcur e he, hc s]
    simp only [Nat.sub_zero]
    cases rf.records[s]? <;> rfl
  rw [e1]
  simp only [hc, Nat.sub_zero]

theorem hops_chains {db : Database} {rels : Nat → Nat → RelSet} :
    ∀ (ws : List (Nat × Nat)) (cur : List (Nat × Str)) (res : Option (List (Nat × Str))), hops db ws cur = .ok res →
      cur ≠ [] → Fits db rels cur ws → SameMiddle rels ws →
      (∀ w ∈ ws, ∃ o tl, db.occs[w.1]? = some o ∧ (o.currentRecord = none → ∀ j r, cellAt db w.1 j r = none) ∧
        o.related.filter (fun x => x.occurrence == w.2) = rels w.1 w.2 :: tl) →
      (∀ set, res = some set → set ≠ [] ∧ set.map (·.1) =
        cur.flatMap (fun e => (chainsOf db rels ws e.1).map (fun rs => rs.getLastD e.1))) ∧
      (res = none → ∀ e ∈ cur, chainsOf db rels ws e.1 = [])
  | [], cur, res, h, hne, _, _, _ => by
    unfold hops at h
    injection h with h
    subst h
    refine ⟨?_, by simp⟩
    intro set hset
    injection hset with hset
    subst hset
    refine ⟨hne, ?_⟩
    simp only [chainsOf, List.map_cons, List.map_nil, List.getLastD_nil]
    rw [List.map_eq_flatMap]
  | (a, b) :: rest, cur, res, h, hne, hfit, hmid, hgood => by
    obtain ⟨o, tl, ho, hr, hfil⟩ := hgood (a, b) (by simp)
    unfold hops at h
    obtain ⟨o', ho', h⟩ := bind_ok.mp h
    have : o' = o := by
      have := idx_ok.mp ho'
      rw [ho] at this
      injection this with this
      exact this.symm
    subst this
    cases hrec : o'.currentRecord with
    | none =>
      obtain ⟨x, l, rfl⟩ := List.exists_cons_of_ne_nil hne
      have h1 := hfit x (by simp)
      rw [hr hrec] at h1
      cases h1
    | some r =>
    dsimp only at hfil
    rw [hrec, hfil] at h
    dsimp only at h
    have hemp : cur.isEmpty = false := by
      cases cur with
      | nil => exact absurd rfl hne
      | cons x l => rfl
    rw [hemp] at h
    simp only [Bool.false_eq_true, if_false] at h
    obtain ⟨c, hc, h⟩ := bind_ok.mp h
    cases hc
    obtain ⟨no, hno, h⟩ := bind_ok.mp h
    obtain ⟨nt, hnt, h⟩ := bind_ok.mp h
    obtain ⟨rf, hrf, h⟩ := bind_ok.mp h
    have hset := relatedSet_eq (idx_ok.mp hno) (idx_ok.mp hnt) (idx_ok.mp hrf) hfit
    have hnone : relatedSet (rels a b).joinBy cur rf.records = [] → ∀ e ∈ cur, chainsOf db rels ((a, b) :: rest) e.1 = [] := by
      intro h0 e he
      rw [hset, List.flatMap_eq_nil_iff] at h0
      have h1 := h0 e he
      rw [List.filterMap_eq_nil_iff] at h1
      unfold chainsOf
      rw [List.flatMap_eq_nil_iff]
      intro s hs
      have h2 := h1 s hs
      have h3 := (List.mem_filter.mp hs).2
      unfold linked at h3
      cases hw : cellAt db b (rels a b).field2 s with
      | none => rw [hw] at h3; split at h3 <;> simp_all
      | some w => rw [hw] at h2; cases h2
    split at h
    · rename_i hie
      injection h with h
      subst h
      refine ⟨by simp, fun _ => hnone (List.isEmpty_iff.mp hie)⟩
    · rename_i hie
      have hne' : relatedSet (rels a b).joinBy cur rf.records ≠ [] := by
        intro e; rw [e] at hie; exact hie rfl
      have hfit' : Fits db rels (relatedSet (rels a b).joinBy cur rf.records) rest := by
        cases rest with
        | nil => trivial
        | cons w rest =>
          obtain ⟨b', c⟩ := w
          obtain ⟨rfl, hf, -⟩ := hmid
          intro e he
          rw [hset, List.mem_flatMap] at he
          obtain ⟨x, hx, he⟩ := he
          rw [List.mem_filterMap] at he
          obtain ⟨s, hs, he⟩ := he
          rw [Option.map_eq_some_iff] at he
          obtain ⟨w, hw, rfl⟩ := he
          rw [← hf]
          exact hw
      have hmid' : SameMiddle rels rest := by
        cases rest with
        | nil => trivial
        | cons w rest => obtain ⟨b', c⟩ := w; exact hmid.2.2
      obtain ⟨i1, i2⟩ := hops_chains rest _ res h hne' hfit' hmid' (fun w hw => hgood w (by simp [hw]))
      have hfst : (relatedSet (rels a b).joinBy cur rf.records).map (·.1) = cur.flatMap (fun e =>
          (List.range (rowsOf db b (rels a b).field2)).filter (linked db (rels a b) a b e.1)) := by
        rw [hset, List.map_flatMap]
        apply List.flatMap_congr
        intro e he
        rw [List.map_filterMap]
        have : ∀ s ∈ (List.range (rowsOf db b (rels a b).field2)).filter (linked db (rels a b) a b e.1),
            Option.map (fun x : Nat × Str => x.1) ((cellAt db b (rels a b).field2 s).map (fun w => (s, w))) = some s := by
          intro s hs
          have h3 := (List.mem_filter.mp hs).2
          unfold linked at h3
          cases hw : cellAt db b (rels a b).field2 s with
          | none => rw [hw] at h3; split at h3 <;> simp_all
          | some w => rfl
        rw [List.filterMap_congr this]
        simp
      refine ⟨?_, ?_⟩
      · intro set hs
        obtain ⟨j1, j2⟩ := i1 set hs
        refine ⟨j1, ?_⟩
        rw [j2]
        have : ∀ l : List (Nat × Str), l.flatMap (fun e => (chainsOf db rels rest e.1).map (fun rs => rs.getLastD e.1)) =
            (l.map (·.1)).flatMap (fun s => (chainsOf db rels rest s).map (fun rs => rs.getLastD s)) := by
          intro l; rw [List.flatMap_map]
        rw [this, hfst, List.flatMap_assoc]
        apply List.flatMap_congr
        intro e _
        show _ = List.map _ (List.flatMap _ _)
        rw [List.map_flatMap]
        apply List.flatMap_congr
        intro s _
        rw [List.map_map]
        apply List.map_congr_left
        intro rs _
        show rs.getLastD s = (s :: rs).getLastD e.1
        rw [List.getLastD_cons]
      · intro hn e he
        have i3 := i2 hn
        unfold chainsOf
        rw [List.flatMap_eq_nil_iff]
        intro s hs
        have hm : s ∈ (relatedSet (rels a b).joinBy cur rf.records).map (·.1) := by
          rw [hfst, List.mem_flatMap]; exact ⟨e, he, hs⟩
        obtain ⟨x, hx, rfl⟩ := List.mem_map.mp hm
        rw [i3 x hx]
        rfl

theorem cellAt_rows {db : Database} {occ field row : Nat} {v : Str} (h : cellAt db occ field row = some v) :
    row < rowsOf db occ field := by
  unfold cellAt at h
  unfold rowsOf
  split at h
  · cases h
  · split at h
    · cases h
    · split at h
      · cases h
      · exact (List.getElem?_eq_some_iff.mp h).1

/-- The first chain in the list is the least. -/
theorem chainsOf_sorted (db : Database) (rels : Nat → Nat → RelSet) : ∀ (ws : List (Nat × Nat)) (r : Nat),
    (chainsOf db rels ws r).Pairwise (· < ·)
  | [], r => by simp [chainsOf]
  | (a, b) :: rest, r => by
    unfold chainsOf
    have hl : ((List.range (rowsOf db b (rels a b).field2)).filter (linked db (rels a b) a b r)).Pairwise (· < ·) :=
      List.Pairwise.filter _ List.pairwise_lt_range
    generalize (List.range (rowsOf db b (rels a b).field2)).filter (linked db (rels a b) a b r) = l at hl
    rw [List.pairwise_flatMap]
    refine ⟨?_, ?_⟩
    · intro s _
      rw [List.pairwise_map]
      exact (chainsOf_sorted db rels rest s).imp (fun {x y} h => List.cons_lt_cons_iff.mpr (.inr ⟨rfl, h⟩))
    · refine hl.imp ?_
      intro s t hst x hx y hy
      obtain ⟨x', _, rfl⟩ := List.mem_map.mp hx
      obtain ⟨y', _, rfl⟩ := List.mem_map.mp hy
      exact List.cons_lt_cons_iff.mpr (.inl hst)

end BurnFm
