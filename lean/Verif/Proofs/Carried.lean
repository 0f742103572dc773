import Verif.Proofs.MultiHop

/-! Following several relationships, as the code does it: the value that is compared at a hop is the one that was found at the
hop before. -/

namespace BurnFm

/-- A column of the table of an occurrence. -/
def columnAt (db : Database) (occ field : Nat) : List Str :=
  match db.occs[occ]? with
  | none => []
  | some o => match db.tables[o.tablePtr]? with
    | none => []
    | some t => match t.fields[field]? with
      | none => []
      | some f => f.records

theorem columnAt_get (db : Database) (occ field row : Nat) : (columnAt db occ field)[row]? = cellAt db occ field row := by
  unfold columnAt cellAt
  cases db.occs[occ]? with
  | none => rfl
  | some o =>
    dsimp only
    cases db.tables[o.tablePtr]? with
    | none => rfl
    | some t =>
      dsimp only
      cases t.fields[field]? with
      | none => rfl
      | some f => rfl

/-- All chains along a path, in lexicographic order, if `v` is compared at the first hop. -/
def carriedOf (db : Database) (rels : Nat → Nat → RelSet) : List (Nat × Nat) → Str → List (List Nat)
  | [], _ => [[]]
  | (a, b) :: rest, v =>
    ((columnAt db b (rels a b).field2).zipIdx.filter (fun r => joins (rels a b).joinBy v r.1)).flatMap fun r =>
      (carriedOf db rels rest r.1).map (r.2 :: ·)

theorem carriedOf_cons (db : Database) (rels : Nat → Nat → RelSet) (a b : Nat) (rest : List (Nat × Nat)) (v : Str) :
    carriedOf db rels ((a, b) :: rest) v =
    ((columnAt db b (rels a b).field2).zipIdx.filter (fun r => joins (rels a b).joinBy v r.1)).flatMap fun r =>
      (carriedOf db rels rest r.1).map (r.2 :: ·) := rfl

theorem carriedOf_sorted (db : Database) (rels : Nat → Nat → RelSet) : ∀ (ws : List (Nat × Nat)) (v : Str),
    (carriedOf db rels ws v).Pairwise (· < ·)
  | [], v => by simp [carriedOf]
  | (a, b) :: rest, v => by
    unfold carriedOf
    have hl : ((columnAt db b (rels a b).field2).zipIdx.filter (fun r => joins (rels a b).joinBy v r.1)).Pairwise (fun x y => x.2 < y.2) := by
      apply List.Pairwise.filter
      have h := List.pairwise_lt_range (n := (columnAt db b (rels a b).field2).length)
      have e : (columnAt db b (rels a b).field2).zipIdx.map (·.2) = List.range (columnAt db b (rels a b).field2).length := by
        rw [List.range_eq_range']; exact List.zipIdx_map_snd 0 _
      rw [← e, List.pairwise_map] at h
      exact h
    generalize (columnAt db b (rels a b).field2).zipIdx.filter (fun r => joins (rels a b).joinBy v r.1) = l at hl
    rw [List.pairwise_flatMap]
    refine ⟨?_, ?_⟩
    · intro s _
      rw [List.pairwise_map]
      exact (carriedOf_sorted db rels rest s.1).imp (fun {x y} h => List.cons_lt_cons_iff.mpr (.inr ⟨rfl, h⟩))
    · refine hl.imp ?_
      intro s t hst x hx y hy
      obtain ⟨x', _, rfl⟩ := List.mem_map.mp hx
      obtain ⟨y', _, rfl⟩ := List.mem_map.mp hy
      exact List.cons_lt_cons_iff.mpr (.inl hst)

theorem hops_carried {db : Database} {rels : Nat → Nat → RelSet} :
    ∀ (ws : List (Nat × Nat)) (cur : List (Nat × Str)) (res : Option (List (Nat × Str))), hops db ws cur = .ok res →
      cur ≠ [] → (∀ a b rest, ws = (a, b) :: rest → ∀ e ∈ cur, ∃ j, cellAt db a j e.1 = some e.2) →
      (∀ a b c d l r, ws = l ++ (a, b) :: (c, d) :: r → b = c) →
      (∀ w ∈ ws, ∃ o tl, db.occs[w.1]? = some o ∧ (o.currentRecord = none → ∀ j r, cellAt db w.1 j r = none) ∧
        o.related.filter (fun x => x.occurrence == w.2) = rels w.1 w.2 :: tl) →
      (∀ set, res = some set → set ≠ [] ∧ set.map (·.1) =
        cur.flatMap (fun e => (carriedOf db rels ws e.2).map (fun rs => rs.getLastD e.1))) ∧
      (res = none → ∀ e ∈ cur, carriedOf db rels ws e.2 = [])
  | [], cur, res, h, hne, _, _, _ => by
    unfold hops at h
    injection h with h
    subst h
    refine ⟨?_, by simp⟩
    intro set hset
    injection hset with hset
    subst hset
    refine ⟨hne, ?_⟩
    simp only [carriedOf, List.map_cons, List.map_nil, List.getLastD_nil]
    rw [List.map_eq_flatMap]
  | (a, b) :: rest, cur, res, h, hne, hfit, hmid, hgood => by
    obtain ⟨o, tl, ho, hr, hfil⟩ := hgood (a, b) (by simp)
    unfold hops at h
    obtain ⟨o', ho', h⟩ := bind_ok.mp h
    have : o' = o := by
      have := idx_ok.mp ho'
      rw [ho] at this
      injection this with this
      exact this.symm
    subst this
    cases hrec : o'.currentRecord with
    | none =>
      obtain ⟨x, l, rfl⟩ := List.exists_cons_of_ne_nil hne
      obtain ⟨j, h1⟩ := hfit a b rest rfl x (by simp)
      rw [hr hrec] at h1
      cases h1
    | some r =>
    dsimp only at hfil
    rw [hrec, hfil] at h
    dsimp only at h
    have hemp : cur.isEmpty = false := by
      cases cur with
      | nil => exact absurd rfl hne
      | cons x l => rfl
    rw [hemp] at h
    simp only [Bool.false_eq_true, if_false] at h
    obtain ⟨c, hc, h⟩ := bind_ok.mp h
    cases hc
    obtain ⟨no, hno, h⟩ := bind_ok.mp h
    obtain ⟨nt, hnt, h⟩ := bind_ok.mp h
    obtain ⟨rf, hrf, h⟩ := bind_ok.mp h
    have hcol : columnAt db b (rels a b).field2 = rf.records := by
      have h1 : db.occs[b]? = some no := idx_ok.mp hno
      simp [columnAt, h1, idx_ok.mp hnt, idx_ok.mp hrf]
    split at h
    · rename_i hie
      injection h with h
      subst h
      refine ⟨by simp, fun _ e he => ?_⟩
      have h0 := List.isEmpty_iff.mp hie
      unfold relatedSet at h0
      rw [List.flatMap_eq_nil_iff] at h0
      have h1 := List.map_eq_nil_iff.mp (h0 e he)
      unfold carriedOf
      rw [hcol, h1]
      rfl
    · rename_i hie
      have hne' : relatedSet (rels a b).joinBy cur rf.records ≠ [] := by
        intro e; rw [e] at hie; exact hie rfl
      obtain ⟨i1, i2⟩ := hops_carried rest _ res h hne'
        (by
          rintro b' c rest' rfl e he
          have := hmid a b b' c [] rest' rfl
          subst this
          unfold relatedSet at he
          rw [List.mem_flatMap] at he
          obtain ⟨x, _, he⟩ := he
          obtain ⟨y, hy, rfl⟩ := List.mem_map.mp he
          have hy := List.mem_of_mem_filter hy
          refine ⟨(rels a b).field2, ?_⟩
          rw [← columnAt_get, hcol]
          exact List.mem_zipIdx_iff_getElem?.mp hy)
        (fun a' b' c d l r hl => hmid a' b' c d ((a, b) :: l) r (by rw [hl]; rfl))
        (fun w hw => hgood w (by simp [hw]))
      refine ⟨?_, ?_⟩
      · intro set hs
        obtain ⟨j1, j2⟩ := i1 set hs
        refine ⟨j1, ?_⟩
        rw [j2]
        unfold relatedSet
        rw [List.flatMap_assoc]
        apply List.flatMap_congr
        intro e _
        rw [List.flatMap_map]
        rw [carriedOf_cons, List.map_flatMap, hcol]
        apply List.flatMap_congr
        intro s _
        rw [List.map_map]
        apply List.map_congr_left
        intro rs _
        show rs.getLastD s.2 = (s.2 :: rs).getLastD e.1
        rw [List.getLastD_cons]
      · intro hn e he
        have i3 := i2 hn
        unfold carriedOf
        rw [List.flatMap_eq_nil_iff]
        intro s hs
        rw [hcol] at hs
        have hm : (s.2, s.1) ∈ relatedSet (rels a b).joinBy cur rf.records := by
          unfold relatedSet
          rw [List.mem_flatMap]
          exact ⟨e, he, List.mem_map.mpr ⟨s, hs, rfl⟩⟩
        rw [i3 _ hm]
        rfl

end BurnFm
