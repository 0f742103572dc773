import Mathlib.Data.List.Dedup
import Mathlib.Data.List.Perm.Subperm
import Verif.Model.Relation
import Verif.Spec.Walk

/-! Helper lemmas for `Verif/Props/Relation.lean`: the graph built from a history of `add_relation` calls
and the breadth first search. -/

namespace BurnFm

/-- Neighbour list of a node (empty when the node is absent). -/
def nbrs (g : Graph) (a : Nat) : List Nat := (g a).getD []

theorem nbrs_addNode (g : Graph) (a b k : Nat) :
    nbrs (addNode g a b) k =
      if k = a then (if b ∈ nbrs g a then nbrs g a else nbrs g a ++ [b]) else nbrs g k := by
  unfold addNode nbrs
  cases h : g a with
  | none => by_cases hk : k = a <;> simp [hk]
  | some l =>
    have hm : (0 < (List.filter (fun x => x == b) l).length) ↔ b ∈ l := by
      rw [List.length_pos_iff_exists_mem]
      simp
    by_cases hk : k = a
    · by_cases hb : b ∈ l
      · simp [hk, h, hb]
      · simp [hk, hb]
    · by_cases hb : b ∈ l
      · simp [hk, hb]
      · simp [hk, hb]

theorem mem_nbrs_addNode (g : Graph) (a b x y : Nat) :
    y ∈ nbrs (addNode g a b) x ↔ y ∈ nbrs g x ∨ (x = a ∧ y = b) := by
  rw [nbrs_addNode]
  by_cases h : x = a
  · subst h
    by_cases hb : b ∈ nbrs g x
    · simp only [if_true, hb, true_and]
      constructor
      · exact Or.inl
      · rintro (h | h)
        · exact h
        · subst h; exact hb
    · simp [hb]
  · simp [h]

theorem nodup_nbrs_addNode (g : Graph) (a b : Nat) (h : ∀ k, (nbrs g k).Nodup) (k : Nat) :
    (nbrs (addNode g a b) k).Nodup := by
  rw [nbrs_addNode]
  split
  · split
    · exact h a
    · rename_i hb
      rw [List.nodup_append]
      refine ⟨h a, by simp, ?_⟩
      intro x hx y hy
      have : y = b := by simpa using hy
      subst this
      rintro rfl
      exact hb hx
  · exact h k

theorem mem_nbrs_addRelation (g : Graph) (a b x y : Nat) :
    y ∈ nbrs (addRelation g a b) x ↔ y ∈ nbrs g x ∨ (x = a ∧ y = b) ∨ (x = b ∧ y = a) := by
  unfold addRelation
  rw [mem_nbrs_addNode, mem_nbrs_addNode, or_assoc]

theorem expand_eq (t : Nat) (path : List Nat) (rs : List Nat) (q : List (Nat × List Nat)) (vis : List Nat) :
    expand t path rs q vis =
      if t ∈ rs then .inl (path ++ [t])
      else .inr (q ++ rs.map (fun r => (r, path ++ [r])), vis ++ rs) := by
  induction rs generalizing q vis with
  | nil => simp [expand]
  | cons r rs ih =>
    unfold expand
    by_cases h : r = t
    · simp [h]
    · have h' : ¬ t = r := fun e => h e.symm
      simp only [h, if_false, ih, List.mem_cons, h', false_or, List.map_cons]
      split <;> simp

/-- The unvisited neighbours examined by one loop iteration. -/
def fresh (g : Graph) (cur : Nat) (vis : List Nat) : List Nat :=
  (nbrs g cur).filter (fun x => !vis.contains x)

theorem mem_fresh (g : Graph) (cur : Nat) (vis : List Nat) (x : Nat) :
    x ∈ fresh g cur vis ↔ x ∈ nbrs g cur ∧ x ∉ vis := by
  simp [fresh]

theorem bfs_cons (g : Graph) (t fuel cur : Nat) (path : List Nat) (q : List (Nat × List Nat)) (vis : List Nat) :
    bfs g t (fuel + 1) ((cur, path) :: q) vis =
      if t ∈ fresh g cur vis then some (some (path ++ [t]))
      else bfs g t fuel (q ++ (fresh g cur vis).map (fun r => (r, path ++ [r]))) (vis ++ fresh g cur vis) := by
  unfold fresh nbrs
  rw [bfs]
  cases h : g cur with
  | none => simp
  | some l =>
    simp only [Option.getD_some]
    rw [expand_eq]
    by_cases ht : t ∈ List.filter (fun x => !vis.contains x) l
    · rw [if_pos ht, if_pos ht]
    · rw [if_neg ht, if_neg ht]

/-- There is a walk of exactly `j` edges from `s` to `v`. -/
inductive W (g : Graph) (s : Nat) : Nat → Nat → Prop
  | zero : W g s 0 s
  | succ {j u v : Nat} : W g s j u → v ∈ nbrs g u → W g s (j + 1) v

/-- `p` is a walk from `s` to `v` (possibly of no edges). -/
structure PathTo (g : Graph) (s v : Nat) (p : List Nat) : Prop where
  starts : p.head? = some s
  ends : p.getLast? = some v
  steps : ∀ i (h : i + 1 < p.length), p[i + 1] ∈ nbrs g p[i]

theorem PathTo.snoc {g : Graph} {s v : Nat} {p : List Nat} (h : PathTo g s v p) {r : Nat} (hr : r ∈ nbrs g v) :
    PathTo g s r (p ++ [r]) := by
  have hne : p ≠ [] := by
    intro e; have := h.starts; rw [e] at this; cases this
  refine ⟨?_, by simp, ?_⟩
  · rw [List.head?_append]; simp [h.starts]
  · intro i hi
    have hi' : i < p.length := by simpa using hi
    by_cases hlast : i + 1 < p.length
    · have := h.steps i hlast
      simpa [List.getElem_append, hlast, hi'] using this
    · have he : p[i] = v := by
        have h1 := h.ends
        rw [List.getLast?_eq_some_getLast hne, List.getLast_eq_getElem] at h1
        have : i = p.length - 1 := by omega
        subst this
        simpa using h1
      simp [List.getElem_append, hlast, hi', he, hr]

theorem PathTo.toW {g : Graph} {s v : Nat} {p : List Nat} (h : PathTo g s v p) : W g s (p.length - 1) v := by
  have hne : p ≠ [] := by
    intro e; have := h.starts; rw [e] at this; cases this
  have hpos : 0 < p.length := List.length_pos_iff.mpr hne
  have key : ∀ i (hi : i < p.length), W g s i p[i] := by
    intro i
    induction i with
    | zero =>
      intro hi
      have : p[0] = s := by
        have := h.starts
        rw [List.head?_eq_getElem?, List.getElem?_eq_getElem hi] at this
        simpa using this
      rw [this]; exact .zero
    | succ i ih => intro hi; exact .succ (ih (by omega)) (h.steps i hi)
  have he : p[p.length - 1] = v := by
    have h1 := h.ends
    rw [List.getLast?_eq_some_getLast hne, List.getLast_eq_getElem] at h1
    simpa using h1
  have := key (p.length - 1) (by omega)
  rwa [he] at this

/-- Loop invariant of the breadth first search. -/
structure Inv (g : Graph) (s t : Nat) (q : List (Nat × List Nat)) (vis : List Nat) : Prop where
  path : ∀ e ∈ q, PathTo g s e.1 e.2
  target : t ∉ vis
  source : ∀ v ∈ nbrs g s, v ∈ vis ∨ (s, [s]) ∈ q
  closed : ∀ u ∈ vis, ∀ v ∈ nbrs g u, v ∈ vis ∨ ∃ p, (u, p) ∈ q
  least : ∀ e ∈ q, ∀ j, 1 ≤ j → W g s j e.1 → e.2.length ≤ j + 1
  sorted : q.Pairwise (fun a b => a.2.length ≤ b.2.length)
  near : ∀ a ∈ q, ∀ b ∈ q, b.2.length ≤ a.2.length + 1

theorem Inv.visited_of_W {g : Graph} {s t : Nat} {q vis} (h : Inv g s t q vis) {j : Nat} (hj : 1 ≤ j)
    (hq : ∀ e ∈ q, j < e.2.length) {v : Nat} (hw : W g s j v) : v ∈ vis := by
  have key : ∀ i, 1 ≤ i → i ≤ j → ∀ v, W g s i v → v ∈ vis := by
    intro i hi
    induction i with
    | zero => omega
    | succ i ih =>
      intro hij v hw
      cases hw with
      | succ hu hv =>
        rename_i u
        rcases Nat.eq_zero_or_pos i with h0 | h0
        · subst h0
          cases hu
          rcases h.source v hv with h' | h'
          · exact h'
          · have := hq _ h'
            simp at this; omega
        · have hu' := ih h0 (by omega) u hu
          rcases h.closed u hu' v hv with h' | ⟨p, h'⟩
          · exact h'
          · have h1 := hq _ h'
            have h2 := h.least _ h' i h0 hu
            simp at h1 h2
            omega
  exact key j hj (Nat.le_refl j) v hw

theorem Inv.init (g : Graph) (s t : Nat) : Inv g s t [(s, [s])] [] where
  path := by
    intro e he
    have : e = (s, [s]) := by simpa using he
    subst this
    exact ⟨rfl, rfl, by intro i hi; simp at hi⟩
  target := by simp
  source := by intro v _; right; simp
  closed := by simp
  least := by
    intro e he j hj _
    have : e = (s, [s]) := by simpa using he
    subst this; simp
  sorted := by simp
  near := by simp

theorem Inv.step {g : Graph} {s t cur : Nat} {path : List Nat} {q vis}
    (h : Inv g s t ((cur, path) :: q) vis) (ht : t ∉ fresh g cur vis) :
    Inv g s t (q ++ (fresh g cur vis).map (fun r => (r, path ++ [r]))) (vis ++ fresh g cur vis) := by
  have hp : PathTo g s cur path := h.path (cur, path) (by simp)
  have hmin : ∀ e ∈ q, path.length ≤ e.2.length := by
    have := List.pairwise_cons.mp h.sorted
    exact this.1
  have hvis : ∀ v ∈ nbrs g cur, v ∈ vis ++ fresh g cur vis := by
    intro v hv
    by_cases hm : v ∈ vis
    · simp [hm]
    · simp [(mem_fresh g cur vis v).mpr ⟨hv, hm⟩]
  have hnew : ∀ e, e ∈ q ++ (fresh g cur vis).map (fun r => (r, path ++ [r])) →
      e ∈ q ∨ (e.1 ∈ fresh g cur vis ∧ e.2 = path ++ [e.1]) := by
    intro e he
    rcases List.mem_append.mp he with he | he
    · exact .inl he
    · obtain ⟨r, hr, rfl⟩ := List.mem_map.mp he
      exact .inr ⟨hr, rfl⟩
  constructor
  · intro e he
    rcases hnew e he with he | ⟨h1, h2⟩
    · exact h.path e (by simp [he])
    · rw [h2]; exact hp.snoc ((mem_fresh g cur vis _).mp h1).1
  · intro hm
    rcases List.mem_append.mp hm with hm | hm
    · exact h.target hm
    · exact ht hm
  · intro v hv
    rcases h.source v hv with h' | h'
    · left; simp [h']
    · rcases List.mem_cons.mp h' with h' | h'
      · cases h'; exact .inl (hvis v hv)
      · right; simp [h']
  · intro u hu v hv
    rcases List.mem_append.mp hu with hu | hu
    · rcases h.closed u hu v hv with h' | ⟨p, h'⟩
      · left; simp [h']
      · rcases List.mem_cons.mp h' with h' | h'
        · cases h'; exact .inl (hvis v hv)
        · exact .inr ⟨p, by simp [h']⟩
    · exact .inr ⟨path ++ [u], List.mem_append_right _ (List.mem_map.mpr ⟨u, hu, rfl⟩)⟩
  · intro e he j hj hw
    rcases hnew e he with he | ⟨h1, h2⟩
    · exact h.least e (by simp [he]) j hj hw
    · rw [h2]
      simp only [List.length_append, List.length_cons, List.length_nil]
      apply Classical.byContradiction
      intro hlt
      have : e.1 ∈ vis := h.visited_of_W hj (by
        intro e' he'
        rcases List.mem_cons.mp he' with he' | he'
        · subst he'; show j < path.length; omega
        · have := hmin e' he'; omega) hw
      exact ((mem_fresh g cur vis _).mp h1).2 this
  · rw [List.pairwise_append]
    refine ⟨(List.pairwise_cons.mp h.sorted).2, ?_, ?_⟩
    · rw [List.pairwise_map]
      exact List.Pairwise.imp (fun _ => by simp) (List.pairwise_of_forall (R := fun _ _ => True) (by simp))
    · intro a ha b hb
      obtain ⟨r, _, rfl⟩ := List.mem_map.mp hb
      have := h.near (cur, path) (by simp) a (by simp [ha])
      simpa using this
  · intro a ha b hb
    rcases hnew a ha with ha | ⟨_, ha⟩ <;> rcases hnew b hb with hb | ⟨_, hb⟩
    · exact h.near a (by simp [ha]) b (by simp [hb])
    · have := hmin a ha
      rw [hb]; simp; omega
    · have := h.near (cur, path) (by simp) b (by simp [hb])
      rw [ha]; simp at this ⊢; omega
    · rw [ha, hb]; simp

/-- What the search returns, whenever it returns. -/
theorem bfs_correct (g : Graph) (s t : Nat) (fuel : Nat) :
    ∀ q vis r, Inv g s t q vis → bfs g t fuel q vis = some r →
      match r with
      | some p => PathTo g s t p ∧ 2 ≤ p.length ∧ ∀ j, 1 ≤ j → W g s j t → p.length ≤ j + 1
      | none => ∀ j, 1 ≤ j → ¬ W g s j t := by
  induction fuel with
  | zero => intro q vis r _ h; cases h
  | succ fuel ih =>
    intro q vis r hi hr
    cases q with
    | nil =>
      have : r = none := by simpa [bfs] using hr.symm
      subst this
      intro j hj hw
      exact hi.target (hi.visited_of_W hj (by simp) hw)
    | cons e q =>
      obtain ⟨cur, path⟩ := e
      rw [bfs_cons] at hr
      have hp : PathTo g s cur path := hi.path (cur, path) (by simp)
      have hne : 0 < path.length := by
        cases path with
        | nil => have := hp.starts; cases this
        | cons a l => simp
      by_cases ht : t ∈ fresh g cur vis
      · rw [if_pos ht] at hr
        cases hr
        refine ⟨hp.snoc ((mem_fresh g cur vis _).mp ht).1, by simp; omega, ?_⟩
        intro j hj hw
        simp only [List.length_append, List.length_cons, List.length_nil]
        apply Classical.byContradiction
        intro hlt
        have hmin := (List.pairwise_cons.mp hi.sorted).1
        exact hi.target (hi.visited_of_W hj (by
          intro e' he'
          rcases List.mem_cons.mp he' with he' | he'
          · subst he'; show j < path.length; omega
          · have := hmin e' he'; simp at this; omega) hw)
      · rw [if_neg ht] at hr
        exact ih _ _ _ (hi.step ht) hr

/-- Number of nodes of `U` not visited yet. -/
def remaining (U vis : List Nat) : Nat := (U.filter (fun x => !vis.contains x)).length

theorem remaining_append (U : List Nat) (vis new : List Nat) (hU : U.Nodup) (hn : new.Nodup)
    (hd : ∀ x ∈ new, x ∈ U ∧ x ∉ vis) : remaining U (vis ++ new) + new.length ≤ remaining U vis := by
  unfold remaining
  have hsub : (new ++ U.filter (fun x => !(vis ++ new).contains x)).Nodup := by
    rw [List.nodup_append]
    refine ⟨hn, hU.filter _, ?_⟩
    intro a ha b hb hab
    subst hab
    simp at hb
    exact hb.2.2 ha
  have hss : new ++ U.filter (fun x => !(vis ++ new).contains x) ⊆ U.filter (fun x => !vis.contains x) := by
    intro x hx
    rcases List.mem_append.mp hx with hx | hx
    · simp [hd x hx]
    · simp at hx ⊢; exact ⟨hx.1, hx.2.1⟩
  have := (List.Nodup.subperm hsub hss).length_le
  simp at this
  simp
  omega

/-- The search ends after at most one iteration per queued entry and per unvisited node. -/
theorem bfs_total (g : Graph) (t : Nat) (U : List Nat) (hU : U.Nodup)
    (hg : ∀ a, ∀ b ∈ nbrs g a, b ∈ U) (hn : ∀ a, (nbrs g a).Nodup) :
    ∀ (fuel : Nat) q vis, q.length + remaining U vis < fuel → ∃ r, bfs g t fuel q vis = some r := by
  intro fuel
  induction fuel with
  | zero => intro q vis h; omega
  | succ fuel ih =>
    intro q vis h
    cases q with
    | nil => exact ⟨none, rfl⟩
    | cons e q =>
      obtain ⟨cur, path⟩ := e
      rw [bfs_cons]
      split
      · exact ⟨_, rfl⟩
      · apply ih
        have := remaining_append U vis (fresh g cur vis) hU ((hn cur).filter _) (by
          intro x hx
          have := (mem_fresh g cur vis x).mp hx
          exact ⟨hg _ _ this.1, this.2⟩)
        simp at h ⊢
        omega

theorem bfs_mono (g : Graph) (t : Nat) : ∀ (fuel : Nat) q vis r, bfs g t fuel q vis = some r →
    ∀ k, bfs g t (fuel + k) q vis = some r := by
  intro fuel
  induction fuel with
  | zero => intro q vis r h; cases h
  | succ fuel ih =>
    intro q vis r h k
    rw [show fuel + 1 + k = (fuel + k) + 1 by omega]
    cases q with
    | nil => simpa [bfs] using h
    | cons e q =>
      obtain ⟨cur, path⟩ := e
      rw [bfs_cons] at h ⊢
      split
      · rename_i ht; rw [if_pos ht] at h; exact h
      · rename_i ht; rw [if_neg ht] at h; exact ih _ _ _ h k

end BurnFm
