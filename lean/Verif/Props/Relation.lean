import Verif.Proofs.Relation

/-! Properties C22-C25: the relationship graph and path search of `src/testing/relation_mgr.rs`. -/

namespace BurnFm.Props

/-- The graph after a history of `add_relation` calls, starting from `RelationMgr::new()`. -/
def graphAfter (calls : List (Nat × Nat)) : Graph :=
  calls.foldl (fun g c => addRelation g c.1 c.2) Graph.new

/-- The neighbours stored for a node. -/
def neighbours (calls : List (Nat × Nat)) (a : Nat) : List Nat := (graphAfter calls a).getD []

theorem mem_fold (calls : List (Nat × Nat)) (g : Graph) (a b : Nat) :
    b ∈ nbrs (calls.foldl (fun g c => addRelation g c.1 c.2) g) a ↔
      b ∈ nbrs g a ∨ Spec.Related calls a b := by
  induction calls generalizing g with
  | nil => simp [Spec.Related]
  | cons c calls ih =>
    rw [List.foldl_cons, ih, mem_nbrs_addRelation]
    obtain ⟨x, y⟩ := c
    simp only [Spec.Related, List.mem_cons, Prod.mk.injEq]
    constructor
    · rintro ((h | h | h) | h | h)
      · exact .inl h
      · exact .inr (.inl (.inl h))
      · exact .inr (.inr (.inl ⟨h.2, h.1⟩))
      · exact .inr (.inl (.inr h))
      · exact .inr (.inr (.inr h))
    · rintro (h | (h | h) | (h | h))
      · exact .inl (.inl h)
      · exact .inl (.inr (.inl h))
      · exact .inr (.inl h)
      · exact .inl (.inr (.inr ⟨h.2, h.1⟩))
      · exact .inr (.inr h)

/-- C22: after any history of calls, `b` is stored as a neighbour of `a` exactly when a relation between
them was declared, in either direction. -/
theorem neighbour_iff_declared (calls : List (Nat × Nat)) (a b : Nat) :
    b ∈ neighbours calls a ↔ Spec.Related calls a b := by
  have := mem_fold calls Graph.new a b
  simpa [nbrs, Graph.new, neighbours, graphAfter] using this

/-- C22: the graph is undirected. -/
theorem neighbour_symmetric (calls : List (Nat × Nat)) (a b : Nat) :
    b ∈ neighbours calls a ↔ a ∈ neighbours calls b := by
  rw [neighbour_iff_declared, neighbour_iff_declared]
  exact ⟨Or.symm, Or.symm⟩

/-- C22: no neighbour is stored twice. -/
theorem neighbours_nodup (calls : List (Nat × Nat)) (a : Nat) : (neighbours calls a).Nodup := by
  have : ∀ (g : Graph), (∀ k, (nbrs g k).Nodup) →
      ∀ k, (nbrs (calls.foldl (fun g c => addRelation g c.1 c.2) g) k).Nodup := by
    induction calls with
    | nil => intro g h; exact h
    | cons c calls ih =>
      intro g h
      rw [List.foldl_cons]
      exact ih _ (nodup_nbrs_addNode _ _ _ (nodup_nbrs_addNode _ _ _ h))
  exact this Graph.new (by intro k; simp [nbrs, Graph.new]) a

example : neighbours [(1, 2), (2, 3), (2, 1), (4, 2)] 2 = [1, 3, 4] := by decide

theorem pathTo_isWalk {calls : List (Nat × Nat)} {a b : Nat} {p : List Nat} (hl : 2 ≤ p.length)
    (h : PathTo (graphAfter calls) a b p) : Spec.IsWalk calls a b p :=
  ⟨h.starts, h.ends, hl, fun i hi => (neighbour_iff_declared calls _ _).mp (h.steps i hi)⟩

theorem isWalk_pathTo {calls : List (Nat × Nat)} {a b : Nat} {p : List Nat}
    (h : Spec.IsWalk calls a b p) : PathTo (graphAfter calls) a b p :=
  ⟨h.starts, h.ends, fun i hi => (neighbour_iff_declared calls _ _).mpr (h.steps i hi)⟩

/-- Bound on the number of loop iterations `get_path` needs after `calls`. -/
def pathFuel (calls : List (Nat × Nat)) : Nat := 2 * calls.length + 2

/-- C24 (termination): within `pathFuel` iterations `get_path` has returned, and running longer changes
nothing. -/
theorem get_path_terminates (calls : List (Nat × Nat)) (a b : Nat) :
    ∃ r, ∀ fuel, pathFuel calls ≤ fuel → getPathFuel fuel (graphAfter calls) a b = some r := by
  let U := (calls.map Prod.fst ++ calls.map Prod.snd).dedup
  have hU : U.length ≤ 2 * calls.length := by
    have := (List.dedup_sublist (calls.map Prod.fst ++ calls.map Prod.snd)).length_le
    simp at this; simp [U]; omega
  have hg : ∀ x, ∀ y ∈ nbrs (graphAfter calls) x, y ∈ U := by
    intro x y hy
    have := (neighbour_iff_declared calls x y).mp hy
    simp only [U, List.mem_dedup, List.mem_append, List.mem_map]
    rcases this with h | h
    · exact .inr ⟨_, h, rfl⟩
    · exact .inl ⟨_, h, rfl⟩
  obtain ⟨r, hr⟩ := bfs_total (graphAfter calls) b U (List.nodup_dedup _) hg (neighbours_nodup calls)
    (pathFuel calls) [(a, [a])] [] (by
      have : remaining U [] ≤ U.length := List.length_filter_le _ _
      simp only [pathFuel, List.length_cons, List.length_nil]; omega)
  refine ⟨r, fun fuel hf => ?_⟩
  obtain ⟨k, rfl⟩ := Nat.exists_eq_add_of_le hf
  exact bfs_mono _ _ _ _ _ _ hr k

/-- C23: a returned path is a walk along declared relations from the first to the second argument. -/
theorem get_path_sound (calls : List (Nat × Nat)) (a b fuel : Nat) (p : List Nat)
    (h : getPathFuel fuel (graphAfter calls) a b = some (some p)) : Spec.IsWalk calls a b p := by
  have := bfs_correct (graphAfter calls) a b fuel _ _ _ (Inv.init _ a b) h
  exact pathTo_isWalk this.2.1 this.1

/-- C24: `get_path` returns `None` exactly when there is no walk. -/
theorem get_path_none_iff (calls : List (Nat × Nat)) (a b fuel : Nat) (hf : pathFuel calls ≤ fuel) :
    getPathFuel fuel (graphAfter calls) a b = some none ↔ ¬ ∃ p, Spec.IsWalk calls a b p := by
  obtain ⟨r, hr⟩ := get_path_terminates calls a b
  have hr := hr fuel hf
  have hc := bfs_correct (graphAfter calls) a b fuel _ _ _ (Inv.init _ a b) hr
  constructor
  · intro h
    rw [h] at hr
    cases hr
    rintro ⟨p, hp⟩
    have := hp.long
    exact hc (p.length - 1) (by omega) (isWalk_pathTo hp).toW
  · intro h
    cases r with
    | none => exact hr
    | some p => exact absurd ⟨p, get_path_sound calls a b fuel p hr⟩ h

/-- C24: `get_path` returns a path exactly when there is a walk. -/
theorem get_path_some_iff (calls : List (Nat × Nat)) (a b fuel : Nat) (hf : pathFuel calls ≤ fuel) :
    (∃ p, getPathFuel fuel (graphAfter calls) a b = some (some p)) ↔ ∃ p, Spec.IsWalk calls a b p := by
  obtain ⟨r, hr⟩ := get_path_terminates calls a b
  have hr := hr fuel hf
  have hn := get_path_none_iff calls a b fuel hf
  cases r with
  | none => simp [hr] at hn ⊢; exact hn
  | some p => exact ⟨fun _ => ⟨p, get_path_sound calls a b fuel p hr⟩, fun _ => ⟨p, hr⟩⟩

/-- C25: no walk is shorter than the returned path. -/
theorem get_path_shortest (calls : List (Nat × Nat)) (a b fuel : Nat) (p p' : List Nat)
    (h : getPathFuel fuel (graphAfter calls) a b = some (some p)) (hp' : Spec.IsWalk calls a b p') :
    p.length ≤ p'.length := by
  have := bfs_correct (graphAfter calls) a b fuel _ _ _ (Inv.init _ a b) h
  have hl := hp'.long
  have := this.2.2 (p'.length - 1) (by omega) (isWalk_pathTo hp').toW
  omega

/-- A graph with two routes; the hypotheses of C23 and C25 hold and the short route is taken. -/
example : getPathFuel 14 (graphAfter [(1, 2), (2, 3), (3, 4), (1, 5), (5, 4), (7, 8)]) 1 4
    = some (some [1, 5, 4]) := by decide
example : getPathFuel 14 (graphAfter [(1, 2), (2, 3), (3, 4), (1, 5), (5, 4), (7, 8)]) 1 8
    = some none := by decide
/-- The walk may return to its start: asking for the path from an occurrence to itself goes through a
neighbour. -/
example : getPathFuel 14 (graphAfter [(1, 2)]) 1 1 = some (some [1, 2, 1]) := by decide

end BurnFm.Props
