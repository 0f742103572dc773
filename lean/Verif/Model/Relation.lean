import Verif.Base

/-! Model of `src/testing/relation_mgr.rs`. -/

namespace BurnFm

/-- src/testing/relation_mgr.rs:3-5 `RelationMgr.graph: HashMap<usize, Vec<usize>>`, as a lookup function
(the code only uses `get`, `get_mut` and `insert`, never iteration). -/
abbrev Graph := Nat → Option (List Nat)

/-- src/testing/relation_mgr.rs:8-12 `new`. -/
def Graph.new : Graph := fun _ => none

/-- src/testing/relation_mgr.rs:14-28 `add_node`. -/
def addNode (g : Graph) (occ1 occ2 : Nat) : Graph :=
  let exists' := 0 < (((g occ1).getD []).filter (· == occ2)).length
  match g occ1 with
  | none => fun k => if k = occ1 then some [occ2] else g k
  | some l => if exists' then g else fun k => if k = occ1 then some (l ++ [occ2]) else g k

/-- src/testing/relation_mgr.rs:29-32 `add_relation`. -/
def addRelation (g : Graph) (occ1 occ2 : Nat) : Graph := addNode (addNode g occ1 occ2) occ2 occ1

/-- src/testing/relation_mgr.rs:49-62, the inner `for` over the not yet visited neighbours. Returns either
the found path, or the new queue and visited list. -/
def expand (occ2 : Nat) (path : List Nat) :
    List Nat → List (Nat × List Nat) → List Nat → (List Nat) ⊕ (List (Nat × List Nat) × List Nat)
  | [], queue, visited => .inr (queue, visited)
  | r :: rs, queue, visited =>
    if r = occ2 then .inl (path ++ [occ2])
    else expand occ2 path rs (queue ++ [(r, path ++ [r])]) (visited ++ [r])

/-- src/testing/relation_mgr.rs:40-63, the `while` loop, one unit of fuel per dequeued entry. `none` means
that the fuel ran out; `some r` is the returned value. -/
def bfs (g : Graph) (occ2 : Nat) : Nat → List (Nat × List Nat) → List Nat → Option (Option (List Nat))
  | 0, _, _ => none
  | _ + 1, [], _ => some none
  | fuel + 1, (cur, path) :: queue, visited =>
    match g cur with
    | none => bfs g occ2 fuel queue visited
    | some list =>
      match expand occ2 path (list.filter (fun x => !visited.contains x)) queue visited with
      | .inl p => some (some p)
      | .inr (queue, visited) => bfs g occ2 fuel queue visited

/-- src/testing/relation_mgr.rs:34-66 `get_path`, run for at most `fuel` loop iterations. -/
def getPathFuel (fuel : Nat) (g : Graph) (occ1 occ2 : Nat) : Option (Option (List Nat)) :=
  bfs g occ2 fuel [(occ1, [occ1])] []

end BurnFm
