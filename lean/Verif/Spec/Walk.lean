/-! Walks in an undirected graph given by the list of declared edges. -/

namespace BurnFm.Spec

/-- Two nodes are related when a relation between them was declared, in either direction. -/
def Related (declared : List (Nat × Nat)) (a b : Nat) : Prop := (a, b) ∈ declared ∨ (b, a) ∈ declared

/-- `p` is a walk from `a` to `b` with at least one edge: it starts at `a`, ends at `b` and consecutive
nodes are related. -/
structure IsWalk (declared : List (Nat × Nat)) (a b : Nat) (p : List Nat) : Prop where
  starts : p.head? = some a
  ends : p.getLast? = some b
  long : 2 ≤ p.length
  steps : ∀ i (h : i + 1 < p.length), Related declared p[i] p[i + 1]

end BurnFm.Spec
