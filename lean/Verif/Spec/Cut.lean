import Verif.Spec.Sources

/-! Content that is continued in another sector. -/

namespace BurnFm.Spec

/-- Entering again, one after the other, the directories that lead to `path`. -/
def reenter (path : List Nat) : List Event := ((List.range path.length).map fun k => ⟨path.take (k + 1), .push⟩)

/-- `[128 + t].[3].[5].[f]`: field `f` of table `t`. -/
def fieldDir (q : List Nat) : Prop := q.length = 4 ∧ 128 ≤ q.getD 0 0 ∧ q.getD 1 0 = 3 ∧ q.getD 2 0 = 5

/-- `[4].[1].[7].[id]` and below: a layout. -/
def layoutDir (q : List Nat) : Prop := q.take 3 = [4, 1, 7] ∧ 4 ≤ q.length

/-- `[3].[16].[5].[128 + t]`: table `t`. -/
def tableDir (q : List Nat) : Prop := q.length = 4 ∧ q.take 3 = [3, 16, 5]

/-- `[32].[1].[1]`, and `[32].[5].[id]` and below: data sources. -/
def sourceDir (q : List Nat) : Prop := q = [32, 1, 1] ∨ (q.take 2 = [32, 5] ∧ 3 ≤ q.length)

/-- Neither `path` nor a directory around it belongs to a field, layout, table or data source. -/
def PlainDir (path : List Nat) : Prop := ∀ k, k < path.length →
  ¬fieldDir (path.take (k + 1)) ∧ ¬layoutDir (path.take (k + 1)) ∧ ¬tableDir (path.take (k + 1)) ∧ ¬sourceDir (path.take (k + 1))

/-- The directory with the links of a table occurrence. -/
def linkDir : List Nat := [3, 17, 5, 0, 251]

/-- `Recut raws raws'`: `raws'` are the chunks `raws`, where at any number of places a sector ends and the next one continues. At
each place the reader sees the zero bytes at the end of the sector, in the directory `path` that is open there, and then, in the
next sector, the same directories entered again. -/
inductive Recut (raws : List Raw) : List Raw → Prop
  | same : Recut raws raws
  | cut {a b re : List Raw} {path : List Nat} {n : Nat} : Recut raws (a ++ b) → (∀ e ∈ reenter path, e ∈ seen a) → PlainDir path →
      (n = 0 ∨ path ≠ linkDir) → seen re = reenter path → Recut raws (a ++ padding path n ++ re ++ b)

end BurnFm.Spec
