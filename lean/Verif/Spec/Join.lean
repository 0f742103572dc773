import Verif.Model.File

/-! The meaning of the comparison operators of a relationship, on text. -/

namespace BurnFm.Spec

/-- `lhs` stands in the declared comparison to `rhs`; texts are ordered lexicographically by code point. -/
def Stands (c : Comparison) (lhs rhs : Str) : Prop :=
  match c with
  | .equal => lhs = rhs
  | .notEqual => lhs ≠ rhs
  | .less => lhs < rhs
  | .lessEqual => lhs < rhs ∨ lhs = rhs
  | .greater => rhs < lhs
  | .greaterEqual => rhs < lhs ∨ lhs = rhs
  | .cartesian => True

/-- A comparison without its strictness: less becomes less or equal, greater becomes greater or equal. -/
def loosened : Comparison → Comparison
  | .less => .lessEqual
  | .greater => .greaterEqual
  | c => c

end BurnFm.Spec
