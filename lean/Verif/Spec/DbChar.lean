import Verif.Base

/-! What the two-byte text encoding can store, independently of the table. -/

namespace BurnFm.Spec

/-- The characters FileMaker's catalogue keys may consist of here. -/
def storable (c : Char) : Prop := c = '\x00' ∨ c = ' ' ∨ c = '_' ∨ ('a' ≤ c ∧ c ≤ 'z')

instance (c : Char) : Decidable (storable c) := by unfold storable; infer_instance

/-- What remains of a character: lower-cased if that is storable, NUL otherwise. -/
def stored (c : Char) : Char := if storable c.toLower then c.toLower else '\x00'

/-- The complete byte pairs of a byte string. -/
def pairs : Bytes → List (UInt8 × UInt8)
  | a :: b :: rest => (a, b) :: pairs rest
  | _ => []

end BurnFm.Spec
