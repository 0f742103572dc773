import Verif.Base

/-! Slices of a byte buffer. -/

namespace BurnFm.Spec

/-- `d` is the slice of `code` that starts at position `i`. -/
def SliceAt (code : Bytes) (i : Nat) (d : Bytes) : Prop :=
  ∃ pre post, code = pre ++ d ++ post ∧ pre.length = i

end BurnFm.Spec
