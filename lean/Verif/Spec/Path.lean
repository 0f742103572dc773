import Verif.Base

/-! What an opcode byte says about the directory path. -/

namespace BurnFm.Spec

/-- An opcode byte of 192 or more is the opcode 192 lower, with a delayed pop. -/
def opcode (b : UInt8) : Nat := if 192 ≤ b.toNat then b.toNat - 192 else b.toNat

def delayed (b : UInt8) : Prop := 192 ≤ b.toNat

instance (b : UInt8) : Decidable (delayed b) := inferInstanceAs (Decidable (192 ≤ b.toNat))

/-- The four opcodes that enter a directory. -/
def isPush (b : UInt8) : Prop := opcode b = 0x20 ∨ opcode b = 0x28 ∨ opcode b = 0x30 ∨ opcode b = 0x38

/-- The two opcodes that leave a directory. -/
def isPop (b : UInt8) : Prop := opcode b = 0x3D ∨ opcode b = 0x40

instance (b : UInt8) : Decidable (isPush b) := inferInstanceAs (Decidable (_ ∨ _))
instance (b : UInt8) : Decidable (isPop b) := inferInstanceAs (Decidable (_ ∨ _))

/-- The path after a chunk whose opcode byte is `b`; `n` is the component entered, if any. Leaving the
root leaves one at the root (`dropLast [] = []`). -/
def pathAfter (b : UInt8) (n : Nat) (path : List Nat) : List Nat :=
  let q := if isPush b then path ++ [n] else if isPop b then path.dropLast else path
  if delayed b then q.dropLast else q

end BurnFm.Spec
