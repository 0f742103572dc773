import Verif.Spec.FileLayout

/-! The bytes that begin a chunk, and the sectors of a file that are in use. -/

namespace BurnFm.Spec

/-- The opcodes of the chunk format. -/
def opcodes : List UInt8 :=
  [0x00, 0x01, 0x02, 0x03, 0x04, 0x05, 0x06, 0x07, 0x08, 0x09, 0x0A, 0x0B, 0x0C, 0x0D, 0x0E, 0x0F,
   0x10, 0x11, 0x12, 0x13, 0x14, 0x15, 0x16, 0x17, 0x19, 0x1A, 0x1B, 0x1C, 0x1D, 0x1E, 0x1F,
   0x20, 0x23, 0x28, 0x30, 0x38, 0x3D, 0x40, 0x80]

/-- A chunk begins with an opcode. Opcodes below 0x40 also occur with their two upper bits set (the directory is left after
the chunk). -/
def BeginsChunk (b : UInt8) : Prop := b ∈ opcodes ∨ ∃ c ∈ opcodes, c < 0x40 ∧ b = 0xC0 + c

instance (b : UInt8) : Decidable (BeginsChunk b) := by unfold BeginsChunk; infer_instance

/-- Sector `i` is in use: following the links from sector 2 leads to it, and it is not the end marker. -/
inductive InUse (buf : Bytes) : Nat → Prop
  | first : InUse buf 2
  | next {i : Nat} : InUse buf i → nextSector buf i ≠ 0 → InUse buf (nextSector buf i)

end BurnFm.Spec
