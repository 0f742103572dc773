import Verif.Spec.Opcodes
import Verif.Spec.Decodes
import Verif.Spec.Path

/-! Files in which every chunk keeps to its place. -/

namespace BurnFm.Spec

/-- Every sector in use is complete; and wherever the reader meets a chunk, it is not one of the two kinds that have no defined
layout (0x1F, whose key and length overlap; 0x38 with less than two bytes), and it ends inside its sector. Only a zero byte at the
very end of a sector may take its second byte from outside. -/
structure Tidy (p : Profile) (buf : Bytes) : Prop where
  whole : ∀ i, InUse buf i → (i + 1) * 4096 ≤ buf.length
  defined : ∀ i o path b, InUse buf i → Reaches p buf (i * 4096) (i * 4096 + 4096) (i * 4096 + 20) o path → o < i * 4096 + 4096 →
    buf[o]? = some b → opcode b ≠ 0x1F ∧ (opcode b = 0x38 → ∀ len, buf[o + 1]? = some len → 2 ≤ len.toNat)
  inside : ∀ i o path b ch o' path', InUse buf i → Reaches p buf (i * 4096) (i * 4096 + 4096) (i * 4096 + 20) o path →
    o < i * 4096 + 4096 → buf[o]? = some b → getChunk p buf o path (i * 4096) = .ok (.ok ch o' path') →
    o' ≤ i * 4096 + 4096 ∨ (b = 0 ∧ o + 1 = i * 4096 + 4096)

end BurnFm.Spec
