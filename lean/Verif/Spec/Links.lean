import Verif.Spec.Decodes
import Verif.Spec.FileLayout

/-! The sectors of a file that are visited by following links, and what makes reading stand still. -/

namespace BurnFm.Spec

/-- Sector `j` is met when the links are followed from sector `i`; the end marker 0 has no link. -/
inductive SectorLinked (buf : Bytes) (i : Nat) : Nat → Prop
  | here : SectorLinked buf i i
  | next {j : Nat} : SectorLinked buf i j → j ≠ 0 → SectorLinked buf i (nextSector buf j)

/-- Following the links from sector `i`, some sector is met twice. -/
def Revisits (buf : Bytes) (i : Nat) : Prop :=
  ∃ j, SectorLinked buf i j ∧ j ≠ 0 ∧ SectorLinked buf (nextSector buf j) j

/-- Reading the chunks of sector `i` in order arrives, inside the sector, at a segment opcode (0x0F, or 0xCF with a
delayed pop) without the byte 0x80 after it. -/
def BareSegmentIn (p : Profile) (buf : Bytes) (i : Nat) : Prop :=
  ∃ (o : Nat) (path : DirPath), Reaches p buf (i * 4096) (i * 4096 + 4096) (i * 4096 + 20) o path ∧
    o < i * 4096 + 4096 ∧ (buf[o]? = some 0x0F ∨ buf[o]? = some 0xCF) ∧ buf[o + 1]? ≠ some 0x80

end BurnFm.Spec
