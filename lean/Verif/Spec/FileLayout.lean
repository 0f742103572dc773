import Verif.Base

/-! The layout of a file: sectors of 4096 bytes, each with a link to the next one at offset 8. -/

namespace BurnFm.Spec

/-- Four bytes, most significant first. -/
def be32 (buf : Bytes) (o : Nat) : Nat :=
  (((buf.getD o 0).toNat * 256 + (buf.getD (o + 1) 0).toNat) * 256 + (buf.getD (o + 2) 0).toNat) * 256 +
    (buf.getD (o + 3) 0).toNat

/-- The link of sector `i`. -/
def nextSector (buf : Bytes) (i : Nat) : Nat := be32 buf (i * 4096 + 8)

/-- Following the links from sector `i` leads to sector 0 (the end marker). -/
inductive ChainEnds (buf : Bytes) : Nat → Prop
  | zero : ChainEnds buf 0
  | next {i : Nat} : ChainEnds buf (nextSector buf i) → ChainEnds buf i

/-- `n` zero bytes. -/
def zeros (n : Nat) : Bytes := List.replicate n 0

end BurnFm.Spec
