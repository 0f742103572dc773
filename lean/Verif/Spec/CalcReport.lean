import Verif.Spec.CalcBytes

/-! Which functions in the bytes of a stored calculation are reported as unknown. -/

namespace BurnFm.Spec

/-- How many reports the item with the bytes `w` gives: one if it is a function other than `Char`. -/
def unknownCall (w : Bytes) : Nat :=
  match w with
  | [b, k] => if b = 0xFB ∧ k ≠ 3 then 1 else 0
  | _ => 0

/-- The bytes end within their first item. -/
inductive CutHere : Bytes → Prop
  | noMore {b : UInt8} : b ∈ calcPrefixes → CutHere [b]
  | number {r : Bytes} : r.length < 9 → CutHere (0x10 :: r)
  | literal {b n : UInt8} {raw : Bytes} : b = 0x13 ∨ b = 0x1A → raw.length < n.toNat → CutHere (b :: n :: raw)

/-- `BytesReport bs n`: in the bytes `bs`, up to their end or the item that they end within, there are `n` functions that are not
known. -/
inductive BytesReport : Bytes → Nat → Prop
  | nil : BytesReport [] 0
  | cut {bs : Bytes} : CutHere bs → BytesReport bs 0
  | item {w r : Bytes} {t : Str} {n : Nat} : BytesItem w t r → BytesReport r n → BytesReport (w ++ r) (unknownCall w + n)

end BurnFm.Spec
