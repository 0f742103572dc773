import Verif.Spec.Calc

/-! Which text any bytes of a stored calculation give. -/

namespace BurnFm.Spec

/-- What is shown of a stored text: ASCII characters, each combined with 0x5A. -/
def shownLiteral (raw : Bytes) : Str :=
  if ∀ b ∈ raw, b.toNat < 128 then raw.map (fun b => Char.ofNat (b ^^^ 0x5A).toNat) else t!"value not utf-8."

/-- `BytesItem w t r`: the bytes `w` before `r` are an item, shown as `t`. -/
inductive BytesItem : Bytes → Str → Bytes → Prop
  | symbol {b : UInt8} {t : Str} {r : Bytes} : (b, t) ∈ calcSymbols → BytesItem [b] t r
  | getArg {k : UInt8} {t : Str} {r : Bytes} : (k, t) ∈ getArguments → BytesItem [0x9C, k] t r
  | noGetArg {k : UInt8} {r : Bytes} : k ∉ getArguments.map (·.1) → BytesItem [0x9C, k] [] r
  | char {r : Bytes} : BytesItem [0xFB, 3] t!"Char" r
  | noFunction {k : UInt8} {r : Bytes} : k ≠ 3 → BytesItem [0xFB, k] [] r
  | number {before after r : Bytes} {v : UInt8} : before.length = 8 → after.length = 10 →
      BytesItem (0x10 :: before ++ v :: after) (toString v.toNat).toList r
  /-- a number that is cut off at the end, but for its first nine bytes -/
  | shortNumber {before after : Bytes} {v : UInt8} : before.length = 8 → after.length < 10 →
      BytesItem (0x10 :: before ++ v :: after) (toString v.toNat).toList []
  | text {n : UInt8} {raw r : Bytes} : raw.length = n.toNat → BytesItem (0x13 :: n :: raw) ('"' :: shownLiteral raw ++ ['"']) r
  | varName {n : UInt8} {raw r : Bytes} : raw.length = n.toNat → BytesItem (0x1A :: n :: raw) (shownLiteral raw) r
  /-- any other byte is skipped -/
  | other {b : UInt8} {r : Bytes} : b ∉ calcSymbols.map (·.1) → b ∉ calcPrefixes → BytesItem [b] [] r

/-- `BytesShow bs t`: the bytes of a calculation are shown as `t`. -/
inductive BytesShow : Bytes → Str → Prop
  | nil : BytesShow [] []
  | item {w r : Bytes} {t u : Str} : BytesItem w t r → BytesShow r u → BytesShow (w ++ r) (t ++ u)

/-- `BytesCut bs`: the bytes end within an item. -/
inductive BytesCut : Bytes → Prop
  | noMore {b : UInt8} : b ∈ calcPrefixes → BytesCut [b]
  | number {r : Bytes} : r.length < 9 → BytesCut (0x10 :: r)
  | literal {b n : UInt8} {raw : Bytes} : b = 0x13 ∨ b = 0x1A → raw.length < n.toNat → BytesCut (b :: n :: raw)
  | later {w r : Bytes} {t : Str} : BytesItem w t r → BytesCut r → BytesCut (w ++ r)

end BurnFm.Spec
