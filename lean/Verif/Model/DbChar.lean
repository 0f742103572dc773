import Verif.Base

/-! Model of `src/dbcharconv.rs`. -/

namespace BurnFm

/-- src/dbcharconv.rs:4-15 `ENCODING_MAPPING`. -/
def encodingMapping : List (UInt8 × UInt8 × Char) :=
  [(0x0, 0x0, '\x00'), (0x2, 0xa, ' '), (0x2, 0x1d, '_'),
   (0x12, 0xf, 'a'), (0x12, 0x25, 'b'), (0x12, 0x3d, 'c'),
   (0x12, 0x50, 'd'), (0x12, 0x6b, 'e'), (0x12, 0xa3, 'f'),
   (0x12, 0xb0, 'g'), (0x12, 0xd3, 'h'), (0x12, 0xec, 'i'),
   (0x13, 0x5, 'j'), (0x13, 0x1e, 'k'), (0x13, 0x30, 'l'),
   (0x13, 0x5f, 'm'), (0x13, 0x6d, 'n'), (0x13, 0x8e, 'o'),
   (0x13, 0xb3, 'p'), (0x13, 0xc8, 'q'), (0x13, 0xda, 'r'),
   (0x14, 0x10, 's'), (0x14, 0x33, 't'), (0x14, 0x53, 'u'),
   (0x14, 0x7b, 'v'), (0x14, 0x8d, 'w'), (0x14, 0x97, 'x'),
   (0x14, 0x9c, 'y'), (0x14, 0xad, 'z')]

/-- src/dbcharconv.rs:17-22 `decode_char`. -/
def decodeChar (high low : UInt8) : Char :=
  match encodingMapping.find? (fun e => e.1 == high && e.2.1 == low) with
  | some e => e.2.2
  | none => '?'

/-- `chunks_exact(2)` followed by `decode_char` on each pair (src/dbcharconv.rs:25-26). -/
def decodePairs : Bytes → Str
  | a :: b :: rest => decodeChar a b :: decodePairs rest
  | _ => []

/-- src/dbcharconv.rs:24-28 `decode_bytes`: `strip_suffix("\0").unwrap()`. -/
def decodeBytes (bytes : Bytes) : Res Str :=
  let s := decodePairs bytes
  if s.getLast? = some '\x00' then .ok s.dropLast else .error .unwrap

/-- `char::to_ascii_lowercase`. -/
def asciiLower (c : Char) : Char :=
  if 'A' ≤ c ∧ c ≤ 'Z' then Char.ofNat (c.toNat + 32) else c

/-- src/dbcharconv.rs:30-35 `encode_char`. -/
def encodeChar (ch : Char) : UInt8 × UInt8 :=
  match encodingMapping.find? (fun e => e.2.2 == asciiLower ch) with
  | some e => (e.1, e.2.1)
  | none => (0, 0)

/-- src/dbcharconv.rs:37-47 `encode_text`. Simplification: the `set_len`/`transmute` of the vector of pairs
is modelled as flattening it, which is what the memory layout of `(u8, u8)` gives in practice. -/
def encodeText (text : Str) : Bytes := text.flatMap fun c => [(encodeChar c).1, (encodeChar c).2]

end BurnFm
