import Verif.Base

/-! Model of `src/encoding_util.rs`. -/

namespace BurnFm

/-- src/encoding_util.rs:3-9 `get_path_int`. In Rust `&` binds weaker than `<<`, so the mask applied to
the first byte is `0x7f << 8`. -/
def getPathInt (bytes : Bytes) : Nat :=
  match bytes with
  | [b0] => b0.toNat
  | [b0, b1] => 0x80 + (b0.toNat &&& (0x7f <<< 8)) + b1.toNat
  | _ => 0

/-- src/encoding_util.rs:11-21 `put_path_int`. -/
def putPathInt (n : UInt32) : Bytes :=
  if n ≥ 128 then
    let x := n - 128
    let b1 := (((x >>> 8) &&& 0x7f) ||| 0x80).toUInt8
    let b2 := (x &&& 0xFF).toUInt8
    [b1 ||| 0x7c, b2]
  else [n.toUInt8]

/-- src/encoding_util.rs:23-30 `get_int` (the recursion is on two-byte halves, written out). -/
def getInt (bytes : Bytes) : Nat :=
  match bytes with
  | [b0] => b0.toNat
  | [b0, b1] => (b0.toNat <<< 8) + b1.toNat
  | [b0, b1, b2, b3] => (((b0.toNat <<< 8) + b1.toNat) <<< 16) + ((b2.toNat <<< 8) + b3.toNat)
  | _ => 0

/-- src/encoding_util.rs:35-40, the loop of `put_int`. `idx` is a `usize`; the decrement after writing
position 0 overflows. -/
def putIntLoop (p : Profile) (n : Nat) (res : Bytes) (i : Nat) : Res Bytes :=
  if h : n > 0 then do
    let cur := n % 256
    if i < res.length then
      let res := res.set i (UInt8.ofNat cur)
      let i ← usub p i 1
      putIntLoop p (n / 256) res i
    else .error .index
  else .ok res
termination_by n
decreasing_by omega

/-- src/encoding_util.rs:32-42 `put_int`. -/
def putInt (p : Profile) (n : Nat) : Res Bytes :=
  putIntLoop p n [0, 0, 0, 0] 3

/-- UTF-8 bytes of a text (`str::bytes`); `String.utf8EncodeChar` is Lean core's UTF-8 encoder. -/
def utf8 (s : Str) : Bytes := s.flatMap String.utf8EncodeChar

/-- `String::from_utf8`: Lean core's strict UTF-8 decoder. -/
def fromUtf8 (b : Bytes) : Option Str := (b.toByteArray.utf8Decode?).map Array.toList

/-- src/encoding_util.rs:44-50 `fm_string_encrypt`. -/
def fmStringEncrypt (text : Str) : Bytes := (utf8 text).map (· ^^^ 0x5A)

/-- src/encoding_util.rs:52-60 `fm_string_decrypt`. -/
def fmStringDecrypt (bytes : Bytes) : Str :=
  match fromUtf8 (bytes.map (· ^^^ 0x5A)) with
  | some v => v
  | none => t!"value not utf-8."

end BurnFm
