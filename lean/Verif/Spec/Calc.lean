import Verif.Base

/-! Calculation bytecode items and their texts. -/

namespace BurnFm.Spec

/-- One-byte items and what they stand for. -/
def calcSymbols : List (UInt8 × Str) :=
  [(0x04, t!"("), (0x05, t!")"), (0x0C, t!" "), (0x25, t!"+"), (0x26, t!"-"), (0x27, t!"*"), (0x28, t!"/"),
   (0x2D, t!"Abs"), (0x41, t!"<"), (0x43, t!"<="), (0x44, t!"=="), (0x46, t!"!="), (0x47, t!">="), (0x49, t!">"),
   (0x50, t!"&"), (0x9B, t!"Get"), (0x9D, t!"Acos")]

/-- Arguments of `Get`. -/
def getArguments : List (UInt8 × Str) :=
  [(0x1D, t!"CurrentTime"), (0x20, t!"AccountName"), (0x49, t!"DocumentsPath"), (0x5D, t!"DocumentsPathListing")]

/-- Bytes that introduce an item with a payload. -/
def calcPrefixes : List UInt8 := [0x10, 0x13, 0x1A, 0x9C, 0xFB]

/-- A complete item of calculation bytecode. -/
inductive CalcItem where
  /-- an entry of `calcSymbols` -/
  | symbol (b : UInt8) (t : Str)
  /-- a byte the decompiler skips -/
  | skipped (b : UInt8)
  /-- an argument of `Get` -/
  | getArg (k : UInt8)
  /-- an extended intrinsic -/
  | intrinsic (k : UInt8)
  /-- a number: nineteen bytes, the ninth one is the value -/
  | number (before : Bytes) (value : UInt8) (after : Bytes)
  /-- a string literal -/
  | str (s : Str)
  /-- a variable name -/
  | var (s : Str)

/-- Text of a literal: the decompiler understands ASCII only. -/
def literalText (s : Str) : Str := if ∀ c ∈ s, c.toNat < 128 then s else t!"value not utf-8."

/-- The items that exist. `enc` is the obfuscation of texts in the file. -/
def CalcItem.Valid (enc : Str → Bytes) : CalcItem → Prop
  | .symbol b t => (b, t) ∈ calcSymbols
  | .skipped b => b ∉ calcSymbols.map (·.1) ∧ b ∉ calcPrefixes
  | .number before _ after => before.length = 8 ∧ after.length = 10
  | .str s => (enc s).length ≤ 255
  | .var s => (enc s).length ≤ 255
  | _ => True

/-- The bytes of an item. -/
def CalcItem.bytes (enc : Str → Bytes) : CalcItem → Bytes
  | .symbol b _ => [b]
  | .skipped b => [b]
  | .getArg k => [0x9C, k]
  | .intrinsic k => [0xFB, k]
  | .number before v after => 0x10 :: (before ++ [v] ++ after)
  | .str s => 0x13 :: UInt8.ofNat (enc s).length :: enc s
  | .var s => 0x1A :: UInt8.ofNat (enc s).length :: enc s

/-- The text of an item. -/
def CalcItem.text : CalcItem → Str
  | .symbol _ t => t
  | .skipped _ => []
  | .getArg k => (getArguments.lookup k).getD []
  | .intrinsic k => if k = 3 then t!"Char" else []
  | .number _ v _ => (toString v.toNat).toList
  | .str s => ['"'] ++ literalText s ++ ['"']
  | .var s => literalText s

end BurnFm.Spec
