import Verif.Spec.Schema
import Verif.Spec.ChunkFormat
import Verif.Spec.FileLayout
import Verif.Spec.DbChar
import Verif.Model.File

/-! Chunks with the opcodes that they are written with, and the external data sources of a file (doc/fmp_format.md). -/

namespace BurnFm.Spec

/-- A chunk: its directory, its opcode, the bytes after the opcode, and what they mean. -/
structure Raw where
  path : List Nat
  opcode : Nat
  operands : Bytes
  what : Option What

/-- What a reader sees. -/
def Raw.event (r : Raw) : Option Event := r.what.map fun w => ⟨r.path, w⟩

def seen (raws : List Raw) : List Event := raws.filterMap Raw.event

/-- As `FormatRun`, with the chunks instead of the events. -/
inductive RawRun : List Nat → Bytes → List Raw → List Nat → Prop
  | nil (path : List Nat) : RawRun path [] [] path
  | cons {path path' : List Nat} {b : UInt8} {bytes rest : Bytes} {w : Option What} {n : Nat} {raws : List Raw} :
      ChunkFormat (opcode b) bytes w n → RawRun (pathAfter b n path) rest raws path' →
      RawRun path (b :: bytes ++ rest) (⟨pathAfter b n path, opcode b, bytes, w⟩ :: raws) path'

/-- Zero bytes up to the end of a sector read as chunks without data in the directory in which the sector ends, two bytes for
each. -/
def padding (path : List Nat) (n : Nat) : List Raw := List.replicate ((n + 1) / 2) ⟨path, 0x00, [0], some (.data [])⟩

/-- As `Sectors` in `Spec/FileContents`, with the chunks instead of the events. -/
inductive RawSectors (buf : Bytes) : Nat → List Raw → Prop
  | last : RawSectors buf 0 []
  | sector {i n : Nat} {bytes : Bytes} {raws rest : List Raw} : i ≠ 0 → i ≤ nextSector buf 1 → (i + 1) * 4096 ≤ buf.length →
      (buf.drop (i * 4096 + 20)).take 4076 = bytes ++ zeros n → RawRun [] bytes raws [] →
      RawSectors buf (nextSector buf i) rest → RawSectors buf i (raws ++ rest)
  | openSector {i n : Nat} {bytes : Bytes} {path : List Nat} {raws rest : List Raw} : i ≠ 0 → i ≤ nextSector buf 1 →
      (i + 1) * 4096 ≤ buf.length → (buf.drop (i * 4096 + 20)).take 4076 = bytes ++ zeros n → RawRun [] bytes raws path →
      RawSectors buf (nextSector buf i) rest → RawSectors buf i (raws ++ padding path n ++ rest)

/-- As `FileOf`, with the chunks instead of the events. -/
def RawFileOf (buf : Bytes) (raws : List Raw) : Prop := 4116 ≤ buf.length ∧ RawSectors buf 2 raws

/-! Data sources -/

/-- A piece of the path of a data source: plain text, or one of the codes for `:`, `/` and `..`. -/
inductive PathPiece where
  | text (s : Str)
  | colon
  | slash
  | up

def PathPiece.bytes (enc : Str → Bytes) : PathPiece → Bytes
  | .text s => enc s
  | .colon => [65]
  | .slash => [218]
  | .up => [219]

def PathPiece.meaning : PathPiece → Str
  | .text s => s
  | .colon => [':']
  | .slash => ['/']
  | .up => ['.', '.']

structure LocationDef where
  /-- five bytes of header -/
  head : Bytes
  kind : Str
  path : List PathPiece
  filename : Str

/-- Header, kind of source, length of the path, the marker 65 50, path, length of the file name, file name. -/
def LocationDef.bytes (enc : Str → Bytes) (l : LocationDef) : Bytes :=
  let path := l.path.flatMap (PathPiece.bytes enc)
  l.head ++ enc l.kind ++ [UInt8.ofNat path.length] ++ [65, 50] ++ path ++ [UInt8.ofNat (enc l.filename).length] ++ enc l.filename

structure SourceDef where
  id : UInt8
  name : Str
  location : Option LocationDef
  /-- the user who created it -/
  user : Option Str

/-- The bytes of the number of the directory entered, out of those after the opcode: for 0x38 the first two after the length, for
0x20 0xFE the eight after the 0xFE, otherwise all. -/
def dirBytes (opcode : Nat) (operands : Bytes) : Bytes :=
  if opcode = 0x38 then (operands.drop 1).take 2 else if operands.length = 9 then operands.drop 1 else operands

/-- What a file says about data sources. -/
inductive SourceNote where
  /-- `[32].[1].[1]` holds the names -/
  | name (b : Bytes)
  /-- a directory at or below `[32].[5].[id]` is entered -/
  | enter (path : List Nat) (number : Bytes)
  /-- property 130 written with a one-byte key and a length -/
  | location (id : Nat) (b : Bytes)
  /-- property 130 written in any other way -/
  | user (id : Nat) (b : Bytes)
  deriving DecidableEq

def Raw.note (r : Raw) : Option SourceNote :=
  if r.path = [32, 1, 1] then
    match r.what with
    | some (.data d) => some (.name d)
    | _ => none
  else if r.path.take 2 = [32, 5] ∧ 3 ≤ r.path.length then
    match r.what with
    | some .push => some (.enter r.path (dirBytes r.opcode r.operands))
    | some (.kv k d) => if k = 130 then some (if r.opcode = 0x06 then .location (r.path.getD 2 0) d else .user (r.path.getD 2 0) d) else none
    | _ => none
  else none

/-- The directory `[32].[5].[id]`. -/
def SourceDef.notes (enc : Str → Bytes) (s : SourceDef) : List SourceNote :=
  .enter [32, 5, s.id.toNat] [s.id] :: ((s.location.map fun l => .location s.id.toNat (l.bytes enc)).toList ++
    (s.user.map fun u => .user s.id.toNat (enc u)).toList)

/-- The names, then the directories in the same order. -/
def sourceNotes (enc encName : Str → Bytes) (ss : List SourceDef) : List SourceNote :=
  ss.map (fun s => .name (encName s.name)) ++ ss.flatMap (·.notes enc)

/-! The components described -/

def LocationDef.location (l : LocationDef) : SourceLocation :=
  { sourceType := l.kind, path := l.path.flatMap (·.meaning), filename := l.filename }

def SourceDef.source (s : SourceDef) : FDataSource :=
  { name := s.name, location := (s.location.map (·.location)).getD {}, createdByUser := s.user.getD [] }

/-! Well-formed data sources -/

/-- Text in a path must not contain the codes 50, 65, 218 and 219. -/
def PathPiece.Ok (enc : Str → Bytes) : PathPiece → Prop
  | .text s => ∀ b ∈ enc s, b ≠ 50 ∧ b ≠ 65 ∧ b ≠ 218 ∧ b ≠ 219
  | _ => True

/-- Neither length exceeds a byte, and the marker does not occur before its place. -/
structure LocationDef.Ok (enc : Str → Bytes) (l : LocationDef) : Prop where
  head : l.head.length = 5
  path : (l.path.flatMap (PathPiece.bytes enc)).length < 256
  filename : (enc l.filename).length < 256
  pieces : ∀ x ∈ l.path, x.Ok enc
  marker : ¬[65, 50] <:+: l.head.drop 4 ++ enc l.kind ++ [UInt8.ofNat (l.path.flatMap (PathPiece.bytes enc)).length]

structure SourcesOk (enc : Str → Bytes) (ss : List SourceDef) : Prop where
  ids : ss.Pairwise (·.id ≠ ·.id)
  names : ∀ s ∈ ss, ∀ c ∈ s.name, storable c
  locations : ∀ s ∈ ss, ∀ l, s.location = some l → l.Ok enc

end BurnFm.Spec
