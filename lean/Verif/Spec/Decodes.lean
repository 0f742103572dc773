import Verif.Model.Chunk
import Verif.Model.Assembler
import Verif.Spec.Records
import Verif.Spec.FileLayout

/-! Reading a run of chunks with the chunk decoder, and writing a run of records with the assembler. -/

namespace BurnFm

/-- What a decoded chunk means to a reader; no-ops mean nothing. -/
def meaning (ch : Chunk) : Option Spec.What :=
  match ch.ctype, ch.refSimple, ch.refData, ch.segmentIdx, ch.data with
  | .refSimple, some k, _, _, some d => some (.kv k d)
  | .refLong, _, some r, _, some d => some (.longKv r d)
  | .dataSimple, _, _, _, some d => some (.data d)
  | .dataSegment, _, _, some n, some d => some (.segment n d)
  | .pathPush, _, _, _, _ => some .push
  | .pathPop, _, _, _, _ => some .pop
  | _, _, _, _, _ => none

/-- `Decodes p code loc o path chs o' path'`: calling the chunk decoder again and again, starting at offset
`o` in directory `path`, yields the chunks `chs` and arrives at offset `o'` in directory `path'`. -/
inductive Decodes (p : Profile) (code : Bytes) (loc : Nat) : Nat → DirPath → List Chunk → Nat → DirPath → Prop
  | nil (o : Nat) (path : DirPath) : Decodes p code loc o path [] o path
  | cons {o o₁ o' : Nat} {path path₁ path' : DirPath} {ch : Chunk} {chs : List Chunk} :
      getChunk p code o path loc = .ok (.ok ch o₁ path₁) → o < o₁ →
      Decodes p code loc o₁ path₁ chs o' path' → Decodes p code loc o path (ch :: chs) o' path'

/-- `ReadsTo p code loc bound o path chs`: reading chunks from offset `o` in directory `path` until the offset is
no longer below `bound` yields the chunks `chs`. -/
inductive ReadsTo (p : Profile) (code : Bytes) (loc bound : Nat) : Nat → DirPath → List Chunk → Prop
  | done {o : Nat} {path : DirPath} : bound ≤ o → ReadsTo p code loc bound o path []
  | cons {o o₁ : Nat} {path path₁ : DirPath} {ch : Chunk} {chs : List Chunk} : o < bound →
      getChunk p code o path loc = .ok (.ok ch o₁ path₁) →
      ReadsTo p code loc bound o₁ path₁ chs → ReadsTo p code loc bound o path (ch :: chs)

/-- `FileReads p buf n i chs`: reading the sectors from sector `i` on, following the links to the end marker,
yields the chunks `chs`. No sector number exceeds `n`. -/
inductive FileReads (p : Profile) (buf : Bytes) (n : Nat) : Nat → List Chunk → Prop
  | done : FileReads p buf n 0 []
  | sector {i : Nat} {chs rest : List Chunk} : i ≠ 0 → i ≤ n → i * 4096 + 20 ≤ buf.length →
      ReadsTo p buf (i * 4096) (i * 4096 + 4096) (i * 4096 + 20) [] chs →
      FileReads p buf n (Spec.nextSector buf i) rest → FileReads p buf n i (chs ++ rest)

/-- `Reaches p code loc bound start o path`: reading chunks from offset `start` in the root directory, as long as
the offset is below `bound`, the reader comes to offset `o` in directory `path`. -/
inductive Reaches (p : Profile) (code : Bytes) (loc bound start : Nat) : Nat → DirPath → Prop
  | start : Reaches p code loc bound start start []
  | step {o o₁ : Nat} {path path₁ : DirPath} {ch : Chunk} : Reaches p code loc bound start o path → o < bound →
      getChunk p code o path loc = .ok (.ok ch o₁ path₁) → Reaches p code loc bound start o₁ path₁

/-- Reading any sector, no segment opcode (0x0F, or 0xCF with a delayed pop) is met without the byte 0x80 after it. -/
def NoBareSegment (p : Profile) (buf : Bytes) : Prop :=
  ∀ (i o : Nat) (path : DirPath), Reaches p buf (i * 4096) (i * 4096 + 4096) (i * 4096 + 20) o path →
    buf[o]? = some 0x0F ∨ buf[o]? = some 0xCF → buf[o + 1]? = some 0x80

/-- The meaning of a run of chunks. -/
def eventsOf (chs : List Chunk) : List Spec.Event :=
  chs.filterMap fun ch => (meaning ch).map fun w => ⟨ch.path, w⟩

/-- Put one record in the file. -/
def emitRecord (s : Asm) : Spec.Record → Res Asm
  | .kv key val => emitKv s key val
  | .kvE key val => emitKvE s (UInt32.ofNat key) val
  | .longKv key val => emitLongKv s key val
  | .data val => emitData1B s val
  | .push dir => emitPush s (UInt32.ofNat dir)
  | .pop => emitPop s

/-- Put records in the file one after the other. -/
def emitRecords (s : Asm) (rs : List Spec.Record) : Res Asm := rs.foldlM emitRecord s

end BurnFm
