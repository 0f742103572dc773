import Verif.Model.DecompilerOutput
import Verif.Spec.Decodes
import Verif.Spec.Opcodes
import Verif.Spec.FileContents

/-! Where reading a file stops, and what its description says about the terminal. -/

namespace BurnFm.Spec

/-- `ReadsInto p code loc bound o path chs o' path'`: reading chunks from offset `o` in directory `path`, all of them beginning
below `bound`, yields `chs` and comes to offset `o'` in directory `path'`. -/
inductive ReadsInto (p : Profile) (code : Bytes) (loc bound : Nat) : Nat → DirPath → List Chunk → Nat → DirPath → Prop
  | here {o : Nat} {path : DirPath} : ReadsInto p code loc bound o path [] o path
  | cons {o o₁ o' : Nat} {path path₁ path' : DirPath} {ch : Chunk} {chs : List Chunk} : o < bound →
      getChunk p code o path loc = .ok (.ok ch o₁ path₁) → ReadsInto p code loc bound o₁ path₁ chs o' path' →
      ReadsInto p code loc bound o path (ch :: chs) o' path'

/-- `ComesTo p buf n i chs j o`: reading the sectors from sector `i` on, following the links, none of them beyond `n`, yields the
chunks `chs` and comes to offset `o` of the file, in sector `j`. -/
inductive ComesTo (p : Profile) (buf : Bytes) (n : Nat) : Nat → List Chunk → Nat → Nat → Prop
  | here {i o : Nat} {chs : List Chunk} {path : DirPath} : i ≠ 0 → i ≤ n → i * 4096 + 20 ≤ buf.length →
      ReadsInto p buf (i * 4096) (i * 4096 + 4096) (i * 4096 + 20) [] chs o path → o < i * 4096 + 4096 →
      ComesTo p buf n i chs i o
  | next {i j o : Nat} {chs rest : List Chunk} : i ≠ 0 → i ≤ n → i * 4096 + 20 ≤ buf.length →
      ReadsTo p buf (i * 4096) (i * 4096 + 4096) (i * 4096 + 20) [] chs →
      ComesTo p buf n (nextSector buf i) rest j o → ComesTo p buf n i (chs ++ rest) j o

/-- The chunks can be handled one after the other without a crash. -/
def Handled (p : Profile) (chs : List Chunk) : Prop := ∃ st, chs.foldlM (fun st ch => dispatch p st ch.path ch) {} = .ok st

/-- Reading the file without a crash leads to the byte `b` at offset `o`, in sector `j`, where a chunk should begin, but no chunk
begins with this byte. -/
def MeetsUnknown (p : Profile) (buf : Bytes) (j o : Nat) (b : UInt8) : Prop :=
  4116 ≤ buf.length ∧ ∃ chs, ComesTo p buf (nextSector buf 1) 2 chs j o ∧ Handled p chs ∧ buf[o]? = some b ∧ ¬BeginsChunk b

/-- The lines on standard output. -/
def DecLine.shown : DecLine → Option Nat
  | .source b => some b.toNat
  | _ => none

/-- A function that the decompiler does not know: a code other than that of `Char`. -/
def CalcItem.unknownFunction : CalcItem → Bool
  | .intrinsic k => k != 3
  | _ => false

/-- The number of unknown functions in a calculation. -/
def unknownFunctions (c : List CalcItem) : Nat := c.countP (·.unknownFunction)

/-- The calculation in a parameter of a step. -/
def ParamDef.calc : ParamDef → List CalcItem
  | .variableName _ => []
  | .result c => c
  | .value c => c

end BurnFm.Spec
