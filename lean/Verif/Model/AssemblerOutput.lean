import Verif.Model.Assembler

/-! The assembler with the lines it prints (`src/compile/assembler.rs`). The functions are those of `Model/Assembler`, with the
`println!`s of the code in their places. -/

namespace BurnFm

/-- A line the assembler prints. -/
inductive AsmLine where
  /-- src/compile/assembler.rs:80 `Pushing {:?}` -/
  | pushing (key : Bytes)
  /-- src/compile/assembler.rs:109 `Ins: {} -> key {} :: {:?} :: len {}`; the instruction is always 6 -/
  | value (key : UInt8) (val : Bytes) (len : UInt8)
  /-- src/compile/assembler.rs:133 `Ins: {:x}, dir: {:?}` -/
  | entering (ins : UInt8) (dir : Bytes)
  /-- src/compile/assembler.rs:181 `pushing {:?}` -/
  | table (id : Bytes)
  deriving DecidableEq, Repr

/-- The lines printed up to the end or to a panic, and the result. -/
structure Printed (α : Type) where
  lines : List AsmLine
  result : Res α

def Printed.andThen {α β : Type} (x : Printed α) (f : α → Printed β) : Printed β :=
  match x.result with
  | .ok a => ⟨x.lines ++ (f a).lines, (f a).result⟩
  | .error e => ⟨x.lines, .error e⟩

instance : Monad Printed where
  pure a := ⟨[], .ok a⟩
  bind := Printed.andThen

/-- A computation that prints nothing. -/
def unprinted {α : Type} (r : Res α) : Printed α := ⟨[], r⟩

/-- `println!` -/
def println (l : AsmLine) : Printed Unit := ⟨[l], .ok ()⟩

/-- src/compile/assembler.rs:74-87 `emit_simple_kv_e`. -/
def emitKvEP (s : Asm) (key : UInt32) (val : Bytes) : Printed Asm := do
  let s ← unprinted (s.put 0x0e)
  println (.pushing (putPathInt key))
  let s ← unprinted (s.splice (putPathInt key))
  let s ← unprinted (s.put (lenByte val))
  unprinted (s.splice val)

/-- src/compile/assembler.rs:89-118 `emit_simple_kv`. -/
def emitKvP (s : Asm) (key : UInt8) (val : Bytes) : Printed Asm := do
  let ins := if key = 16 then 0x6 else if key = 216 then 0x6 else calcSmallKvIns val
  let s ← unprinted (s.put ins)
  if 0x01 ≤ ins ∧ ins ≤ 0x05 then
    let s ← unprinted (s.put key)
    unprinted (s.splice val)
  else if ins = 0x6 then
    let s ← unprinted (s.put key)
    println (.value key val (lenByte val))
    let s ← unprinted (s.put (lenByte val))
    unprinted (s.splice val)
  else return s

/-- src/compile/assembler.rs:125-140 `push_directory`. -/
def emitPushP (s : Asm) (dir : UInt32) : Printed Asm := do
  let d := putPathInt dir
  let ins := if d.length = 1 then 0x20 else if d.length = 2 then 0x28 else 0x48
  println (.entering ins d)
  let s ← unprinted (s.put ins)
  let s ← unprinted (s.splice d)
  unprinted (emitNoop s)

/-- src/compile/assembler.rs:148-158 `emit_init_blobs`. -/
def emitInitBlobsP (s : Asm) : Printed Asm := do
  let s ← emitPushP s 2
  let s ← emitKvP s 3 initBlob3
  let s ← emitKvP s 5 initBlob5
  let s ← emitKvP s 6 initBlob6
  let s ← emitKvP s 8 initBlob8
  let s ← emitKvP s 9 initBlob9
  let s ← emitKvP s 11 initBlob11
  let s ← emitKvP s 24 initBlob24
  unprinted (emitPop s)

/-- src/compile/assembler.rs:161-199 `emit_table_metadata`. -/
def emitTableMetadataP (p : Profile) (f : FmpFile) (s : Asm) : Printed Asm := do
  let s ← emitPushP s 3
  let s ← emitPushP s 16
  let s ← emitPushP s 1
  let s ← emitPushP s 1
  let s ← f.tables.foldlM (fun s t => unprinted (emitLongKv s (encodeText t.2.name ++ [0, 0, 0]) [2, 128, UInt8.ofNat t.1])) s
  let s ← unprinted (emitPop s)
  let s ← emitPushP s 3
  let s ← f.tables.foldlM (fun s t => do
    let key ← unprinted (putInt p t.1)
    println (.table (beBytes t.1))
    unprinted (emitLongKv s key (beBytes t.1))) s
  let s ← unprinted (emitPop s)
  let n ← unprinted (putInt p f.tables.length)
  let s ← emitKvP s 4 n
  let s ← emitKvP s 216 (fmStringEncrypt t!"hello")
  let s ← emitKvEP s 129 [59, 62, 55, 51, 52]
  let s ← emitKvEP s 130 [59, 62, 55, 51, 52]
  let s ← emitPushP s 5
  let s ← f.tables.foldlM (fun s t => do
    let d ← unprinted (tableDir p t.1)
    let s ← emitPushP s d
    unprinted (emitPop s)) s
  let s ← unprinted (emitPop s)
  let s ← unprinted (emitPop s)
  unprinted (emitPop s)

/-- src/compile/assembler.rs:201-224 `emit_relationship_data`. -/
def emitRelationshipDataP (p : Profile) (f : FmpFile) (s : Asm) : Printed Asm := do
  let s ← emitPushP s 17
  let s ← emitPushP s 1
  let s ← emitKvP s 0 [3, 208, 0, 9]
  let s ← emitPushP s 1
  let s ← f.tableOccurrences.foldlM (fun s t => unprinted (emitData1B s (encodeText (t.2.name ++ ['\x00', '\x00'])))) s
  let s ← unprinted (emitPop s)
  let s ← emitPushP s 3
  let s ← f.tableOccurrences.foldlM (fun s t => do
    let n ← unprinted (putInt p t.1)
    unprinted (emitData1B s n)) s
  let s ← unprinted (emitPop s)
  let s ← emitPushP s 8
  let s ← unprinted (emitPop s)
  let s ← unprinted (emitPop s)
  let s ← unprinted (emitPop s)
  unprinted (emitPop s)

/-- src/compile/assembler.rs:226-234 `emit_layout_data`. -/
def emitLayoutDataP (f : FmpFile) (s : Asm) : Printed Asm := do
  let s ← emitPushP s 4
  let s ← emitPushP s 1
  let s ← emitKvP s 0 [1, UInt8.ofNat f.layouts.length]
  let s ← emitPushP s 5
  let s ← unprinted (emitPop s)
  let s ← unprinted (emitPop s)
  unprinted (emitPop s)

/-- src/compile/assembler.rs:236-239, 256-260, 262-265, 267-270, 272-275, as `emitEmptyDir`. -/
def emitEmptyDirP (dir : UInt32) (s : Asm) : Printed Asm := do
  let s ← emitPushP s dir
  unprinted (emitPop s)

/-- src/compile/assembler.rs:241-254 `emit_script_data`, as `emitScriptData`. -/
def emitScriptDataP (f : FmpFile) (s : Asm) : Printed Asm := do
  let s ← emitPushP s 17
  let s ← emitPushP s 1
  let s ← emitKvP s 0 [1, UInt8.ofNat f.scripts.length]
  let s ← emitPushP s 1
  let s ← unprinted (emitPop s)
  let s ← unprinted (emitPop s)
  unprinted (emitPop s)

/-- src/compile/assembler.rs:294-304, the part of `assemble_fmp12` that writes chunks. -/
def emitSectionsP (p : Profile) (f : FmpFile) (s : Asm) : Printed Asm := do
  let s ← unprinted (emitNoop s)
  let s ← emitInitBlobsP s
  let s ← emitTableMetadataP p f s
  let s ← emitRelationshipDataP p f s
  let s ← emitLayoutDataP f s
  let s ← emitEmptyDirP 6 s
  let s ← emitScriptDataP f s
  let s ← emitEmptyDirP 23 s
  let s ← emitEmptyDirP 6 s
  let s ← emitEmptyDirP 25 s
  emitEmptyDirP 65 s

/-- src/compile/assembler.rs:281-310 `assemble_fmp12`, as `assemble`. -/
def assembleP (p : Profile) (f : FmpFile) : Printed Bytes := do
  let nameHeader := utf8 (f.name ++ ['/'])
  let s ← unprinted (Asm.splice { idx := 3082, buf := headerInit } nameHeader)
  let s ← unprinted (appendBlank p s)
  let s ← unprinted (setNext 4 s)
  let s ← unprinted (appendBlank p s)
  let s ← unprinted (setNext 3 s)
  let s := { s with idx := s.idx + 20 }
  let s ← emitSectionsP p f s
  let s ← unprinted (appendBlank p s)
  let s ← unprinted (setNext 4 s)
  let s := { s with idx := s.idx + 20 }
  let s ← unprinted (appendBlank p s)
  let s ← unprinted (setNext 0 s)
  return s.buf

end BurnFm
