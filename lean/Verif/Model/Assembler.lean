import Verif.Model.Encoding
import Verif.Model.DbChar
import Verif.Model.File

/-! Model of `src/compile/assembler.rs` and `src/compile/header.rs`. Terminal output is left out. -/

namespace BurnFm

/-- src/compile/header.rs:1-136 `HEADER_INIT`, 4095 bytes, with its long runs of equal bytes written as
`replicate`. -/
def headerInit : Bytes :=
  [0, 1, 0, 0, 0, 2, 0, 1, 0, 5, 0, 2, 0, 2, 192, 72, 66, 65, 77, 55, 0, 0, 16] ++ List.replicate 496 0 ++
  [1, 0, 30, 0, 14, 0, 72, 66, 65, 77, 50, 49, 50, 53, 74, 65, 78, 49, 49, 193, 2, 72, 8, 80, 114, 111, 32, 49,
   50, 46, 48, 192, 192] ++ List.replicate 1496 0 ++ [172] ++ List.replicate 7 0 ++ [170, 56] ++
  List.replicate 1014 0 ++ [69, 65, 70, 73, 58, 82, 67, 13, 82, 44, 98, 108, 97, 110, 107, 47, 13] ++
  List.replicate 999 32 ++ [13, 67, 82, 58, 73, 70, 65]

/-- src/compile/assembler.rs:8-13 `Assembler`; `local_idx` is only ever set to 0 and is left out. -/
structure Asm where
  idx : Nat
  buf : Bytes
  deriving DecidableEq

/-- `self.buffer[self.idx] = b; self.idx += 1;` -/
def Asm.put (s : Asm) (b : UInt8) : Res Asm :=
  if s.idx < s.buf.length then .ok { idx := s.idx + 1, buf := s.buf.set s.idx b } else .error .index

/-- `self.buffer.splice(self.idx..self.idx+d.len(), d); self.idx += d.len();` -/
def Asm.splice (s : Asm) (d : Bytes) : Res Asm :=
  if s.idx + d.length ≤ s.buf.length then
    .ok { idx := s.idx + d.length, buf := s.buf.take s.idx ++ d ++ s.buf.drop (s.idx + d.length) }
  else .error .index

/-- `len as u8` -/
def lenByte (d : Bytes) : UInt8 := UInt8.ofNat d.length

/-- src/compile/assembler.rs:25-28 `emit_noop`. -/
def emitNoop (s : Asm) : Res Asm := s.put 0x80

/-- src/compile/assembler.rs:32-40 `calc_small_kv_ins`. -/
def calcSmallKvIns (val : Bytes) : UInt8 :=
  let code := UInt8.ofNat ((val.length + 1 + 1) / 2)
  if code > 0x5 then 0x6 else code

/-- src/compile/assembler.rs:42-49 `emit_simple_data_1b`; the four bytes after the data are skipped. -/
def emitData1B (s : Asm) (data : Bytes) : Res Asm := do
  let s ← s.put 0x1b
  let s ← s.put (lenByte data)
  let s ← s.splice data
  return { s with idx := s.idx + 2 * (0x1b - 0x19) }

/-- src/compile/assembler.rs:55-72 `emit_long_kv`. -/
def emitLongKv (s : Asm) (key val : Bytes) : Res Asm := do
  let s ← s.put 0x1e
  let s ← s.put (lenByte key)
  let s ← s.splice key
  let s ← s.put (lenByte val)
  s.splice val

/-- src/compile/assembler.rs:74-87 `emit_simple_kv_e`. -/
def emitKvE (s : Asm) (key : UInt32) (val : Bytes) : Res Asm := do
  let s ← s.put 0x0e
  let s ← s.splice (putPathInt key)
  let s ← s.put (lenByte val)
  s.splice val

/-- src/compile/assembler.rs:89-118 `emit_simple_kv`. -/
def emitKv (s : Asm) (key : UInt8) (val : Bytes) : Res Asm := do
  let ins := if key = 16 then 0x6 else if key = 216 then 0x6 else calcSmallKvIns val
  let s ← s.put ins
  if 0x01 ≤ ins ∧ ins ≤ 0x05 then
    let s ← s.put key
    s.splice val
  else if ins = 0x6 then
    let s ← s.put key
    let s ← s.put (lenByte val)
    s.splice val
  else return s

/-- src/compile/assembler.rs:120-123 `pop_directory`. -/
def emitPop (s : Asm) : Res Asm := s.put 0x40

/-- src/compile/assembler.rs:125-140 `push_directory`. -/
def emitPush (s : Asm) (dir : UInt32) : Res Asm := do
  let d := putPathInt dir
  let ins := if d.length = 1 then 0x20 else if d.length = 2 then 0x28 else 0x48
  let s ← s.put ins
  let s ← s.splice d
  emitNoop s

/-- src/compile/assembler.rs:142-146 `append_blank_chunk`. -/
def appendBlank (p : Profile) (s : Asm) : Res Asm := do
  let buf := s.buf ++ List.replicate 4096 0
  let i ← usub p buf.length 4095
  return { idx := i, buf := buf }

/-- src/compile/assembler.rs:148-158, the value written for key 3 (6 bytes). -/
def initBlob3 : Bytes :=
  [120, 104, 106, 116, 107, 120]

/-- src/compile/assembler.rs:148-158, the value written for key 5 (2 bytes). -/
def initBlob5 : Bytes :=
  [4, 184]

/-- src/compile/assembler.rs:148-158, the value written for key 6 (46 bytes). -/
def initBlob6 : Bytes :=
  [1, 10, 4, 179, 4, 115, 8, 179, 0, 19, 0, 0, 3, 124, 4, 0, 18, 5, 66, 128, 2, 0, 0, 0, 0, 66, 144, 0, 0,
   0, 8, 2, 0, 0, 0, 15, 0, 0, 0, 0, 0, 0, 0, 0, 0, 1]

/-- src/compile/assembler.rs:148-158, the value written for key 8 (224 bytes). -/
def initBlob8 : Bytes :=
  [78, 152, 78, 152, 78, 152, 0, 0, 0, 0, 0, 0, 0, 0, 0, 0, 0, 0, 0, 0, 0, 0, 0, 0, 0, 0, 0, 0, 0, 0, 0, 0,
   0, 0, 0, 0, 0, 0, 0, 0, 0, 0, 23, 10, 10, 40, 53, 122, 104, 106, 116, 107, 116, 104, 0, 0, 0, 0, 0, 0,
   0, 0, 0, 0, 0, 0, 0, 0, 0, 0, 0, 0, 0, 0, 0, 0, 0, 0, 0, 0, 0, 0, 0, 0, 0, 0, 0, 0, 0, 0, 0, 0, 0, 0, 0,
   0, 0, 0, 0, 0, 0, 0, 0, 0, 0, 0, 0, 0, 0, 0, 0, 0, 0, 0, 0, 0, 0, 0, 0, 0, 0, 0, 0, 0, 0, 0, 0, 0, 0, 1,
   0, 0, 0, 2, 8, 107, 122, 107, 110, 116, 107, 116, 107, 0, 0, 0, 21, 6, 107, 122, 107, 110, 116, 111, 0,
   0, 0, 0, 0, 0, 0, 0, 0, 0, 0, 0, 0, 0, 0, 0, 0, 0, 0, 0, 0, 0, 0, 0, 0, 0, 0, 0, 0, 0, 0, 0, 0, 0, 0, 0,
   0, 0, 0, 0, 0, 0, 0, 0, 0, 0, 0, 0, 0, 0, 0, 0, 0, 0, 0, 0, 0, 0, 0, 0, 0, 0, 0, 0, 0, 0, 0, 0, 0, 0]

/-- src/compile/assembler.rs:148-158, the value written for key 9 (122 bytes). -/
def initBlob9 : Bytes :=
  [0, 0, 0, 0, 11, 251, 83, 44, 0, 0, 0, 0, 11, 251, 83, 44, 0, 0, 0, 0, 11, 251, 83, 44, 0, 0, 0, 0, 0, 0,
   0, 0, 0, 0, 0, 0, 23, 9, 104, 106, 107, 106, 104, 106, 104, 106, 110, 0, 0, 0, 0, 0, 0, 0, 0, 0, 0, 0,
   0, 0, 0, 0, 0, 0, 0, 0, 0, 0, 0, 0, 0, 0, 0, 0, 0, 0, 0, 0, 0, 0, 0, 0, 0, 0, 0, 0, 0, 0, 0, 0, 0, 0, 0,
   0, 0, 0, 0, 0, 0, 0, 0, 0, 0, 0, 0, 0, 0, 0, 0, 0, 0, 0, 0, 0, 0, 0, 0, 0, 0, 0, 0, 0]

/-- src/compile/assembler.rs:148-158, the value written for key 11 (234 bytes). -/
def initBlob11 : Bytes :=
  [0, 8, 7, 60, 51, 54, 63, 55, 59, 57, 98, 65, 50, 218, 23, 59, 57, 51, 52, 46, 53, 41, 50, 122, 18, 30,
   218, 27, 42, 42, 54, 51, 57, 59, 46, 51, 53, 52, 41, 218, 28, 51, 54, 63, 23, 59, 49, 63, 40, 122, 10,
   40, 53, 116, 59, 42, 42, 218, 25, 53, 52, 46, 63, 52, 46, 41, 218, 8, 63, 41, 53, 47, 40, 57, 63, 41,
   218, 19, 52, 41, 46, 59, 54, 54, 63, 40, 218, 31, 34, 46, 63, 52, 41, 51, 53, 52, 41, 218, 30, 51, 57,
   46, 51, 53, 52, 59, 40, 51, 63, 41, 218, 12, 47, 49, 63, 52, 61, 54, 41, 50, 116, 55, 42, 40, 7, 60, 51,
   54, 63, 55, 59, 57, 90, 65, 50, 218, 23, 59, 57, 51, 52, 46, 53, 41, 50, 122, 18, 30, 218, 15, 41, 63,
   40, 41, 218, 55, 63, 40, 51, 55, 59, 49, 218, 22, 51, 56, 40, 59, 40, 35, 218, 27, 42, 42, 54, 51, 57,
   59, 46, 51, 53, 52, 122, 9, 47, 42, 42, 53, 40, 46, 218, 28, 51, 54, 63, 23, 59, 49, 63, 40, 218, 31,
   34, 46, 63, 52, 41, 51, 53, 52, 41, 218, 30, 51, 57, 46, 51, 53, 52, 59, 40, 51, 63, 41, 218, 8, 15, 41,
   63, 40, 116, 47, 42, 40]

/-- src/compile/assembler.rs:148-158, the value written for key 24 (34 bytes). -/
def initBlob24 : Bytes :=
  [0, 0, 4, 3, 1, 1, 0, 0, 2, 1, 2, 0, 1, 0, 0, 0, 1, 0, 0, 2, 0, 0, 0, 0, 0, 0, 0, 0, 0, 100, 0, 1, 0, 0]

/-- src/compile/assembler.rs:148-158 `emit_init_blobs`. -/
def emitInitBlobs (s : Asm) : Res Asm := do
  let s ← emitPush s 2
  let s ← emitKv s 3 initBlob3
  let s ← emitKv s 5 initBlob5
  let s ← emitKv s 6 initBlob6
  let s ← emitKv s 8 initBlob8
  let s ← emitKv s 9 initBlob9
  let s ← emitKv s 11 initBlob11
  let s ← emitKv s 24 initBlob24
  emitPop s

/-- `128 + *t.0 as u32` (src/compile/assembler.rs:192). -/
def tableDir (p : Profile) (id : Nat) : Res UInt32 :=
  let n := UInt32.ofNat id
  if 128 + n.toNat < 2 ^ 32 then .ok (128 + n)
  else match p with
    | .debug => .error .overflow
    | .release => .ok (128 + n)

/-- `(id as u32).to_be_bytes()` -/
def beBytes (id : Nat) : Bytes :=
  [UInt8.ofNat (id / 2 ^ 24), UInt8.ofNat (id / 2 ^ 16), UInt8.ofNat (id / 2 ^ 8), UInt8.ofNat id]

/-- src/compile/assembler.rs:161-199 `emit_table_metadata`. The three loops visit the tables in the
iteration order of the map. -/
def emitTableMetadata (p : Profile) (f : FmpFile) (s : Asm) : Res Asm := do
  let s ← emitPush s 3
  let s ← emitPush s 16
  let s ← emitPush s 1
  let s ← emitPush s 1
  let s ← f.tables.foldlM (fun s t => emitLongKv s (encodeText t.2.name ++ [0, 0, 0]) [2, 128, UInt8.ofNat t.1]) s
  let s ← emitPop s
  let s ← emitPush s 3
  let s ← f.tables.foldlM (fun s t => do
    let key ← putInt p t.1
    emitLongKv s key (beBytes t.1)) s
  let s ← emitPop s
  let n ← putInt p f.tables.length
  let s ← emitKv s 4 n
  let s ← emitKv s 216 (fmStringEncrypt t!"hello")
  let s ← emitKvE s 129 [59, 62, 55, 51, 52]
  let s ← emitKvE s 130 [59, 62, 55, 51, 52]
  let s ← emitPush s 5
  let s ← f.tables.foldlM (fun s t => do
    let d ← tableDir p t.1
    let s ← emitPush s d
    emitPop s) s
  let s ← emitPop s
  let s ← emitPop s
  emitPop s

/-- src/compile/assembler.rs:201-224 `emit_relationship_data`. -/
def emitRelationshipData (p : Profile) (f : FmpFile) (s : Asm) : Res Asm := do
  let s ← emitPush s 17
  let s ← emitPush s 1
  let s ← emitKv s 0 [3, 208, 0, 9]
  let s ← emitPush s 1
  let s ← f.tableOccurrences.foldlM (fun s t => emitData1B s (encodeText (t.2.name ++ ['\x00', '\x00']))) s
  let s ← emitPop s
  let s ← emitPush s 3
  let s ← f.tableOccurrences.foldlM (fun s t => do
    let n ← putInt p t.1
    emitData1B s n) s
  let s ← emitPop s
  let s ← emitPush s 8
  let s ← emitPop s
  let s ← emitPop s
  let s ← emitPop s
  emitPop s

/-- src/compile/assembler.rs:226-234 `emit_layout_data`. -/
def emitLayoutData (f : FmpFile) (s : Asm) : Res Asm := do
  let s ← emitPush s 4
  let s ← emitPush s 1
  let s ← emitKv s 0 [1, UInt8.ofNat f.layouts.length]
  let s ← emitPush s 5
  let s ← emitPop s
  let s ← emitPop s
  emitPop s

/-- src/compile/assembler.rs:236-239, 256-260, 262-265, 267-270, 272-275: `emit_theme_data` (6),
`emit_security_data` (23), `emit_value_list_data` (33, never called), `emit_font_data` (25),
`emit_toolbar_data` (65): enter and leave a directory. -/
def emitEmptyDir (dir : UInt32) (s : Asm) : Res Asm := do
  let s ← emitPush s dir
  emitPop s

/-- src/compile/assembler.rs:241-254 `emit_script_data`; the loop calls `emit_simple_data`, which does
nothing (lines 51-53). -/
def emitScriptData (f : FmpFile) (s : Asm) : Res Asm := do
  let s ← emitPush s 17
  let s ← emitPush s 1
  let s ← emitKv s 0 [1, UInt8.ofNat f.scripts.length]
  let s ← emitPush s 1
  let s ← emitPop s
  let s ← emitPop s
  emitPop s

/-- `self.buffer.splice(self.idx+8..self.idx+12, n.to_be_bytes())` -/
def setNext (n : Nat) (s : Asm) : Res Asm := do
  let t ← Asm.splice { s with idx := s.idx + 8 } (beBytes n)
  return { idx := s.idx, buf := t.buf }

/-- src/compile/assembler.rs:294-304, the part of `assemble_fmp12` that writes chunks. -/
def emitSections (p : Profile) (f : FmpFile) (s : Asm) : Res Asm := do
  let s ← emitNoop s
  let s ← emitInitBlobs s
  let s ← emitTableMetadata p f s
  let s ← emitRelationshipData p f s
  let s ← emitLayoutData f s
  let s ← emitEmptyDir 6 s
  let s ← emitScriptData f s
  let s ← emitEmptyDir 23 s
  let s ← emitEmptyDir 6 s
  let s ← emitEmptyDir 25 s
  emitEmptyDir 65 s

/-- src/compile/assembler.rs:281-310 `assemble_fmp12`, for a fresh assembler (empty buffer) whose file is the
schema it is given, as in src/main.rs. Returns the buffer. -/
def assemble (p : Profile) (f : FmpFile) : Res Bytes := do
  let nameHeader := utf8 (f.name ++ ['/'])
  let s ← Asm.splice { idx := 3082, buf := headerInit } nameHeader
  let s ← appendBlank p s
  let s ← setNext 4 s
  let s ← appendBlank p s
  let s ← setNext 3 s
  let s := { s with idx := s.idx + 20 }
  let s ← emitSections p f s
  let s ← appendBlank p s
  let s ← setNext 4 s
  let s := { s with idx := s.idx + 20 }
  let s ← appendBlank p s
  let s ← setNext 0 s
  return s.buf

end BurnFm
