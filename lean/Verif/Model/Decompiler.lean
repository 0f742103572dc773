import Verif.Model.Chunk
import Verif.Model.DbChar
import Verif.Model.File

/-! Model of `src/decompile/decompiler.rs`, `src/decompile/sector.rs` and `SourceFileLocation::from_bytes`
(`src/component.rs`). Terminal output is left out. -/

namespace BurnFm

/-- src/decompile/decompiler.rs:18-139, the opcodes that only print a fixed text. -/
def calcText (c : UInt8) : Option Str :=
  if c = 0x4 then some t!"("
  else if c = 0x5 then some t!")"
  else if c = 0x2d then some t!"Abs"
  else if c = 0x9b then some t!"Get"
  else if c = 0x9d then some t!"Acos"
  else if c = 0x25 then some t!"+"
  else if c = 0x26 then some t!"-"
  else if c = 0x27 then some t!"*"
  else if c = 0x28 then some t!"/"
  else if c = 0x41 then some t!"<"
  else if c = 0x43 then some t!"<="
  else if c = 0x44 then some t!"=="
  else if c = 0x46 then some t!"!="
  else if c = 0x47 then some t!">="
  else if c = 0x49 then some t!">"
  else if c = 0x50 then some t!"&"
  else if c = 0xC then some t!" "
  else none

/-- src/decompile/decompiler.rs:36-52, the argument of `Get`. -/
def calcGetName (c : UInt8) : Str :=
  if c = 0x1d then t!"CurrentTime"
  else if c = 0x20 then t!"AccountName"
  else if c = 0x49 then t!"DocumentsPath"
  else if c = 0x5d then t!"DocumentsPathListing"
  else []

/-- The decimal digits of a number (`to_string`). -/
def decimal (n : Nat) : Str := (toString n).toList

/-- src/decompile/decompiler.rs:74-76: each byte is pushed `as char`, and the UTF-8 bytes of the result are
decrypted. -/
def calcDecrypt (raw : Bytes) : Str := fmStringDecrypt (utf8 (raw.map fun b => Char.ofNat b.toNat))

/-- src/decompile/decompiler.rs:18-139 `decompile_calculation`. -/
def decompileCalculation : Bytes → Res Str
  | [] => .ok []
  | c :: rest =>
    match calcText c with
    | some t => do return t ++ (← decompileCalculation rest)
    | none =>
      if c = 0x9c then
        match rest with
        | [] => .error .unwrap
        | k :: rest => do return calcGetName k ++ (← decompileCalculation rest)
      else if c = 0xfb then
        match rest with
        | [] => .error .unwrap
        | k :: rest => do return (if k = 0x3 then t!"Char" else []) ++ (← decompileCalculation rest)
      else if c = 0x10 then
        match rest[8]? with
        | none => .error .unwrap
        | some b => do return decimal b.toNat ++ (← decompileCalculation (rest.drop 19))
      else if c = 0x13 ∨ c = 0x1a then
        match rest with
        | [] => .error .unwrap
        | n :: rest =>
          if n.toNat ≤ rest.length then do
            let s := calcDecrypt (rest.take n.toNat)
            let s := if c = 0x13 then ['"'] ++ s ++ ['"'] else s
            return s ++ (← decompileCalculation (rest.drop n.toNat))
          else .error .unwrap
      else decompileCalculation rest
termination_by b => b.length
decreasing_by all_goals (simp; try omega)

/-- src/component.rs:225-258, position of the bytes 65, 50 in `body`. -/
def findMarker : Bytes → Option Nat
  | a :: b :: rest => if a = 65 ∧ b = 50 then some 0 else (findMarker (b :: rest)).map (· + 1)
  | _ => none

/-- src/component.rs:235-246, the byte substitutions in a source path. -/
def pathSubst (b : UInt8) : Bytes :=
  if b = 50 then [] else if b = 65 then [96] else if b = 218 then [117] else if b = 219 then [116, 116] else [b]

/-- src/component.rs:225-258 `SourceFileLocation::from_bytes`. -/
def sourceFromBytes (p : Profile) (bytes : Bytes) : Res SourceLocation := do
  let _ ← slice bytes 0 4
  let body ← slice bytes 4 bytes.length
  let start ← usub p ((findMarker body).getD 0) 1
  let len ← idx body start
  let pathBytes ← slice body (start + 3) (start + 3 + len.toNat)
  let fileStart := start + 3 + len.toNat + 1
  let fileLen ← idx body (fileStart - 1)
  let file ← slice body fileStart (fileStart + fileLen.toNat)
  let ty ← slice body 1 start
  return { sourceType := fmStringDecrypt ty, path := fmStringDecrypt (pathBytes.flatMap pathSubst),
           filename := fmStringDecrypt file }

/-- src/decompile/sector.rs:5-12 `Sector`, without the payload and the unused chunk list. -/
structure Sector where
  deleted : Bool
  level : Nat
  previous : Nat
  next : Nat
  deriving DecidableEq, Repr

/-- src/decompile/sector.rs:33-42 `get_sector`, applied to `&buffer[start..]`. -/
def getSector (buf : Bytes) (start : Nat) : Res Sector := do
  let s ← slice buf start buf.length
  let d ← idx s 0
  let l ← idx s 1
  let prev ← slice s 4 8
  let next ← slice s 8 12
  let _ ← slice s 20 s.length
  return { deleted := d ≠ 0, level := l.toNat, previous := getInt prev, next := getInt next }

/-- The locals of `decompile_fmp12_file` that the chunk loop updates (src/decompile/decompiler.rs:226-249):
`fmp_file`, `script_segments` and `data_source_names`. -/
structure DState where
  file : FmpFile := {}
  segments : HMap (HMap Bytes) := []
  sources : List Str := []
  deriving DecidableEq, Repr

/-- The arms of the `match` on the path (src/decompile/decompiler.rs:270-746). -/
inductive Place where
  | relationship
  | occurrence
  | join (rel : Nat)
  | layout (id : Nat)
  | field (dir field : Nat)
  | tableMeta (dir : Nat)
  | segment (script : Nat)
  | stepExpr (script step : Nat)
  | stepName (script step : Nat)
  | stepValue (script step : Nat)
  | script (id : Nat)
  | scriptMeta (id : Nat)
  | sourceNames
  | source (id : Nat)
  | other
  deriving DecidableEq, Repr

/-- src/decompile/decompiler.rs:270-746, the patterns in order. Rust compares decimal texts, the model
numbers. The arms `["4", "5", ..]`, `["3", "16", "1", "1"]` and `["32", "1", "3"]` do nothing, like `_`. -/
def classify (path : DirPath) : Place :=
  let at_ := fun i => path.getD i 0
  if path = [3, 17, 5, 0, 251] then .relationship
  else if path.take 4 = [3, 17, 5, 0] then .occurrence
  else if path.length = 5 ∧ path.take 3 = [3, 251, 5] ∧ at_ 4 = 3 then .join (at_ 3)
  else if path.take 2 = [4, 5] then .other
  else if path.take 3 = [4, 1, 7] ∧ 4 ≤ path.length then .layout (at_ 3)
  else if path.length = 4 ∧ at_ 1 = 3 ∧ at_ 2 = 5 then .field (at_ 0) (at_ 3)
  else if path = [3, 16, 1, 1] then .other
  else if path.length = 4 ∧ path.take 3 = [3, 16, 5] then .tableMeta (at_ 3)
  else if path.length = 4 ∧ path.take 2 = [17, 5] ∧ at_ 3 = 4 then .segment (at_ 2)
  else if path.length = 7 ∧ path.take 2 = [17, 5] ∧ at_ 3 = 5 ∧ at_ 5 = 128 ∧ at_ 6 = 5 then
    .stepExpr (at_ 2) (at_ 4)
  else if path.length = 6 ∧ path.take 2 = [17, 5] ∧ at_ 3 = 5 ∧ at_ 5 = 128 then .stepName (at_ 2) (at_ 4)
  else if path.length = 7 ∧ path.take 2 = [17, 5] ∧ at_ 3 = 5 ∧ at_ 5 = 129 ∧ at_ 6 = 5 then
    .stepValue (at_ 2) (at_ 4)
  else if path.take 2 = [17, 5] ∧ 3 ≤ path.length then .script (at_ 2)
  else if path.take 2 = [17, 1] ∧ 4 ≤ path.length then .scriptMeta (at_ 3)
  else if path = [32, 1, 1] then .sourceNames
  else if path = [32, 1, 3] then .other
  else if path.take 2 = [32, 5] ∧ 3 ≤ path.length then .source (at_ 2)
  else .other

/-- `chunk.data.unwrap_or(&[0])` -/
def dataOr (ch : Chunk) : Bytes := ch.data.getD [0]

/-- src/decompile/decompiler.rs:271-282. -/
def armRelationship (st : DState) (ch : Chunk) : Res DState :=
  if ch.ctype = .dataSimple then do
    let d ← unwrap ch.data
    let t2 ← idx d 2
    let rel : FRelationship := { table1 := st.file.tableOccurrences.length % 65536, table2 := t2.toNat }
    if st.file.relationships.any (fun e => e.2.table1 == rel.table2 && e.2.table2 == rel.table1) then return st
    else return { st with file := { st.file with
      relationships := st.file.relationships.insert (st.file.relationships.length + 1) rel } }
  else return st

/-- src/decompile/decompiler.rs:284-324. -/
def armOccurrence (st : DState) (ch : Chunk) : Res DState :=
  if ch.refSimple = some 2 then do
    let d ← unwrap ch.data
    let t ← idx d 6
    let _ ← idx d 2
    return { st with file := { st.file with
      tableOccurrences := st.file.tableOccurrences.insert (st.file.tableOccurrences.length + 1)
        { tableActual := t.toNat } } }
  else if ch.refSimple = some 16 then
    let k := st.file.tableOccurrences.length
    if st.file.tableOccurrences.contains k then
      return { st with file := { st.file with
        tableOccurrences := st.file.tableOccurrences.modify k ({ · with name := fmStringDecrypt (dataOr ch) }) } }
    else .error .unwrap
  else return st

/-- src/decompile/decompiler.rs:328-337. -/
def comparisonOf (b : UInt8) : Comparison :=
  if b = 1 then .notEqual else if b = 2 then .less else if b = 3 then .lessEqual
  else if b = 4 then .greater else if b = 5 then .greaterEqual else if b = 6 then .cartesian else .equal

/-- src/decompile/decompiler.rs:325-350. `get_path_int` of two bytes is at least 128. -/
def armJoin (p : Profile) (st : DState) (rel : Nat) (ch : Chunk) : Res DState :=
  if ch.refSimple = some 1 then do
    let d ← unwrap ch.data
    let c ← idx d 0
    let f1 ← usub p (getPathInt (← slice d 2 4)) 128
    let f2 ← usub p (getPathInt (← slice d 5 7)) 128
    let rels := st.file.relationships.modify rel
      ({ · with comparison := comparisonOf c, field1 := f1 % 65536, field2 := f2 % 65536 })
    return { st with file := { st.file with relationships := rels } }
  else return st

/-- src/decompile/decompiler.rs:355-389. -/
def armLayout (p : Profile) (st : DState) (id : Nat) (ch : Chunk) : Res DState :=
  if ch.ctype = .pathPush then
    return { st with file := { st.file with layouts := st.file.layouts.insert id {} } }
  else if ch.refSimple = some 2 ∧ st.file.layouts.contains id then do
    let d ← unwrap ch.data
    let b ← idx d 1
    let occ ← usub p b.toNat 128
    return { st with file := { st.file with layouts := st.file.layouts.modify id ({ · with tableOccurrence := occ }) } }
  else if ch.refSimple = some 16 ∧ st.file.layouts.contains id then do
    let d ← unwrap ch.data
    return { st with file := { st.file with layouts := st.file.layouts.modify id ({ · with name := fmStringDecrypt d }) } }
  else return st

/-- src/decompile/decompiler.rs:420-457 with src/metadata_constants.rs:3-7: which attribute of a field a key
sets. -/
def fieldSetter (key : Nat) (s : Str) : Option (FField → FField) :=
  if key = 2 then some ({ · with fieldType := s })
  else if key = 3 then some ({ · with description := s })
  else if key = 16 then some ({ · with name := s })
  else if key = 129 then some ({ · with createdByAccount := s })
  else if key = 130 then some ({ · with createdByUser := s })
  else none

/-- src/decompile/decompiler.rs:390-462. -/
def armField (st : DState) (dir field : Nat) (ch : Chunk) : Res DState :=
  if dir < 128 then return st
  else
    let t := dir - 128
    let k := field % 65536
    if ch.ctype = .pathPush then
      let tables := if st.file.tables.contains t then st.file.tables else st.file.tables.insert t {}
      return { st with file := { st.file with
        tables := tables.modify t (fun tb => { tb with fields := tb.fields.insert k {} }) } }
    else
      match fieldSetter (ch.refSimple.getD 0) (fmStringDecrypt (dataOr ch)) with
      | none => return st
      | some f =>
        match st.file.tables.get t with
        | none => .error .unwrap
        | some tb =>
          if tb.fields.contains k then
            return { st with file := { st.file with
              tables := st.file.tables.modify t (fun tb => { tb with fields := tb.fields.modify k f }) } }
          else .error .unwrap

/-- src/decompile/decompiler.rs:470-483; note that line 473 looks for the table under `x` and line 474 inserts
it under `x - 128`. -/
def armTableMeta (p : Profile) (st : DState) (dir : Nat) (ch : Chunk) : Res DState :=
  if ch.ctype = .pathPush then
    if st.file.tables.contains dir then return st
    else do
      let t ← usub p dir 128
      return { st with file := { st.file with tables := st.file.tables.insert t {} } }
  else if ch.refSimple.getD 0 = 16 then do
    let t ← usub p dir 128
    if st.file.tables.contains t then
      return { st with file := { st.file with
        tables := st.file.tables.modify t ({ · with name := fmStringDecrypt (dataOr ch) }) } }
    else .error .unwrap
  else return st

/-- src/decompile/decompiler.rs:485-498. -/
def armSegments (st : DState) (script : Nat) (ch : Chunk) : Res DState :=
  if ch.ctype = .pathPush then
    if st.segments.contains script then return st
    else return { st with segments := st.segments.insert script [] }
  else if ch.ctype = .dataSegment then do
    let n ← unwrap ch.segmentIdx
    if st.segments.contains script then do
      let d ← unwrap ch.data
      return { st with segments := st.segments.modify script (·.insert n.toNat d) }
    else .error .unwrap
  else return st

/-- Push a switch onto the first step of a list for which `f` holds. -/
def pushSwitch (f : ScriptStep → Bool) (s : Str) : List ScriptStep → List ScriptStep
  | [] => []
  | x :: xs => if f x then { x with switches := x.switches ++ [s] } :: xs else x :: pushSwitch f s xs

/-- Replace the steps of a script. -/
def DState.setSteps (st : DState) (script : Nat) (steps : List ScriptStep) : DState :=
  { st with file := { st.file with scripts := st.file.scripts.modify script ({ · with instructions := steps }) } }

/-- src/decompile/decompiler.rs:499-532. -/
def armStepExpr (st : DState) (script step : Nat) (ch : Chunk) : Res DState :=
  if ch.refSimple.getD 0 = 5 then do
    let sc ← unwrap (st.file.scripts.get script)
    match sc.instructions.find? (fun i => i.index == step) with
    | none => .error .index
    | some i =>
      if i.opcode = .setVariable then
        return st.setSteps script (pushSwitch (fun i => i.index == step) (fmStringDecrypt (dataOr ch)) sc.instructions)
      else if i.opcode = .exitScript then do
        let d ← unwrap ch.data
        let text ← decompileCalculation d
        return st.setSteps script (pushSwitch (fun i => i.index == step) text sc.instructions)
      else return st
  else return st

/-- src/decompile/decompiler.rs:533-562. -/
def armStepName (st : DState) (script step : Nat) (ch : Chunk) : Res DState :=
  if ch.refSimple.getD 0 = 1 then do
    let sc ← unwrap (st.file.scripts.get script)
    match sc.instructions.find? (fun i => i.index == step) with
    | none => .error .index
    | some i =>
      if i.opcode = .setVariable then
        return st.setSteps script (pushSwitch (fun i => i.index == step) (fmStringDecrypt (dataOr ch)) sc.instructions)
      else return st
  else return st

/-- src/decompile/decompiler.rs:564-582; line 578 unwraps the script for every chunk. -/
def armStepValue (st : DState) (script step : Nat) (ch : Chunk) : Res DState :=
  if ch.refSimple.getD 0 = 5 then do
    let d ← unwrap ch.data
    let text ← decompileCalculation d
    let sc ← unwrap (st.file.scripts.get script)
    match sc.instructions.find? (fun i => i.index == step) with
    | none => .error .index
    | some _ => return st.setSteps script (pushSwitch (fun i => i.index == step) text sc.instructions)
  else if st.file.scripts.contains script then return st
  else .error .unwrap

/-- `chunks(28)` -/
def chunks28 (b : Bytes) : List Bytes :=
  if _h : b = [] then [] else b.take 28 :: chunks28 (b.drop 28)
termination_by b.length
decreasing_by cases b with
  | nil => contradiction
  | cons => simp; omega

/-- src/decompile/decompiler.rs:591-607, 620-636, 760-772: the step encoded by a record, if its opcode is
known. -/
def decodeStep (scripts : HMap FScript) (ins : Bytes) : Res (Option ScriptStep) := do
  let b ← idx ins 21
  let op ← idx instructionMap b.toNat
  match op with
  | none => return none
  | some op =>
    let switches ← (if op = .performScript then do
        let k ← idx ins 8
        let sc ← unwrap (scripts.get k.toNat)
        return [sc.name]
      else return [] : Res (List Str))
    let l ← idx ins 0
    let n ← slice ins 2 (l.toNat + 1)
    return some { opcode := op, index := getPathInt n, switches := switches }

/-- `Vec::insert` -/
def insertAt {α : Type} (xs : List α) (n : Nat) (x : α) : Res (List α) :=
  if n ≤ xs.length then .ok (xs.take n ++ x :: xs.drop n) else .error .index

/-- src/decompile/decompiler.rs:583-653. -/
def armScript (st : DState) (id : Nat) (ch : Chunk) : Res DState :=
  if ch.ctype = .pathPop ∨ ch.ctype = .pathPush then return st
  else if ch.segmentIdx = some 4 then do
    let d ← unwrap ch.data
    (chunks28 d).foldlM (fun st ins =>
      if 21 ≤ ins.length then do
        match ← decodeStep st.file.scripts ins with
        | none => return st
        | some step =>
          let sc ← unwrap (st.file.scripts.get id)
          let steps ← insertAt sc.instructions step.index step
          return st.setSteps id steps
      else return st) st
  else if ch.refSimple = some 4 then do
    let d ← unwrap ch.data
    (chunks28 d).foldlM (fun st ins =>
      if 21 ≤ ins.length then do
        match ← decodeStep st.file.scripts ins with
        | none => return st
        | some step =>
          let sc ← unwrap (st.file.scripts.get id)
          return st.setSteps id (sc.instructions ++ [step])
      else return st) st
  else return st

/-- src/decompile/decompiler.rs:656-687. -/
def armScriptMeta (st : DState) (id : Nat) (ch : Chunk) : Res DState :=
  if ch.ctype = .refSimple ∧ ch.refSimple = some 16 then do
    let d ← unwrap ch.data
    if st.file.scripts.contains id then
      return { st with file := { st.file with scripts := st.file.scripts.modify id ({ · with name := fmStringDecrypt d }) } }
    else return { st with file := { st.file with scripts := st.file.scripts.insert id { name := fmStringDecrypt d } } }
  else return st

/-- src/decompile/decompiler.rs:689-697. -/
def armSourceNames (st : DState) (ch : Chunk) : Res DState :=
  if ch.ctype = .dataSimple then do
    let d ← unwrap ch.data
    let s ← decodeBytes d
    return { st with sources := st.sources ++ [s] }
  else return st

/-- src/decompile/decompiler.rs:707-743. -/
def armSource (p : Profile) (st : DState) (id : Nat) (ch : Chunk) : Res DState :=
  if ch.ctype = .pathPush then do
    let d ← unwrap ch.data
    match st.sources with
    | [] => return st
    | s :: rest =>
      let ds := st.file.dataSources.insert (getInt d) { name := s }
      return { st with sources := rest, file := { st.file with dataSources := ds } }
  else if ch.ctype = .refSimple then do
    let k ← unwrap ch.refSimple
    if k = 130 then do
      let d ← unwrap ch.data
      if ch.code = 0x6 then
        let loc ← sourceFromBytes p d
        return { st with file := { st.file with dataSources := st.file.dataSources.modify id ({ · with location := loc }) } }
      else
        return { st with file := { st.file with
          dataSources := st.file.dataSources.modify id ({ · with createdByUser := fmStringDecrypt d }) } }
    else return st
  else return st

/-- src/decompile/decompiler.rs:270-746, the body of the chunk loop after decoding. -/
def dispatch (p : Profile) (st : DState) (path : DirPath) (ch : Chunk) : Res DState :=
  match classify path with
  | .relationship => armRelationship st ch
  | .occurrence => armOccurrence st ch
  | .join rel => armJoin p st rel ch
  | .layout id => armLayout p st id ch
  | .field dir field => armField st dir field ch
  | .tableMeta dir => armTableMeta p st dir ch
  | .segment script => armSegments st script ch
  | .stepExpr script step => armStepExpr st script step ch
  | .stepName script step => armStepName st script step ch
  | .stepValue script step => armStepValue st script step ch
  | .script id => armScript st id ch
  | .scriptMeta id => armScriptMeta st id ch
  | .sourceNames => armSourceNames st ch
  | .source id => armSource p st id ch
  | .other => .ok st

/-- src/decompile/decompiler.rs:262-747, the chunk loop of one sector; `none` when the fuel runs out. -/
def sectorLoop (p : Profile) (buf : Bytes) (start bound : Nat) : Nat → Nat → DirPath → DState → Res (Option DState)
  | 0, _, _, _ => .ok none
  | fuel + 1, off, path, st =>
    if off < bound then do
      match ← getChunk p buf off path start with
      | .invalid => .error .unwrap
      | .ok ch off' path' =>
        let st' ← dispatch p st path' ch
        sectorLoop p buf start bound fuel off' path' st'
    else .ok (some st)

/-- src/decompile/decompiler.rs:251-749, the loop over sectors. The vector `sectors` has `nBlocks + 1` entries
and each entry is only read after it was written in the same iteration, so it is not kept. -/
def fileLoop (p : Profile) (buf : Bytes) (nBlocks : Nat) : Nat → Nat → DState → Res (Option DState)
  | 0, _, _ => .ok none
  | fuel + 1, i, st =>
    if i = 0 then .ok (some st)
    else do
      let start := i * 4096
      let sec ← getSector buf start
      if nBlocks < i then .error .index
      else
        match ← sectorLoop p buf start (start + 4096) fuel (start + 20) [] st with
        | none => return none
        | some st' => fileLoop p buf nBlocks fuel sec.next st'

/-- `BTreeMap` iteration: ascending keys. -/
def sortByKey {α : Type} (m : HMap α) : HMap α := m.mergeSort (fun a b => a.1 ≤ b.1)

/-- src/decompile/decompiler.rs:750-777, one script: its segments are joined and cut into records. -/
def assembleScript (st : DState) (script : Nat) (segs : HMap Bytes) : Res DState :=
  (chunks28 ((sortByKey segs).flatMap (·.2))).foldlM (fun st ins =>
    if ins.length < 28 then return st
    else do
      match ← decodeStep st.file.scripts ins with
      | none => return st
      | some step =>
        let sc ← unwrap (st.file.scripts.get script)
        return st.setSteps script (sc.instructions ++ [step])) st

/-- src/decompile/decompiler.rs:749-778. -/
def assembleScripts (st : DState) : Res FmpFile := do
  let st ← st.segments.foldlM (fun s e => assembleScript s e.1 e.2) st
  return st.file

/-- src/decompile/decompiler.rs:223-787 `decompile_fmp12_file` on the bytes of the file, with fuel for the
loops. `none` means that the fuel ran out. Allocation of the sector vector is taken to succeed. -/
def decompile (p : Profile) (buf : Bytes) (fuel : Nat) : Res (Option FmpFile) := do
  let first ← getSector buf 4096
  match ← fileLoop p buf first.next fuel 2 {} with
  | none => return none
  | some st => some <$> assembleScripts st

end BurnFm
