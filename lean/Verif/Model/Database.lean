import Verif.Model.File
import Verif.Model.Maps
import Verif.Model.Relation

/-! Model of `src/testing/database.rs`: tables of records, found sets, navigation, joins. -/

namespace BurnFm

/-- src/testing/database.rs:7-20 `Field`. -/
structure DField where
  name : Str := []
  records : List Str := []
  deriving DecidableEq, Repr

/-- src/testing/database.rs:22-34 `Table`. -/
structure DTable where
  name : Str := []
  fields : List DField := []
  deriving DecidableEq, Repr

/-- src/testing/database.rs:36-40 `add_blank_record`. -/
def DTable.addBlankRecord (t : DTable) : DTable :=
  { t with fields := t.fields.map (fun f => { f with records := f.records ++ [[]] }) }

/-- src/testing/database.rs:42-44 `get_records_n`. -/
def DTable.recordsN (t : DTable) : Res Nat := do
  let f ← idx t.fields 0
  pure f.records.length

/-- src/testing/database.rs:46-48 `delete_record`: `self.fields.remove(record_id)`, which panics when out of
range. -/
def DTable.deleteRecord (t : DTable) (recordId : Nat) : Res DTable :=
  if recordId < t.fields.length then .ok { t with fields := t.fields.eraseIdx recordId } else .error .index

/-- src/testing/database.rs:51-63 `Relationship` and `RelatedRecordSet` in one structure. -/
structure RelSet where
  joinBy : Comparison
  field1 : Nat
  field2 : Nat
  occurrence : Nat
  records : List Nat := []
  deriving DecidableEq, Repr

/-- src/testing/database.rs:65-81 `TableOccurrence`; `tablePtr` is a `u16`. -/
structure DOcc where
  foundSet : List Nat := []
  tablePtr : Nat := 0
  recordPtr : Nat := 0
  related : List RelSet := []
  deriving DecidableEq, Repr

/-- src/testing/database.rs:82-88 `get_current_record`; `none` is the `Err`. -/
def DOcc.currentRecord (o : DOcc) : Option Nat := o.foundSet[o.recordPtr]?

/-- src/testing/database.rs:94-111 `Database`; `handle` is a `u16`. -/
structure Database where
  occs : List DOcc := []
  indices : SMap Nat := []
  handle : Nat := 0
  tables : List DTable := []
  graph : Graph := Graph.new

/-- src/testing/database.rs:113-119 `clear_records`. -/
def Database.clearRecords (db : Database) : Database :=
  { db with tables := db.tables.map (fun t =>
      { t with fields := t.fields.map (fun f => { f with records := [] }) }) }

/-- `map.keys().max().unwrap_or(&0)` -/
def maxKey {α : Type} (m : HMap α) : Nat := ((m.map (·.1)).max?).getD 0

/-- `map.keys().min().unwrap_or(&0)` -/
def minKey {α : Type} (m : HMap α) : Nat := ((m.map (·.1)).min?).getD 0

/-- src/testing/database.rs:133-140: the fields of one table. Simplification: the vector is built before it
is stored in its table, the code stores the empty vector first and fills it in place. -/
def genFields (fields : HMap FField) : Res (List DField) :=
  fields.foldlM (fun acc e => setIdx acc e.1 { name := e.2.name, records := [] })
    (resize [] (maxKey fields + 1) {})

/-- src/testing/database.rs:124-141: the base tables. -/
def genTables (tables : List DTable) (file : FmpFile) : Res (List DTable) :=
  file.tables.foldlM (fun acc e => do
      let fields ← genFields e.2.fields
      setIdx acc e.1 { name := e.2.name, fields := fields })
    (resize tables (maxKey file.tables + 1) {})

/-- src/testing/database.rs:144-159: the table occurrences and their names. `*i as u16` truncates. -/
def genOccs (occs : List DOcc) (indices : SMap Nat) (file : FmpFile) : Res (List DOcc × SMap Nat) :=
  file.tableOccurrences.foldlM (fun acc e => do
      let os ← setIdx acc.1 e.1
        { foundSet := [], recordPtr := 0, tablePtr := e.2.tableActual, related := [] }
      pure (os, SMap.insert acc.2 e.2.name (e.1 % 65536)))
    (resize occs (maxKey file.tableOccurrences + 1) {}, indices)

/-- src/testing/database.rs:163-184: a relationship is stored in both occurrences. -/
def addRelSets (occs : List DOcc) (r : FRelationship) : Res (List DOcc) := do
  let os ← modIdx occs r.table1 (fun o => { o with related := o.related ++
    [{ joinBy := r.comparison, field1 := r.field1, field2 := r.field2, occurrence := r.table2 }] })
  modIdx os r.table2 (fun o => { o with related := o.related ++
    [{ joinBy := r.comparison, field1 := r.field2, field2 := r.field1, occurrence := r.table1 }] })

/-- src/testing/database.rs:162-186: the relationships. -/
def genRels (occs : List DOcc) (graph : Graph) (file : FmpFile) : Res (List DOcc × Graph) :=
  file.relationships.foldlM (fun acc e => do
      let os ← addRelSets acc.1 e.2
      pure (os, addRelation acc.2 e.2.table1 e.2.table2))
    (occs, graph)

/-- src/testing/database.rs:121-187 `generate_from_fmp12`. -/
def Database.generate (db : Database) (file : FmpFile) : Res Database := do
  let tables ← genTables db.tables file
  let (occs, indices) ← genOccs db.occs db.indices file
  let (occs, graph) ← genRels occs db.graph file
  pure { occs := occs, indices := indices, handle := minKey file.tableOccurrences % 65536,
         tables := tables, graph := graph }

/-- src/testing/database.rs:224-226 `get_occurrence`. -/
def Database.occurrence (db : Database) (h : Nat) : Res DOcc := idx db.occs h

/-- src/testing/database.rs:232-234 `get_occurrence_by_name`; indexing a `HashMap` panics on a missing key. -/
def Database.occurrenceByName (db : Database) (name : Str) : Res DOcc := do
  let i ← unwrap (SMap.get db.indices name)
  idx db.occs i

/-- src/testing/database.rs:240-242 `set_current_occurrence`. -/
def Database.setCurrentOccurrence (db : Database) (h : Nat) : Database := { db with handle := h }

/-- src/testing/database.rs:244-246 `get_current_occurrence`. -/
def Database.currentOcc (db : Database) : Res DOcc := idx db.occs db.handle

/-- src/testing/database.rs:248-250 `get_current_occurrence_mut` followed by an update. -/
def Database.modCurrentOcc (db : Database) (f : DOcc → DOcc) : Res Database := do
  let occs ← modIdx db.occs db.handle f
  pure { db with occs := occs }

/-- src/testing/database.rs:252-254 `get_current_table`. -/
def Database.currentTable (db : Database) : Res DTable := do
  let o ← db.currentOcc
  idx db.tables o.tablePtr

/-- src/testing/database.rs:261-270 `get_table`. -/
def Database.table (db : Database) (name : Str) : Option DTable := db.tables.find? (fun t => t.name == name)

/-- src/testing/database.rs:189-208 `create_record`. -/
def Database.createRecord (p : Profile) (db : Database) : Res Database := do
  let o ← db.currentOcc
  let t ← idx db.tables o.tablePtr
  let t' := t.addBlankRecord
  let tables ← setIdx db.tables o.tablePtr t'
  let k ← t'.recordsN
  let n ← usub p k 1
  pure { db with
    tables := tables
    occs := db.occs.map (fun x =>
      if x.tablePtr = o.tablePtr then
        { x with foundSet := x.foundSet ++ [n], recordPtr := (x.foundSet ++ [n]).length - 1 }
      else x) }

/-- `fields.iter().filter(|x| x.name == field).collect()[0]` -/
def firstField (fields : List DField) (name : Str) : Res DField := idx (fields.filter (fun f => f.name == name)) 0

/-- `fields.iter().enumerate().filter(|x| x.1.name == field).collect()[0].0` -/
def firstFieldIdx (fields : List DField) (name : Str) : Res Nat := do
  let e ← idx (fields.zipIdx.filter (fun e => e.1.name == name)) 0
  pure e.2

/-- src/testing/database.rs:210-222 `get_found_set_record_field`. -/
def Database.foundSetRecordField (db : Database) (field : Str) : Res Str := do
  let o ← db.currentOcc
  let t ← db.currentTable
  let cur ← idx o.foundSet o.recordPtr
  match t.fields.find? (fun f => f.name == field) with
  | some f => idx f.records cur
  | none => pure []

/-- src/testing/database.rs:287-294 `get_field_vals_for_current_table`. -/
def Database.fieldVals (db : Database) (field : Str) : Res (List Str) := do
  let t ← db.currentTable
  let f ← firstField t.fields field
  pure f.records

/-- src/testing/database.rs:296-312 `get_current_record_field`. -/
def Database.currentRecordField (db : Database) (field : Str) : Res Str := do
  let o ← db.currentOcc
  match o.currentRecord with
  | none => pure []
  | some id =>
    let t ← idx db.tables o.tablePtr
    let f ← firstField t.fields field
    idx f.records id

/-- src/testing/database.rs:314-329 `get_record_by_field`; `none` is the `Err`. -/
def Database.recordByField (db : Database) (field : Str) (recordId : Nat) : Res (Option Str) := do
  let o ← db.currentOcc
  match o.currentRecord with
  | none => pure none
  | some _ =>
    let t ← idx db.tables o.tablePtr
    let f ← firstField t.fields field
    let v ← idx f.records recordId
    pure (some v)

/-- src/testing/database.rs:349-366 `get_current_record_by_table_field`; `none` is the `Err`. -/
def Database.readCell (db : Database) (occ field : Str) : Res (Option Str) := do
  let o ← db.occurrenceByName occ
  match o.currentRecord with
  | none => pure none
  | some id =>
    let t ← idx db.tables o.tablePtr
    let j ← firstFieldIdx t.fields field
    let f ← idx t.fields j
    let v ← idx f.records id
    pure (some v)

/-- src/testing/database.rs:368-385 `get_current_record_by_table_field_mut` followed by an assignment of
`value` through the returned reference; `none` is the `Err`, where there is no reference to assign to. -/
def Database.writeCell (db : Database) (occ field value : Str) : Res (Option Database) := do
  let o ← db.occurrenceByName occ
  match o.currentRecord with
  | none => pure none
  | some id =>
    let t ← idx db.tables o.tablePtr
    let j ← firstFieldIdx t.fields field
    let f ← idx t.fields j
    let records ← setIdx f.records id value
    let fields ← setIdx t.fields j { f with records := records }
    let tables ← setIdx db.tables o.tablePtr { t with fields := fields }
    pure (some { db with tables := tables })

/-- src/testing/database.rs:433-442: whether two join values are related. The code compares with `<=` for
both `Less` and `LessEqual` and with `>=` for both `Greater` and `GreaterEqual`. -/
def joins (c : Comparison) (lhs rhs : Str) : Bool :=
  match c with
  | .equal => lhs == rhs
  | .notEqual => lhs != rhs
  | .less => strLe lhs rhs
  | .lessEqual => strLe lhs rhs
  | .greater => strLe rhs lhs
  | .greaterEqual => strLe rhs lhs
  | .cartesian => true

/-- src/testing/database.rs:430-450: the related records of one hop, each with its join value. -/
def relatedSet (c : Comparison) (current : List (Nat × Str)) (rhs : List Str) : List (Nat × Str) :=
  current.flatMap (fun l => (rhs.zipIdx.filter (fun r => joins c l.2 r.1)).map (fun r => (r.2, r.1)))

/-- src/testing/database.rs:398-456: the hops along the path; `none` is the `Err`. The argument `cur` is
`current_set`. -/
def hops (db : Database) : List (Nat × Nat) → List (Nat × Str) → Res (Option (List (Nat × Str)))
  | [], cur => pure (some cur)
  | (a, b) :: rest, cur => do
    let o ← db.occurrence a
    match o.currentRecord with
    | none => pure none
    | some rec =>
      match o.related.filter (fun x => x.occurrence == b) with
      | [] => pure none
      | rel :: _ =>
        let cur ← (if cur.isEmpty then do
            let t ← db.currentTable
            let f ← idx t.fields rel.field1
            let v ← idx f.records rec
            pure [(rec, v)]
          else pure cur : Res (List (Nat × Str)))
        let no ← db.occurrence b
        let nt ← idx db.tables no.tablePtr
        let rf ← idx nt.fields rel.field2
        let set := relatedSet rel.joinBy cur rf.records
        if set.isEmpty then pure none else hops db rest set

/-- `path.windows(2)` -/
def windows2 : List Nat → List (Nat × Nat)
  | a :: b :: rest => (a, b) :: windows2 (b :: rest)
  | _ => []

/-- src/testing/database.rs:458-465: read the target field of the first related record. -/
def targetField (db : Database) (path : List Nat) (field : Str) (set : List (Nat × Str)) : Res Str := do
  let n ← unwrap path.getLast?
  let o ← db.occurrence n
  let t ← idx db.tables o.tablePtr
  let f ← firstField t.fields field
  let r ← idx set 0
  idx f.records r.1

/-- src/testing/database.rs:387-466 `get_related_record_field`, the path search running for at most `fuel`
iterations. The outer `none` means that the fuel ran out; the inner `none` is the `Err`. -/
def Database.relatedField (fuel : Nat) (db : Database) (occ field : Str) : Res (Option (Option Str)) := do
  let target ← unwrap (SMap.get db.indices occ)
  match getPathFuel fuel db.graph db.handle target with
  | none => pure none
  | some none => pure (some none)
  | some (some path) =>
    match ← hops db (windows2 path) [] with
    | none => pure (some none)
    | some set =>
      let v ← targetField db path field set
      pure (some (some v))

/-- src/testing/database.rs:468-477 (`get_related_record_field_mut`), 490-499 (`get_nth_related_record_field`)
and 517-526 (`get_nth_related_record_field_mut`): the first statements of these three functions, which look
up the first cached related record. -/
def Database.cachedRelated (db : Database) (occ : Str) : Res Nat := do
  let target ← unwrap (SMap.get db.indices occ)
  let _ ← idx db.occs target
  let cur ← db.currentOcc
  let r ← idx ((cur.related.filter (fun x => x.occurrence == target)).take 1) 0
  idx r.records 0

/-- src/testing/database.rs:558-565 `reset_found_set`. -/
def Database.resetFoundSet (db : Database) : Res Database := do
  let t ← db.currentTable
  let f ← idx t.fields 0
  db.modCurrentOcc (fun o => { o with foundSet := List.range f.records.length })

/-- src/testing/database.rs:546-556 `update_found_set`. -/
def Database.updateFoundSet (db : Database) (records : List Nat) : Res Database :=
  if records.isEmpty then db.resetFoundSet
  else do
    let db ← db.resetFoundSet
    db.modCurrentOcc (fun o => { o with foundSet := records, recordPtr := 0 })

/-- src/testing/database.rs:567-574 `goto_record`. -/
def Database.gotoRecord (p : Profile) (db : Database) (n : Nat) : Res Database := do
  let o ← db.currentOcc
  if n ≥ o.foundSet.length then
    let l ← usub p o.foundSet.length 1
    db.modCurrentOcc (fun o => { o with recordPtr := l })
  else db.modCurrentOcc (fun o => { o with recordPtr := n })

/-- src/testing/database.rs:576-581 `goto_previous_record`. -/
def Database.gotoPrevious (db : Database) : Res Database :=
  db.modCurrentOcc (fun o => if o.recordPtr > 0 then { o with recordPtr := o.recordPtr - 1 } else o)

/-- src/testing/database.rs:583-588 `goto_next_record`. Simplification: `record_ptr += 1` cannot overflow
because it follows a comparison with a smaller-than test. -/
def Database.gotoNext (p : Profile) (db : Database) : Res Database := do
  let o ← db.currentOcc
  let l ← usub p o.foundSet.length 1
  db.modCurrentOcc (fun o => if o.recordPtr < l then { o with recordPtr := o.recordPtr + 1 } else o)

/-- src/testing/database.rs:590-593 `goto_first_record`. -/
def Database.gotoFirst (db : Database) : Res Database :=
  db.modCurrentOcc (fun o => { o with recordPtr := 0 })

/-- src/testing/database.rs:595-598 `goto_last_record`. -/
def Database.gotoLast (p : Profile) (db : Database) : Res Database := do
  let o ← db.currentOcc
  let l ← usub p o.foundSet.length 1
  db.modCurrentOcc (fun o => { o with recordPtr := l })

/-- Insert into a sorted list without duplicates. -/
def insertSorted (n : Nat) : List Nat → List Nat
  | [] => [n]
  | m :: ms => if n < m then n :: m :: ms else if n = m then m :: ms else m :: insertSorted n ms

/-- src/testing/test.rs:278-283: the records matching one criterion, `values.enumerate().filter(..)`. -/
def matchIds (values : List Str) (wanted : Str) : List Nat :=
  (values.zipIdx.filter (fun e => e.1 == wanted)).map (·.2)

/-- src/testing/test.rs:269-289, the search part of the `PerformFind` step. `criteria.0.split("::")[1]`
panics when the name has no `::`. Simplification: the `HashSet` that is then sorted is kept as a sorted
list without duplicates throughout. -/
def Database.findRecords (db : Database) (criteria : List (Str × Str)) : Res (List Nat) :=
  criteria.foldlM (fun acc c => do
      let field ← idx (splitCC c.1) 1
      let values ← db.fieldVals field
      pure ((matchIds values c.2).foldl (fun s i => insertSorted i s) acc))
    []

/-- src/testing/test.rs:269-291: search and `update_found_set`. -/
def Database.performFind (db : Database) (criteria : List (Str × Str)) : Res Database := do
  let records ← db.findRecords criteria
  db.updateFoundSet records

end BurnFm
