import Verif.Model.Instruction

/-! Model of `src/component.rs` and `src/file.rs`. Where a component has the fields `created_by_account` and
`create_by_user` that no modelled function reads, they are kept only for table fields and data sources. -/

namespace BurnFm

/-- A `HashMap<usize, α>` (or `BTreeMap`): association list with distinct keys. For a `HashMap` the order
of the list is the iteration order, which Rust does not specify; theorems quantify over it. For a
`BTreeMap` iteration sorts by key. -/
abbrev HMap (α : Type) := List (Nat × α)

/-- `map.get(&k)` -/
def HMap.get {α : Type} (m : HMap α) (k : Nat) : Option α := (m.find? (fun e => e.1 == k)).map (·.2)

/-- `map.contains_key(&k)` -/
def HMap.contains {α : Type} (m : HMap α) (k : Nat) : Bool := m.any (fun e => e.1 == k)

/-- `map.insert(k, v)`: replace the value of an existing key, or add the key. Simplification: a new key
goes to the end of the list; the real position is unspecified. -/
def HMap.insert {α : Type} (m : HMap α) (k : Nat) (v : α) : HMap α :=
  if m.contains k then m.map (fun e => if e.1 = k then (k, v) else e) else m ++ [(k, v)]

/-- `map.get_mut(&k)` followed by an update; the caller handles absence. -/
def HMap.modify {α : Type} (m : HMap α) (k : Nat) (f : α → α) : HMap α :=
  m.map (fun e => if e.1 = k then (e.1, f e.2) else e)

/-- src/component.rs:21-28 `FMComponentField`. -/
structure FField where
  dataType : Str := []
  description : Str := []
  name : Str := []
  fieldType : Str := []
  createdByAccount : Str := []
  createdByUser : Str := []
  deriving DecidableEq, Repr

/-- src/component.rs:64-70 `FMComponentTable`; `fields` is a `BTreeMap<u16, _>`. -/
structure FTable where
  name : Str := []
  fields : HMap FField := []
  init : Bool := false
  deriving DecidableEq, Repr

/-- src/component.rs:96-102 `FMComponentScript`. -/
structure FScript where
  name : Str := []
  arguments : List Str := []
  instructions : List ScriptStep := []
  deriving DecidableEq, Repr

/-- src/component.rs:43-49 `FMComponentTest`. -/
structure FTest where
  name : Str := []
  script : FScript := {}
  assertions : List Str := []
  deriving DecidableEq, Repr

/-- src/component.rs:117-123 `FMComponentTableOccurence`; `tableActual` is a `u16`. -/
structure FOccurrence where
  name : Str := []
  tableActual : Nat := 0
  tableActualName : Str := []
  deriving DecidableEq, Repr

/-- src/component.rs:138-146 `RelationComparison`. -/
inductive Comparison where
  | equal | notEqual | less | lessEqual | greater | greaterEqual | cartesian
  deriving DecidableEq, Repr

/-- src/component.rs:149-157 `FMComponentRelationship`; the numbers are `u16`. -/
structure FRelationship where
  table1 : Nat := 0
  table1Name : Str := []
  field1 : Nat := 0
  table2 : Nat := 0
  table2Name : Str := []
  field2 : Nat := 0
  comparison : Comparison := .equal
  deriving DecidableEq, Repr

/-- src/component.rs:174-179 `FMComponentLayout`. -/
structure FLayout where
  name : Str := []
  tableOccurrence : Nat := 0
  deriving DecidableEq, Repr

/-- src/component.rs:193-197 `FMComponentValueList`. -/
structure FValueList where
  name : Str := []
  deriving DecidableEq, Repr

/-- src/component.rs:210-214 `SourceFileLocation`. -/
structure SourceLocation where
  sourceType : Str := []
  path : Str := []
  filename : Str := []
  deriving DecidableEq, Repr

/-- src/component.rs:262-267 `FMComponentDataSource`. -/
structure FDataSource where
  name : Str := []
  location : SourceLocation := {}
  createdByAccount : Str := []
  createdByUser : Str := []
  deriving DecidableEq, Repr

/-- src/file.rs:8-18 `FmpFile`. -/
structure FmpFile where
  name : Str := []
  tables : HMap FTable := []
  relationships : HMap FRelationship := []
  layouts : HMap FLayout := []
  valueLists : HMap FValueList := []
  scripts : HMap FScript := []
  tableOccurrences : HMap FOccurrence := []
  dataSources : HMap FDataSource := []
  tests : List FTest := []
  deriving DecidableEq, Repr

end BurnFm
