import Verif.Model.Database

/-! What a valid test database is, and the operations a test script can perform on it. -/

namespace BurnFm.Spec

/-- All fields of each table hold the same number of records. -/
def Rectangular (db : Database) : Prop :=
  ∀ t ∈ db.tables, ∀ f ∈ t.fields, ∀ g ∈ t.fields, f.records.length = g.records.length

/-- `r` is the number of an existing record of table `t`: every field of the table has it. -/
def IsRecord (db : Database) (t r : Nat) : Prop :=
  ∃ tab, db.tables[t]? = some tab ∧ tab.fields ≠ [] ∧ ∀ f ∈ tab.fields, r < f.records.length

/-- The found set of an occurrence is strictly increasing, contains only existing records of its table, and
the record pointer is inside it if it is not empty. -/
structure FoundSetOk (db : Database) (o : DOcc) : Prop where
  increasing : o.foundSet.Pairwise (· < ·)
  existing : ∀ r ∈ o.foundSet, IsRecord db o.tablePtr r
  pointer : o.foundSet ≠ [] → o.recordPtr < o.foundSet.length

/-- A valid database state. -/
structure Valid (db : Database) : Prop where
  rect : Rectangular db
  found : ∀ o ∈ db.occs, FoundSetOk db o

/-- The database operations of script steps. -/
inductive Op where
  /-- `new_record_request` -/
  | create
  /-- `set_field(occ::field, value)` in browse mode -/
  | set (occ field value : Str)
  /-- `perform_find` with the given criteria -/
  | find (criteria : List (Str × Str))
  /-- `show_all_records` -/
  | showAll
  /-- `go_to_record(n)` -/
  | goto (n : Nat)
  | next
  | previous
  | first
  | last
  /-- `go_to_layout`, for a layout that shows this occurrence -/
  | layout (occ : Nat)

/-- One operation; a panic ends the program. -/
def Op.run (p : Profile) (db : Database) : Op → Res Database
  | .create => db.createRecord p
  | .set occ field value => do
    match ← db.writeCell occ field value with
    | some db' => pure db'
    | none => .error .unwrap
  | .find criteria => db.performFind criteria
  | .showAll => db.resetFoundSet
  | .goto n => db.gotoRecord p n
  | .next => db.gotoNext p
  | .previous => db.gotoPrevious
  | .first => db.gotoFirst
  | .last => db.gotoLast p
  | .layout occ => pure (db.setCurrentOccurrence (occ % 65536))

/-- A history of operations. -/
def runOps (p : Profile) (db : Database) (ops : List Op) : Res Database := ops.foldlM (Op.run p) db

/-- The states a test run can reach: generate the database from a file, then perform operations. -/
def Reachable (p : Profile) (db : Database) : Prop :=
  ∃ file start ops, Database.generate {} file = .ok start ∧ runOps p start ops = .ok db

/-- Distinct keys in all maps of the schema, as hash maps have. -/
structure DistinctIds (file : FmpFile) : Prop where
  tables : (file.tables.map (·.1)).Nodup
  fields : ∀ e ∈ file.tables, (e.2.fields.map (·.1)).Nodup
  occs : (file.tableOccurrences.map (·.1)).Nodup

/-- The content of one cell. -/
def cell (db : Database) (t j r : Nat) : Option Str :=
  (db.tables[t]?).bind fun tab => (tab.fields[j]?).bind fun f => f.records[r]?

/-- The names of all tables and fields, by position. -/
def names (db : Database) : List (Str × List Str) := db.tables.map (fun t => (t.name, t.fields.map (·.name)))

/-- The number of records of all tables, per field. -/
def sizes (db : Database) : List (List Nat) := db.tables.map (fun t => t.fields.map (·.records.length))

/-- The records met by reading the current record and going to the next one until the pointer does not move
any more. -/
def visit (p : Profile) : Nat → Database → Res (List Nat)
  | 0, _ => pure []
  | fuel + 1, db => do
    let o ← db.currentOcc
    match o.currentRecord with
    | none => pure []
    | some r =>
      let db' ← db.gotoNext p
      let o' ← db'.currentOcc
      if o'.recordPtr = o.recordPtr then pure [r]
      else do
        let rest ← visit p fuel db'
        pure (r :: rest)

/-- A find criterion: the value wanted in `occ::field`. -/
structure Criterion where
  occ : Str
  field : Str
  value : Str

/-- The criterion as the script wrote it. -/
def Criterion.raw (c : Criterion) : Str × Str := (c.occ ++ t!"::" ++ c.field, c.value)

/-- Record `r` of table `t` has `value` in its first field called `field`. -/
def hasValue (t : DTable) (field value : Str) (r : Nat) : Prop :=
  ∃ f, t.fields.find? (fun f => f.name == field) = some f ∧ f.records[r]? = some value

end BurnFm.Spec
