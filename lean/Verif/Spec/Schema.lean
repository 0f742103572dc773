import Verif.Spec.Records
import Verif.Model.File

/-! How table and field definitions are laid out in a file (doc/fmp_format.md), as events. -/

namespace BurnFm.Spec

/-- A field: its number and its properties (number, text) in file order. -/
structure FieldDef where
  id : Nat
  attrs : List (Nat × Str)

/-- A table: its number, its properties, its fields. -/
structure TableDef where
  id : Nat
  attrs : List (Nat × Str)
  fields : List FieldDef

/-- Enter a directory and give the properties; `enc` is the encoding of text. -/
def entry (enc : Str → Bytes) (dir : List Nat) (attrs : List (Nat × Str)) : List Event :=
  ⟨dir, .push⟩ :: attrs.map fun a => ⟨dir, .kv a.1 (enc a.2)⟩

/-- The directory `[3].[16].[5].[128 + t]` for each table. -/
def tableEvents (enc : Str → Bytes) (ts : List TableDef) : List Event :=
  ts.flatMap fun t => entry enc [3, 16, 5, 128 + t.id] t.attrs

/-- The directory `[128 + t].[3].[5].[f]` for each field of each table. -/
def fieldEvents (enc : Str → Bytes) (ts : List TableDef) : List Event :=
  ts.flatMap fun t => t.fields.flatMap fun f => entry enc [128 + t.id, 3, 5, f.id] f.attrs

/-- The directories `[3].[16].[5].[x]` and `[d].[3].[5].[f]` with `d ≥ 128`. -/
def isEntry (path : List Nat) : Bool :=
  path.length == 4 && (path.take 3 == [3, 16, 5] || (128 ≤ path.getD 0 0 && path.getD 1 0 == 3 && path.getD 2 0 == 5))

/-- The events that describe tables and fields. Everything else in the file is about something else. -/
def describesSchema (e : Event) : Bool :=
  isEntry e.path && (match e.what with
    | .push => true
    | .kv _ _ => true
    | _ => false)

/-- The last text given for a property; empty if there is none. -/
def lastAttr (attrs : List (Nat × Str)) (k : Nat) : Str :=
  ((attrs.filter fun a => a.1 == k).getLast?.map (·.2)).getD []

/-- The field described by a definition. -/
def FieldDef.field (f : FieldDef) : FField :=
  { name := lastAttr f.attrs 16, fieldType := lastAttr f.attrs 2, description := lastAttr f.attrs 3,
    createdByAccount := lastAttr f.attrs 129, createdByUser := lastAttr f.attrs 130 }

/-- The table described by a definition. -/
def TableDef.table (t : TableDef) : FTable :=
  { name := lastAttr t.attrs 16, fields := t.fields.map fun f => (f.id, f.field) }

/-- Table numbers are distinct and no table comes after the one with a number 128 higher; field numbers of a table
are distinct and below 65536. -/
def WellNumbered (ts : List TableDef) : Prop :=
  ts.Pairwise (fun a b => a.id ≠ b.id ∧ a.id ≠ 128 + b.id) ∧
  ∀ t ∈ ts, t.fields.Pairwise (fun a b => a.id ≠ b.id) ∧ ∀ f ∈ t.fields, f.id < 65536

/-- A property as a record: numbers from 128 on need the form with an escaped number. -/
def attrRecord (enc : Str → Bytes) (a : Nat × Str) : Record :=
  if a.1 < 128 then .kv (UInt8.ofNat a.1) (enc a.2) else .kvE a.1 (enc a.2)

/-- A file with a schema and nothing else: the tables, then the fields of each table. -/
def schemaRecords (enc : Str → Bytes) (ts : List TableDef) : List Record :=
  [.push 3, .push 16, .push 5] ++
  ts.flatMap (fun t => .push (128 + t.id) :: t.attrs.map (attrRecord enc) ++ [.pop]) ++
  [.pop, .pop, .pop] ++
  ts.flatMap (fun t => [.push (128 + t.id), .push 3, .push 5] ++
    t.fields.flatMap (fun f => .push f.id :: f.attrs.map (attrRecord enc) ++ [.pop]) ++ [.pop, .pop, .pop])

end BurnFm.Spec
