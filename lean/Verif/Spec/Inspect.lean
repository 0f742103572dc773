import Verif.Spec.Json
import Verif.Spec.Main
import Verif.Spec.Assemble
import Verif.Model.Inspect

/-! What the JSON files that the program writes are for: they show a file. -/

namespace BurnFm.Spec

/-- The verdicts and the database files, in order. -/
def actionsOf (es : List Event) : List Action := es.filterMap fun e => match e with
  | .acted a => some a
  | _ => none

/-- The JSON files written, with their contents, in order. -/
def inspectedOf (es : List Event) : List (Str × Str) := es.filterMap fun e => match e with
  | .inspected path text => some (path, text)
  | _ => none

/-- What was written to `header.log`, in order. -/
def headersOf (es : List Event) : List Bytes := es.filterMap fun e => match e with
  | .header b => some b
  | _ => none

/-- All events but those for `header.log`. -/
def withoutHeaders (es : List Event) : List Event := es.filter fun e => match e with
  | .header _ => false
  | _ => true

/-- What a JSON file contains after the run: what was written last. -/
def remaining (path : Str) (es : List Event) : Option Str := (((inspectedOf es).filter fun e => e.1 == path).getLast?).map (·.2)

/-- Tables that differ at most in the order in which their fields are listed. -/
structure SameFields (t t' : Nat × FTable) : Prop where
  number : t.1 = t'.1
  name : t.2.name = t'.2.name
  init : t.2.init = t'.2.init
  fields : t.2.fields.Perm t'.2.fields

/-- Files that differ at most in the order in which components with a number are listed. -/
structure SameContents (f g : FmpFile) : Prop where
  name : f.name = g.name
  tables : ∃ ts, f.tables.Perm ts ∧ List.Forall₂ SameFields ts g.tables
  relationships : f.relationships.Perm g.relationships
  layouts : f.layouts.Perm g.layouts
  valueLists : f.valueLists.Perm g.valueLists
  scripts : f.scripts.Perm g.scripts
  tableOccurrences : f.tableOccurrences.Perm g.tableOccurrences
  dataSources : f.dataSources.Perm g.dataSources
  tests : f.tests = g.tests

/-- A text shows a file: it is JSON, it can be read in one way only, and what is read is this file. -/
def Shows (text : Str) (f : FmpFile) : Prop :=
  ∃ v, JsonText v text ∧ (∀ v', JsonText v' text → v' = v) ∧ ∃ g, readFile v = some g ∧ SameContents f g

/-- The maps are iterated in some order, and everything is visited. -/
def Fair (s : Surroundings) : Prop := ∀ i f, Reordered f (s.order i f)

end BurnFm.Spec
