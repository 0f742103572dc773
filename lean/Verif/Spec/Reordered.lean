import Verif.Spec.FileContents
import Mathlib.Data.List.Forall2

/-! Descriptions of the same components in another order, and files that answer every lookup alike. -/

namespace BurnFm.Spec

/-- The same field: same number, and each property ends with the same text. -/
structure FieldDef.Same (f f' : FieldDef) : Prop where
  id : f.id = f'.id
  attrs : ∀ k, lastAttr f.attrs k = lastAttr f'.attrs k

/-- The same table, its fields in any order. -/
structure TableDef.Same (t t' : TableDef) : Prop where
  id : t.id = t'.id
  attrs : ∀ k, lastAttr t.attrs k = lastAttr t'.attrs k
  fields : ∃ fs, t.fields.Perm fs ∧ List.Forall₂ FieldDef.Same fs t'.fields

/-- The same components: tables, layouts, scripts and data sources in any order. Occurrences and relationships have no
number of their own but are counted in file order, so they are given in the same order. -/
structure FileDef.Reordered (d d' : FileDef) : Prop where
  tables : ∃ ts, d.tables.Perm ts ∧ List.Forall₂ TableDef.Same ts d'.tables
  occurrences : d.occurrences = d'.occurrences
  criteria : d.criteria = d'.criteria
  layouts : d.layouts.Perm d'.layouts
  scripts : d.scripts.Perm d'.scripts
  sources : d.sources.Perm d'.sources

/-- Tables with the same name and the same field under each number. -/
structure SameTable (t t' : FTable) : Prop where
  name : t.name = t'.name
  fields : ∀ j, t.fields.get j = t'.fields.get j

/-- Two decompiled files with the same component under each number. -/
structure SameComponents (f f' : FmpFile) : Prop where
  name : f.name = f'.name
  tables : ∀ k, Option.Rel SameTable (f.tables.get k) (f'.tables.get k)
  tableOccurrences : ∀ k, f.tableOccurrences.get k = f'.tableOccurrences.get k
  relationships : ∀ k, f.relationships.get k = f'.relationships.get k
  layouts : ∀ k, f.layouts.get k = f'.layouts.get k
  scripts : ∀ k, f.scripts.get k = f'.scripts.get k
  dataSources : ∀ k, f.dataSources.get k = f'.dataSources.get k
  valueLists : ∀ k, f.valueLists.get k = f'.valueLists.get k
  tests : f.tests = f'.tests

end BurnFm.Spec
