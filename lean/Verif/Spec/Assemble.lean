import Verif.Model.File

/-! The schemas whose numbers and names fit the records the assembler writes. -/

namespace BurnFm.Spec

/-- Table numbers below 256, names short enough for a one byte length. -/
structure InRange (f : FmpFile) : Prop where
  tableIds : ∀ t ∈ f.tables, t.1 < 256
  tableNames : ∀ t ∈ f.tables, t.2.name.length ≤ 126
  tableCount : f.tables.length < 2 ^ 24
  occurrenceIds : ∀ o ∈ f.tableOccurrences, o.1 < 2 ^ 24
  occurrenceNames : ∀ o ∈ f.tableOccurrences, o.2.name.length ≤ 125

/-- The same schema, its maps being visited in possibly different orders. -/
structure Reordered (f g : FmpFile) : Prop where
  name : f.name = g.name
  tables : f.tables.Perm g.tables
  relationships : f.relationships.Perm g.relationships
  layouts : f.layouts.Perm g.layouts
  valueLists : f.valueLists.Perm g.valueLists
  scripts : f.scripts.Perm g.scripts
  tableOccurrences : f.tableOccurrences.Perm g.tableOccurrences
  dataSources : f.dataSources.Perm g.dataSources
  tests : f.tests = g.tests

end BurnFm.Spec
