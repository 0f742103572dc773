import Verif.Proofs.Json

/-!
What the JSON of a file says can be read back from it.
-/

namespace BurnFm
open BurnFm.Spec

theorem numberOf_decimal (n : Nat) : numberOf (decimal n) = some n := by
  have hd : ∀ c ∈ Nat.toDigits 10 n, 48 ≤ c.toNat ∧ c.toNat ≤ 57 := by
    intro c hc
    have := toDigits_digits hc
    simpa [isDigit] using this
  rw [decimal_eq]
  unfold numberOf
  rw [if_pos ⟨Nat.toDigits_ne_nil, hd⟩]
  exact congrArg some (digitsVal_toDigits n)

theorem list_mapM {α β : Type} {f : β → Option α} {g : α → β} (h : ∀ a, f (g a) = some a) (l : List α) : (l.map g).mapM f = some l := by
  induction l with
  | nil => rfl
  | cons a l ih => simp [h, ih]

theorem asList_map {α : Type} {read : Json → Option α} {g : α → Json} (h : ∀ a, read (g a) = some a) (l : List α) :
    asList read (.arr (l.map g)) = some l := list_mapM h l

theorem asMap_mapJson {α β : Type} {read : Json → Option β} {g : α → Json} {c : α → β} (h : ∀ a, read (g a) = some (c a)) (l : HMap α) :
    asMap read (mapJson g l) = some (l.map fun e => (e.1, c e.2)) := by
  unfold asMap mapJson
  simp only
  induction l with
  | nil => rfl
  | cons a l ih =>
    rw [List.map_cons, List.mapM_cons, ih]
    simp [h, numberOf_decimal]

theorem instructionNamed_variant (i : Instruction) : instructionNamed i.variant = some i := by
  cases i <;> decide +kernel

theorem comparisonNamed_variant (i : Comparison) : comparisonNamed i.variant = some i := by
  cases i <;> decide +kernel

theorem readField_json (f : FField) : readField f.json = some f := by
  rfl

theorem asMap_self {α : Type} {read : Json → Option α} {g : α → Json} (h : ∀ a, read (g a) = some a) (l : HMap α) :
    asMap read (mapJson g l) = some l := by
  have := asMap_mapJson (c := id) h l
  simpa using this

theorem readTable_json (t : FTable) : readTable t.json = some { t with fields := sortByKey t.fields } := by
  have e : readTable t.json = (do
      let fs ← asMap readField (mapJson FField.json (sortByKey t.fields))
      some { name := t.name, fields := fs, init := t.init }) := rfl
  rw [e, asMap_self readField_json]
  rfl

theorem texts_json (l : List Str) : asList asText (.arr (l.map .str)) = some l :=
  asList_map (g := Json.str) (fun _ => rfl) l

theorem readStep_json (s : ScriptStep) : Spec.readStep s.json = some s := by
  have e : Spec.readStep s.json = (do
      let o ← instructionNamed s.opcode.variant
      let sw ← asList asText (.arr (s.switches.map .str))
      some { opcode := o, index := s.index, switches := sw }) := rfl
  rw [e, instructionNamed_variant, texts_json]
  rfl

theorem readScript_json (s : FScript) : readScript s.json = some s := by
  have e : readScript s.json = (do
      let a ← asList asText (.arr (s.arguments.map .str))
      let i ← asList Spec.readStep (.arr (s.instructions.map ScriptStep.json))
      some { name := s.name, arguments := a, instructions := i }) := rfl
  rw [e, texts_json, asList_map readStep_json]
  rfl

theorem readTest_json (t : FTest) : readTest t.json = some t := by
  have e : readTest t.json = (do
      let s ← readScript t.script.json
      let a ← asList asText (.arr (t.assertions.map .str))
      some { name := t.name, script := s, assertions := a }) := rfl
  rw [e, texts_json, readScript_json]
  rfl

theorem readOccurrence_json (o : FOccurrence) : readOccurrence o.json = some o := rfl

theorem readRelationship_json (r : FRelationship) : readRelationship r.json = some r := by
  have e : readRelationship r.json = (do
      let c ← comparisonNamed r.comparison.variant
      some { r with comparison := c }) := rfl
  rw [e, comparisonNamed_variant]
  rfl

theorem readLayout_json (l : FLayout) : readLayout l.json = some l := rfl

theorem readValueList_json (l : FValueList) : readValueList l.json = some l := rfl

theorem readSource_json (s : FDataSource) : readSource s.json = some s := rfl

theorem readFile_json (f : FmpFile) :
    readFile f.json = some { f with tables := f.tables.map fun e => (e.1, { e.2 with fields := sortByKey e.2.fields }) } := by
  have e : readFile f.json = (do
      let a ← asMap readTable (mapJson FTable.json f.tables)
      let b ← asMap readRelationship (mapJson FRelationship.json f.relationships)
      let c ← asMap readLayout (mapJson FLayout.json f.layouts)
      let d ← asMap readValueList (mapJson FValueList.json f.valueLists)
      let e ← asMap readScript (mapJson FScript.json f.scripts)
      let g ← asMap readOccurrence (mapJson FOccurrence.json f.tableOccurrences)
      let h ← asMap readSource (mapJson FDataSource.json f.dataSources)
      let i ← asList readTest (.arr (f.tests.map FTest.json))
      some { name := f.name, tables := a, relationships := b, layouts := c, valueLists := d, scripts := e, tableOccurrences := g,
             dataSources := h, tests := i }) := rfl
  rw [e, asMap_mapJson (c := fun t : FTable => { t with fields := sortByKey t.fields }) readTable_json, asMap_self readRelationship_json,
    asMap_self readLayout_json, asMap_self readValueList_json, asMap_self readScript_json, asMap_self readOccurrence_json,
    asMap_self readSource_json, asList_map readTest_json]
  rfl

end BurnFm
