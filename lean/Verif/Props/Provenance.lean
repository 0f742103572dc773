import Verif.Proofs.ProvenanceGraph
import Verif.Props.FileContents

/-! Property C114: where each part of a decompiled schema comes from. The files have any content in any order. -/

namespace BurnFm.Props
open Spec

/-- C114, layouts: layout `x` exists exactly if its directory, or one inside it, is entered. It has the last name and the last
occurrence given since. -/
theorem layout_provenance (p : Profile) (buf : Bytes) (evs : List Event) (hf : FileOf buf evs) (fuel : Nat) (f : FmpFile)
    (h : decompile p buf fuel = .ok (some f)) (x : Nat) : f.layouts.get x = layoutSaid fmStringDecrypt evs x := by
  obtain ⟨T, G, L, S, g, ds, rfl, _, _, h3, _, _⟩ := file_project hf h
  rw [← layoutSaid_filter]
  have := run_layouts_said (x := x) _ (fun e he => (List.mem_filter.mp he).2) h3
  exact this

/-- C114, scripts: script `k` exists exactly if it is given a name, and it has the last one. -/
theorem script_name_provenance (p : Profile) (buf : Bytes) (evs : List Event) (hf : FileOf buf evs) (fuel : Nat) (f : FmpFile)
    (h : decompile p buf fuel = .ok (some f)) (k : Nat) :
    (f.scripts.get k).map (·.name) = (lastProperty (scriptNameDir k) 16 evs).map fmStringDecrypt := by
  obtain ⟨T, G, L, S, g, ds, rfl, _, _, _, h4, h5⟩ := file_project hf h
  rw [← names_filter, ← run_names_said _ h4, ← assembleScripts_names h5]
  rfl

/-- C114, table occurrences. -/
theorem occurrence_provenance (p : Profile) (buf : Bytes) (evs : List Event) (hf : FileOf buf evs) (fuel : Nat) (f : FmpFile)
    (h : decompile p buf fuel = .ok (some f)) :
    f.tableOccurrences = (occurrencesSaid fmStringDecrypt evs).zipIdx.map fun (o, i) => (i + 1, o) := by
  obtain ⟨T, G, L, S, g, ds, rfl, _, h2, _, _, _⟩ := file_project hf h
  rw [← occurrencesSaid_filter]
  exact (run_graph_said _ (fun e he => (List.mem_filter.mp he).2) h2).1

/-- C114, relationships. -/
theorem relationship_provenance (p : Profile) (buf : Bytes) (evs : List Event) (hf : FileOf buf evs) (fuel : Nat) (f : FmpFile)
    (h : decompile p buf fuel = .ok (some f)) : f.relationships = relationshipsSaid evs := by
  obtain ⟨T, G, L, S, g, ds, rfl, _, h2, _, _, _⟩ := file_project hf h
  rw [← relationshipsSaid_filter]
  exact (run_graph_said _ (fun e he => (List.mem_filter.mp he).2) h2).2

/-- C114, tables and fields: table `t` exists exactly if its directory, or one of its fields, is entered. It has the last name
and the fields given since its directory was last entered; each field has what was given since its own directory was.
Partial: neither the directory of table `128 + t` nor one of its fields may be entered, see `schema_number_refuted`, and numbers
from 2^63 on are left out. -/
theorem table_provenance_partial (p : Profile) (buf : Bytes) (evs : List Event) (hf : FileOf buf evs) (fuel : Nat) (f : FmpFile)
    (h : decompile p buf fuel = .ok (some f)) (t : Nat) (ht : t < 2 ^ 63) (hn : tableKnown evs (128 + t) = false) :
    (tableKnown evs t = false → f.tables.get t = none) ∧
    (tableKnown evs t = true → ∃ tb, f.tables.get t = some tb ∧
      tb.name = lastText fmStringDecrypt (tableEntryDir t) 16 (tableSince evs t) ∧
      ∀ k, tb.fields.get k = fieldSaid fmStringDecrypt (tableSince evs t) t k) := by
  obtain ⟨T, G, L, S, g, ds, rfl, h1, _, _, _, _⟩ := file_project hf h
  obtain ⟨⟨q1, q2⟩, _⟩ := run_tables_said ht _ (fun e he => (List.mem_filter.mp he).2) (by rw [tableKnown_filter]; exact hn) h1
  rw [tableKnown_filter] at q1 q2
  rw [tableSince_filter, tableText_filter] at q2
  simp only [fieldSaid_filter] at q2
  exact ⟨fun hk => (q1 hk).1, q2⟩

/-! An untidy file: a field before its table, a table named twice, fields and a layout entered again, names between. -/

def untidyItems : List Item :=
  [.push 129, .push 3, .push 5, .push 1, .kv 16 (fmStringEncrypt t!"lost"), .pop, .pop, .pop, .pop,
   .push 3, .push 16, .push 5, .push 129, .kv 16 (fmStringEncrypt t!"a"), .kv 16 (fmStringEncrypt t!"People"), .pop, .pop, .pop,
   .push 17, .push 5, .push 0, .kv 2 [0, 0, 0, 0, 0, 0, 1], .kv 16 (fmStringEncrypt t!"x"), .kv 16 (fmStringEncrypt t!"p1"),
   .push 251, .data [0, 0, 2], .pop, .kv 2 [0, 0, 0, 0, 0, 0, 1], .push 251, .data [0, 0, 1], .pop, .kv 16 (fmStringEncrypt t!"p2"),
   .pop, .pop, .pop, .push 251, .push 5, .push 1, .push 3, .kv 1 [1, 0, 1, 5, 0, 1, 6], .kv 1 [4, 0, 1, 7, 0, 1, 8], .pop, .pop, .pop, .pop, .pop,
   .push 129, .push 3, .push 5, .push 1, .kv 16 (fmStringEncrypt t!"old"), .pop, .push 1, .kv 2 (fmStringEncrypt t!"Text"), .kv 16 (fmStringEncrypt t!"name"),
   .pop, .push 2, .pop, .pop, .pop, .pop,
   .push 4, .push 1, .push 7, .push 2, .kv 16 (fmStringEncrypt t!"First"), .pop, .push 2, .kv 2 [0, 129], .push 6, .pop,
   .kv 16 (fmStringEncrypt t!"Main"), .pop, .pop, .pop, .pop,
   .push 17, .push 1, .push 7, .push 3, .kv 16 (fmStringEncrypt t!"s"), .kv 16 (fmStringEncrypt t!"t"), .pop, .pop, .pop, .pop]

set_option maxRecDepth 40000 in
theorem untidy_file : FileOf (itemFile untidyItems) (itemEvents [] untidyItems) :=
  itemFile_spec _ (by decide) (by decide) (by decide)

set_option maxRecDepth 40000 in
/-- The untidy file decompiles. -/
theorem untidy_decompiles (p : Profile) : ∃ fuel f, decompile p (itemFile untidyItems) fuel = .ok (some f) := by
  obtain ⟨T, hT⟩ : ∃ T, runEvents p {} ((itemEvents [] untidyItems).filter describesSchema) = .ok T := by cases p <;> exact ⟨_, rfl⟩
  obtain ⟨G, hG⟩ : ∃ G, runEvents p {} ((itemEvents [] untidyItems).filter aboutGraph) = .ok G := by cases p <;> exact ⟨_, rfl⟩
  obtain ⟨L, hL⟩ : ∃ L, runEvents p {} ((itemEvents [] untidyItems).filter aboutLayouts) = .ok L := by cases p <;> exact ⟨_, rfl⟩
  obtain ⟨S, hS, g, hg⟩ : ∃ S, runEvents p {} ((itemEvents [] untidyItems).filter aboutScripts) = .ok S ∧ ∃ g, assembleScripts S = .ok g := by
    cases p <;> exact ⟨_, rfl, _, rfl⟩
  obtain ⟨fuel, h⟩ := file_run (p := p) untidy_file (by decide) hT hG hL hS hg
  exact ⟨fuel, _, h fuel (Nat.le_refl _)⟩

set_option maxRecDepth 40000 in
/-- What the theorems say of it. -/
example (p : Profile) : ∃ fuel f, decompile p (itemFile untidyItems) fuel = .ok (some f) ∧
    f.layouts.get 2 = some { name := t!"Main", tableOccurrence := 0 } ∧
    (f.scripts.get 3).map (·.name) = some t!"t" ∧
    f.tableOccurrences = [(1, { name := t!"p1", tableActual := 1 }), (2, { name := t!"p2", tableActual := 1 })] ∧
    f.relationships = [(1, { table1 := 1, table2 := 2, comparison := .greater, field1 := 7, field2 := 8 })] ∧
    ∃ tb, f.tables.get 1 = some tb ∧ tb.name = t!"People" ∧ tb.fields.get 1 = some { name := t!"name", fieldType := t!"Text" } ∧
      tb.fields.get 2 = some {} ∧ tb.fields.get 3 = none := by
  obtain ⟨fuel, f, h⟩ := untidy_decompiles p
  refine ⟨fuel, f, h, ?_, ?_, ?_, ?_, ?_⟩
  · rw [layout_provenance p _ _ untidy_file _ _ h]; rfl
  · rw [script_name_provenance p _ _ untidy_file _ _ h]; rfl
  · rw [occurrence_provenance p _ _ untidy_file _ _ h]; rfl
  · rw [relationship_provenance p _ _ untidy_file _ _ h]; rfl
  · obtain ⟨tb, h1, h2, h3⟩ := (table_provenance_partial p _ _ untidy_file _ _ h 1 (by decide) (by decide)).2 (by decide)
    refine ⟨tb, h1, h2.trans rfl, (h3 1).trans rfl, (h3 2).trans rfl, (h3 3).trans rfl⟩

end BurnFm.Props
