import Verif.Proofs.AssemblerOutput
import Verif.Props.Contents

/-! Property C140: what the assembler prints. -/

namespace BurnFm.Props
open Spec

/-- C140: printing does not change what is compiled, nor whether it succeeds. -/
theorem printing_changes_nothing (p : Profile) (f : FmpFile) : (assembleP p f).result = assemble p f := assembleP_result p f

/-- C140: compiling a schema in range prints one line for every directory of the contents of the file, in the order of the
file, and within it one for every table and for every long value. -/
theorem assembler_output_exact (p : Profile) (f : FmpFile) (hr : InRange f) (buf : Bytes) (h : assemble p f = .ok buf) :
    (assembleP p f).lines = printedAll [] (contents f) :=
  (assembleP_lines p f hr).2 buf (by rw [assembleP_result, h])

/-- C140: if it panics, it has printed the first of these lines. -/
theorem assembler_output_prefix (p : Profile) (f : FmpFile) (hr : InRange f) : (assembleP p f).lines <+: printedAll [] (contents f) :=
  (assembleP_lines p f hr).1

mutual
theorem printed_tables_item (path : List Nat) (f : AsmLine → Option Bytes) (hf : ∀ n, f (entersLine n) = none) : ∀ i : Item,
    (i.printed path).filterMap f = (i.shown path).flatMap fun e => (recordLines e.path e.what).filterMap f
  | .record w => by simp [Item.printed, Item.shown]
  | .dir n items => by
    rw [Item.printed, Item.shown, List.filterMap_cons, hf, List.flatMap_cons, List.flatMap_append, printed_tables_all (path ++ [n]) f hf items]
    simp [recordLines]
theorem printed_tables_all (path : List Nat) (f : AsmLine → Option Bytes) (hf : ∀ n, f (entersLine n) = none) : ∀ is : List Item,
    (printedAll path is).filterMap f = (shownAll path is).flatMap fun e => (recordLines e.path e.what).filterMap f
  | [] => by simp [printedAll, shownAll]
  | i :: is => by
    rw [printedAll, shownAll, List.filterMap_append, List.flatMap_append, printed_tables_item path f hf i, printed_tables_all path f hf is]
end

/-- The number of the table, if a line is about a table. -/
def tableLine : AsmLine → Option Bytes
  | .table id => some id
  | _ => none

/-- C140: the lines about tables give the numbers of the tables in the order of the file. -/
theorem tables_reported (p : Profile) (f : FmpFile) (hr : InRange f) (buf : Bytes) (h : assemble p f = .ok buf) :
    (assembleP p f).lines.filterMap tableLine = f.tables.map fun t => fourBytes t.1 := by
  rw [assembler_output_exact p f hr buf h, printed_tables_all [] tableLine (fun _ => rfl)]
  have key : ∀ evs : List Event, (evs.flatMap fun e => (recordLines e.path e.what).filterMap tableLine) =
      (recordsIn [3, 16, 1, 3] evs).filterMap fun w => match w with | .longKv k _ => some k | _ => none := by
    intro evs
    induction evs with
    | nil => rfl
    | cons e evs ih =>
      rw [List.flatMap_cons, ih]
      unfold recordsIn
      rw [List.filterMap_cons]
      obtain ⟨q, w⟩ := e
      by_cases hq : q = [3, 16, 1, 3]
      · subst hq
        cases w with
        | kv k v =>
          simp only [recordLines]
          split
          · simp [tableLine]
          · split <;> simp [tableLine]
        | _ => simp [recordLines, tableLine]
      · cases w with
        | kv k v =>
          simp only [recordLines]
          split
          · simp [tableLine, hq]
          · split <;> simp [tableLine, hq]
        | _ => simp [recordLines, tableLine, hq]
  rw [key, recordsIn_contents]
  simp
  rw [← List.filterMap_eq_map]
  rfl

/-- The hypotheses are met by a schema with a table, whose number is reported. -/
example (p : Profile) : (assembleP p oneTable).lines.filterMap tableLine = [[0, 0, 0, 1]] := by
  obtain ⟨buf, h⟩ := oneTable_assembles p
  rw [tables_reported p oneTable oneTable_inRange buf h]
  rfl

/-- A schema that does not fit prints less. -/
example (p : Profile) : (assembleP p { name := t!"s", tables := (List.range 130).map fun i => (i, { name := [] }) }).lines <+:
    printedAll [] (contents { name := t!"s", tables := (List.range 130).map fun i => (i, { name := [] }) }) := by
  apply assembler_output_prefix
  constructor
  · intro t ht; simp at ht; obtain ⟨i, hi, rfl⟩ := ht; dsimp only; omega
  · intro t ht; simp at ht; obtain ⟨i, hi, rfl⟩ := ht; exact Nat.zero_le _
  · simp
  · intro o ho; cases ho
  · intro o ho; cases ho

end BurnFm.Props
