import Verif.Checks.Runtime
import Lean.Data.Json
open BurnFm Lean
open scoped BurnFm.Checks
attribute [instance] BurnFm.Checks.ratRt
def q (s : Str) : String := ".".intercalate (s.map fun c => toString c.toNat)
def srt {α} (m : HMap α) : HMap α := m.mergeSort (fun a b => a.1 ≤ b.1)
def opName (o : Instruction) : String := (((reprStr o).splitOn ".").getLast!).replace "«" "" |>.replace "»" ""
def ds (s : FScript) : String := q s.name ++ "(" ++ ",".intercalate (s.arguments.map q) ++ ")" ++ "/".intercalate (s.instructions.map fun i => opName i.opcode ++ ":" ++ "|".intercalate (i.switches.map q))
def dump (f : FmpFile) : String := Id.run do
  let mut L : List String := []
  for (i, t) in srt f.tables do L := L ++ [s!"T {i} {q t.name}"]
  for (i, t) in srt f.relationships do L := L ++ [s!"R {i} {q t.table1Name} {q t.table2Name}"]
  for (i, t) in srt f.valueLists do L := L ++ [s!"V {i} {q t.name}"]
  for (i, t) in srt f.tableOccurrences do L := L ++ [s!"O {i} {q t.name} {q t.tableActualName}"]
  for (i, t) in srt f.scripts do L := L ++ [s!"S {i} " ++ ds t]
  for t in f.tests do L := L ++ [s!"E {q t.name} " ++ ds t.script]
  return ";".intercalate L
def main (args : List String) : IO Unit := do
  let p : Profile := if args[0]! = "release" then .release else .debug
  let t ← IO.FS.lines args[1]!
  for l in t do
    match Json.parse l with
    | .error e => IO.println s!"json {e}"
    | .ok j =>
      match compileBurn p (j.getStr?.toOption.get!).toList with
      | .error _ => IO.println "panic"
      | .ok f => IO.println ("ok " ++ dump f)
