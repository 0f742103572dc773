import Verif.Model.Main
open BurnFm
def q (s : Str) : String := ".".intercalate (s.map fun c => toString c.toNat)
def srt {α} (m : HMap α) : HMap α := m.mergeSort (fun a b => a.1 ≤ b.1)
def opName (o : Instruction) : String := ((reprStr o).splitOn ".").getLast!
def dump (f : FmpFile) : String := Id.run do
  let mut L : List String := []
  for (i, t) in srt f.tables do
    L := s!"T {i} {q t.name}" :: L
    for (j, x) in srt t.fields do L := (s!"f {j} " ++ "|".intercalate [q x.fieldType, q x.description, q x.name, q x.createdByAccount, q x.createdByUser]) :: L
  for (i, t) in srt f.tableOccurrences do L := s!"O {i} {q t.name} {t.tableActual}" :: L
  for (i, t) in srt f.layouts do L := s!"L {i} {q t.name} {t.tableOccurrence}" :: L
  for (i, t) in srt f.relationships do L := s!"R {i} {t.table1} {t.field1} {t.table2} {t.field2} {((reprStr t.comparison).splitOn ".").getLast!}" :: L
  for (i, t) in srt f.scripts do
    L := s!"S {i} {q t.name}" :: L
    for s in t.instructions do L := (s!"s {opName s.opcode} {s.index} " ++ "|".intercalate (s.switches.map q)) :: L
  for (i, t) in srt f.dataSources do L := (s!"D {i} {q t.name} " ++ "|".intercalate [q t.location.sourceType, q t.location.path, q t.location.filename] ++ s!" {q t.createdByUser}") :: L
  return ";".intercalate L.reverse
def main (args : List String) : IO Unit := do
  let p : Profile := if args[0]! = "release" then .release else .debug
  for f in args.drop 1 do
    let b ← IO.FS.readBinFile f
    match decompile p b.toList 100000 with
    | .error _ => IO.println "panic"
    | .ok none => IO.println "fuel"
    | .ok (some f) => IO.println (dump f)
