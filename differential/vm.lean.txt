import Verif.Checks.Runtime
import Lean.Data.Json
open BurnFm Lean
@[reducible] def fuzzRt : Rt := { BurnFm.Checks.ratRt with absText := fun s => t!"Abs" ++ s, acosText := fun s => t!"Acos" ++ s }
attribute [instance] fuzzRt
def q (s : Str) : String := ".".intercalate (s.map fun c => toString c.toNat)
def js (j : Json) : Str := (j.getStr?.toOption.get!).toList
def jn (j : Json) : Nat := (j.getNat?.toOption.get!)
def ja (j : Json) : List Json := (j.getArr?.toOption.get!).toList
def at' (j : Json) (i : Nat) : Json := (ja j)[i]!
def op (s : String) : Instruction := match s with
  | "performScript" => .performScript | "goToLayout" => .goToLayout | "goToRecordRequestPage" => .goToRecordRequestPage
  | "enterFindMode" => .enterFindMode | "performFind" => .performFind | "showAllRecords" => .showAllRecords
  | "setVariable" => .setVariable | "setField" => .setField | "loop" => .loop | "iff" => .if | "elseIf" => .elseIf | "els" => .else
  | "endIf" => .endIf | "endLoop" => .endLoop | "exitLoopIf" => .exitLoopIf | "newRecordRequest" => .newRecordRequest
  | "showCustomDialog" => .showCustomDialog | "assert" => .assert | "unsortRecords" => .unsortRecords | _ => .undoRedo
def steps (j : Json) : List ScriptStep := (ja j).map fun s => { opcode := op (String.ofList (js (at' s 0))), index := 0, switches := (ja (at' s 1)).map js }
def scr (j : Json) : FScript := { name := js (at' j 0), instructions := steps (at' j 1) }
def mp {α} (f : Json → α) (j : Json) : HMap α := (ja j).map fun e => (jn (at' e 0), f (at' e 1))
def cmp (s : String) : Comparison := match s with
  | "eq" => .equal | "ne" => .notEqual | "lt" => .less | "le" => .lessEqual | "gt" => .greater | "ge" => .greaterEqual | _ => .cartesian
def file (j : Json) : FmpFile :=
  let g := fun k => (j.getObjVal? k).toOption.get!
  { tables := mp (fun t => { name := js (at' t 0), fields := mp (fun f => { name := js f }) (at' t 1) }) (g "tables")
    tableOccurrences := mp (fun t => { name := js (at' t 0), tableActual := jn (at' t 1) }) (g "occs")
    relationships := mp (fun r => { table1 := jn (at' r 0), field1 := jn (at' r 1), table2 := jn (at' r 2), field2 := jn (at' r 3), comparison := cmp (String.ofList (js (at' r 4))) }) (g "rels")
    layouts := mp (fun t => { name := js (at' t 0), tableOccurrence := jn (at' t 1) }) (g "layouts")
    scripts := mp scr (g "scripts")
    tests := (ja (g "tests")).map fun t => { name := js (at' t 0), script := scr (at' t 1) } }
def dump (vs : List Bool) (vm : Vm) : String := Id.run do
  let w := vm.world
  let mut L := ["".intercalate (vs.map fun b => if b then "P" else "F")]
  for t in w.db.tables do
    L := L ++ ["T " ++ q t.name ++ "/" ++ "/".intercalate (t.fields.map fun f => q f.name ++ "=" ++ "|".intercalate (f.records.map q))]
  for o in w.db.occs do L := L ++ [s!"O {o.tablePtr} {o.recordPtr} " ++ ",".intercalate (o.foundSet.map toString)]
  L := L ++ [s!"H {w.db.handle} {if w.findMode then "f" else "b"} {if vm.branchTaken then "t" else "f"}"]
  L := L ++ ["I " ++ "/".intercalate (vm.frames.map fun f => q f.1 ++ ":" ++ toString f.2)]
  L := L ++ ["L " ++ ",".intercalate (vm.loops.map toString)]
  for m in w.vars do L := L ++ ["V " ++ "/".intercalate ((m.map fun e => q e.1 ++ "=" ++ q e.2).mergeSort (fun a b => decide (a ≤ b)))]
  L := L ++ ["M " ++ "/".intercalate (w.out.map fun | .dialog s => "d" ++ q s | .assertionFailed s => "a" ++ q s)]
  L := L ++ ["C " ++ "/".intercalate (w.criteria.map fun e => q e.1 ++ "=" ++ q e.2)]
  for o in [t!"A", t!"B", t!"A 2", t!"C", t!"zz"] do
    for f in [t!"f", t!"g", t!"h"] do
      L := L ++ ["Q " ++ match w.db.relatedField 1000 o f with
        | .error _ => "panic" | .ok none => "fuel" | .ok (some none) => "err" | .ok (some (some v)) => "v" ++ q v]
  return ";".intercalate L
def main (args : List String) : IO Unit := do
  let p : Profile := if args[0]! = "release" then .release else .debug
  let t ← IO.FS.lines args[1]!
  for l in t do
    match Json.parse l with
    | .error e => IO.println s!"json {e}"
    | .ok j =>
      let f := file j
      let r : Ev (List Bool × Vm) := do (← Vm.generate f).runTests (fun env t => @evalCalc fuzzRt env 300 t) p f.scripts 200 f.tests
      match r with
      | .error (.panic _) => IO.println "panic"
      | .error .fuel => IO.println "fuel"
      | .ok (vs, vm) => IO.println (dump vs vm)
