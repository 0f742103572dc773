import Verif.Model.Main
import Lean.Data.Json
open BurnFm Lean
def js (j : Json) : Str := (j.getStr?.toOption.get!).toList
def jn (j : Json) : Nat := (j.getNat?.toOption.get!)
def ja (j : Json) : List Json := (j.getArr?.toOption.get!).toList
def at' (j : Json) (i : Nat) : Json := (ja j)[i]!
def main (args : List String) : IO Unit := do
  let p : Profile := if args[0]! = "release" then .release else .debug
  for l in (← IO.FS.lines args[1]!) do
    match Json.parse l with
    | .error e => IO.println s!"json {e}"
    | .ok j =>
      let g := fun k => (j.getObjVal? k).toOption.get!
      let tb : HMap FTable := (ja (g "tables")).map (fun e => (jn (at' e 0), { name := js (at' e 1) }))
      let oc : HMap FOccurrence := (ja (g "occs")).map (fun e => (jn (at' e 0), { name := js (at' e 1) }))
      let ly : HMap FLayout := (List.range (jn (g "nl"))).map (fun i => (i, {}))
      let sc : HMap FScript := (List.range (jn (g "ns"))).map (fun i => (i, {}))
      let f : FmpFile := { name := js (g "name"), tables := tb, tableOccurrences := oc, layouts := ly, scripts := sc }
      match assemble p f with
      | .error _ => IO.println "panic"
      | .ok b => IO.println s!"{b.length} {b.foldl (fun x c => (x * 131 + c.toNat + 1) % (2^61 - 1)) 0}"
