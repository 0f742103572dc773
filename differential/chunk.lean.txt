import Verif.Model.Main
open BurnFm
def sh (o : Option Bytes) : String := match o with | none => "-" | some d => "[" ++ ",".intercalate (d.map (fun b => toString b.toNat)) ++ "]"
def ty : ChunkType → String | .dataSimple => "data" | .refSimple => "ref" | .refLong => "long" | .dataSegment => "seg" | .pathPush => "push" | .pathPop => "pop" | .noop => "noop"
def main (args : List String) : IO Unit := do
  for l in (← IO.FS.lines args[0]!) do
    let ns := (l.splitOn " ").map String.toNat!
    match ns with
    | o :: loc :: np :: rest =>
      let path := rest.take np
      let buf : Bytes := (rest.drop np).map UInt8.ofNat
      match getChunk .debug buf o path loc with
      | .error _ => IO.println "panic"
      | .ok .invalid => IO.println "panic"
      | .ok (.ok ch o' p') => IO.println s!"{o'} {p'} {ty ch.ctype} {ch.code.toNat} {sh ch.data} {sh ch.refData} {ch.segmentIdx.map (·.toNat)} {ch.refSimple}"
    | _ => pure ()
