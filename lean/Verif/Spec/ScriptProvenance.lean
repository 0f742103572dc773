import Verif.Spec.Provenance

/-! Where the steps of a decompiled script come from, for files with any content in any order. -/

namespace BurnFm.Spec

/-- The pieces of 28 bytes of a byte string; the last one may be shorter. -/
def pieces (b : Bytes) : List Bytes := (List.range ((b.length + 27) / 28)).map fun i => (b.drop (28 * i)).take 28

/-- Directory `[17].[5].[k]` and what is in it, except the segments and the parameters. -/
def codeDir (k : Nat) (path : List Nat) : Bool := path.take 3 == [17, 5, k] && scriptPlace path == .plain

/-- The last name given to script `j`. -/
def nameSaid (dec : Bytes → Str) (evs : List Event) (j : Nat) : Option Str := (lastProperty (scriptNameDir j) 16 evs).map dec

/-- How an event adds to the steps `kept` of script `k`: the steps in property 4 are added at the end, the steps in long data
with number 4 are each inserted at their own number. Pieces of less than 21 bytes are ignored. -/
def placed (step : Bytes → Option ScriptStep) (k : Nat) (e : Event) (kept : List ScriptStep) : List ScriptStep :=
  if codeDir k e.path then
    match e.what with
    | .kv n b => if n = 4 then kept ++ ((pieces b).filter fun r => 21 ≤ r.length).filterMap step else kept
    | .segment n b =>
      if n = 4 then (((pieces b).filter fun r => 21 ≤ r.length).filterMap step).foldl (fun l s => l.insertIdx s.index s) kept else kept
    | _ => kept
  else kept

/-- The steps given by the events outside segments, in the order in which they are kept. `step names` reads a record; a call has the name
the called script had when the record was read. `before` are the events before. -/
def stepsSaid (dec : Bytes → Str) (step : (Nat → Option Str) → Bytes → Option ScriptStep) (k : Nat) (before : List Event)
    (kept : List ScriptStep) : List Event → List ScriptStep
  | [] => kept
  | e :: es => stepsSaid dec step k (before ++ [e]) (placed (step (nameSaid dec before)) k e kept) es

/-- The bytes of a segment with number `n` of script `k`. -/
def segmentAt (k n : Nat) (e : Event) : Option Bytes :=
  match e.what with
  | .segment m b => if m.toNat = n ∧ e.path = [17, 5, k, 4] then some b else none
  | _ => none

/-- The last segment with number `n`. -/
def lastSegment (k n : Nat) (evs : List Event) : Option Bytes := (evs.filterMap (segmentAt k n)).getLast?

/-- The segments of script `k`, joined in the order of their numbers. -/
def segmentBytes (k : Nat) (evs : List Event) : Bytes := (List.range 256).flatMap fun n => (lastSegment k n evs).getD []

/-- All steps of script `k`, without parameters: those outside segments, then those in complete records in segments. -/
def scriptSaid (dec : Bytes → Str) (step : (Nat → Option Str) → Bytes → Option ScriptStep) (evs : List Event) (k : Nat) :
    List ScriptStep :=
  stepsSaid dec step k [] [] evs ++ (records (segmentBytes k evs)).filterMap (step (nameSaid dec evs))

/-- The parameter an event gives to step `i` of script `k`, which has opcode `op`: a variable, a result or a value. -/
def parameterAt (dec : Bytes → Str) (text : Bytes → Option Str) (k i : Nat) (op : Instruction) (e : Event) : Option Str :=
  match e.what with
  | .kv n b =>
    if e.path = [17, 5, k, 5, i, 128] ∧ n = 1 then if op = .setVariable then some (dec b) else none
    else if e.path = [17, 5, k, 5, i, 128, 5] ∧ n = 5 then
      if op = .setVariable then some (dec b) else if op = .exitScript then text b else none
    else if e.path = [17, 5, k, 5, i, 129, 5] ∧ n = 5 then text b
    else none
  | _ => none

/-- A step of script `k` with all its parameters, in order. -/
def withParameters (dec : Bytes → Str) (text : Bytes → Option Str) (evs : List Event) (k : Nat) (s : ScriptStep) : ScriptStep :=
  { s with switches := s.switches ++ evs.filterMap (parameterAt dec text k s.index s.opcode) }

end BurnFm.Spec
