import Verif.Spec.Records
import Verif.Model.File

/-! Scripts whose steps are spread over numbered segments. -/

namespace BurnFm.Spec

/-- The complete records of 28 bytes at the start of a byte string. -/
def records (b : Bytes) : List Bytes := (List.range (b.length / 28)).map fun i => (b.drop (28 * i)).take 28

/-- The step in a record: the opcode is byte 21, byte 0 is the length of the number that starts at byte 2, and byte
8 is the script called by a call. A record with an unknown opcode has no step. -/
def stepOf (ops : List (Option Instruction)) (number : Bytes → Nat) (nameOf : Nat → Option Str) (r : Bytes) : Option ScriptStep :=
  ((ops.getD (r.getD 21 0).toNat none).map fun op =>
    { opcode := op, index := number ((r.take ((r.getD 0 0).toNat + 1)).drop 2),
      switches := if op = .performScript then [(nameOf (r.getD 8 0).toNat).getD []] else [] })

/-- What a file says about the segments of script `k`: the directory `[17].[5].[k].[4]`, then the segments. -/
def segmentEvents (k : Nat) (segs : List (UInt8 × Bytes)) : List Event :=
  ⟨[17, 5, k, 4], .push⟩ :: segs.map fun s => ⟨[17, 5, k, 4], .segment s.1 s.2⟩

/-- Events that enter the segment directory of script `k` or give a segment. -/
def describesSegments (k : Nat) (e : Event) : Bool :=
  e.path == [17, 5, k, 4] && (match e.what with
    | .push => true
    | .segment _ _ => true
    | _ => false)

/-- Events that give steps of script `k` in another way. -/
def givesSteps (k : Nat) (e : Event) : Bool :=
  e.path.take 3 == [17, 5, k] && e.path != [17, 5, k, 4] && (match e.what with
    | .kv n _ => n == 4
    | .segment n _ => n == 4
    | _ => false)

end BurnFm.Spec
