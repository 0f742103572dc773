import Verif.Model.AssemblerOutput
import Verif.Spec.Contents

/-! What the assembler should print for the contents it writes. -/

namespace BurnFm.Spec

/-- A number of a directory or of a property, as it is stored: one byte below 128, else two. -/
def numberBytes (n : Nat) : Bytes := if n < 128 then [UInt8.ofNat n] else [252, UInt8.ofNat (n - 128)]

/-- The line for a directory. -/
def entersLine (n : Nat) : AsmLine := .entering (if n < 128 then 0x20 else 0x28) (numberBytes n)

/-- The lines for a record in a directory: only long values, the property 216, properties from 128 on that have two-byte numbers,
and the numbers of tables are shown. -/
def recordLines (path : List Nat) : What → List AsmLine
  | .kv key val =>
    if key = 216 ∨ (key < 128 ∧ 10 ≤ val.length) then [.value (UInt8.ofNat key) val (UInt8.ofNat val.length)]
    else if 128 ≤ key then [.pushing (numberBytes key)]
    else []
  | .longKv key _ => if path = [3, 16, 1, 3] then [.table key] else []
  | _ => []

mutual
/-- The lines for an item of directory `path`. -/
def Item.printed (path : List Nat) : Item → List AsmLine
  | .record w => recordLines path w
  | .dir n items => entersLine n :: printedAll (path ++ [n]) items
/-- The lines for several items. -/
def printedAll (path : List Nat) : List Item → List AsmLine
  | [] => []
  | i :: is => i.printed path ++ printedAll path is
end

end BurnFm.Spec
