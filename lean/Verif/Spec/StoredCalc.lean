import Verif.Spec.Calc
import Verif.Spec.CalcText

/-! Calculations as a database file stores them, and the expressions they stand for. -/

namespace BurnFm.Spec
variable [Rt]

/-- The token an item of the bytecode stands for; blanks stand for none. -/
def CalcItem.token : CalcItem → Option Tok
  | .symbol _ t => (operators.lookup t).map sym
  | .number _ v _ => some ⟨.numericLiteral, Nat.toDigits 10 v.toNat⟩
  | .str s => some ⟨.string, '"' :: s ++ ['"']⟩
  | .var s => some ⟨.identifier, s⟩
  | _ => none

/-- The items that can be read: operators, parentheses, blanks, numbers, ASCII strings with a letter or digit and without quotes, and
ASCII names of variables. -/
def CalcItem.Readable : CalcItem → Prop
  | .symbol b t => (b, t) ∈ calcSymbols ∧ (t = t!" " ∨ t ∈ operators.map (·.1))
  | .number before _ after => before.length = 8 ∧ after.length = 10
  | .str s => s.length ≤ 255 ∧ (∀ c ∈ s, c.toNat < 128) ∧ '"' ∉ s ∧ ∃ c ∈ s, Alnum c
  | .var s => s.length ≤ 255 ∧ (∀ c ∈ s, c.toNat < 128 ∧ WordChar c) ∧ (∃ c, s.head? = some c ∧ isDigit c = false) ∧ parseF64 s = none
  | _ => False

/-- The items for functions with an argument, and the names of the functions. -/
def storedFunctions : List (CalcItem × Str) :=
  [(.symbol 0x2D t!"Abs", t!"Abs"), (.symbol 0x9D t!"Acos", t!"Acos"), (.symbol 0x9B t!"Get", t!"Get"), (.intrinsic 3, t!"Char")]

/-- The items of a call of a function. -/
def callItems (f : CalcItem) (is : List CalcItem) : List CalcItem :=
  f :: .symbol 0x04 t!"(" :: is ++ [.symbol 0x05 t!")"]

end BurnFm.Spec
