import Verif.Spec.CalcGrammar

/-! Operators and their right operands. -/

namespace BurnFm.Spec

/-- The binding strength that the right operand of an operator must have. -/
def rightLevel : TokenType → Option Level
  | .multiply | .divide => some .factor
  | .plus | .minus => some .term
  | .ampersand => some .expr
  | .eq | .neq | .lt | .ltq | .gt | .gtq => some .concat
  | _ => none

/-- The expression that an operator makes of its operands. -/
def combine {F : Type} (op : TokenType) (x y : Node F) : Node F :=
  match op with
  | .plus | .minus | .multiply | .divide => .binary x op y
  | .ampersand => .concatenation x y
  | _ => .comparison x op y

/-- Token sequences with commas between them. -/
def argTokens : List (List Tok) → List Tok
  | [] => []
  | [w] => w
  | w :: ws => w ++ sym .comma :: argTokens ws

end BurnFm.Spec
