import Verif.Model.Calc

/-! The documented grammar of calculations: which token sequences spell which expression. -/

namespace BurnFm.Spec

/-- Binding strength, from tightest to loosest. -/
inductive Level where
  | factor | term | expr | concat | cmp
  deriving DecidableEq, Repr

/-- A token that consists of its type only. -/
def sym (ty : TokenType) : Tok := ⟨ty, []⟩

/-- A name in a calculation: no colon in it. -/
def PlainName (s : Str) : Prop := ':' ∉ s

instance (s : Str) : Decidable (PlainName s) := inferInstanceAs (Decidable (¬ _))

/-- `Spells l ts e`: the tokens `ts` spell the expression `e`, at binding strength `l`. Operators of one level
associate to the left; parentheses may be put around any expression. There are no function calls. -/
inductive Spells [Rt] : Level → List Tok → Node Rt.F → Prop
  | number {s : Str} {x : Rt.F} : parseF64 s = some x → Spells .factor [⟨.numericLiteral, s⟩] (.number x)
  | variable {s : Str} : PlainName s → Spells .factor [⟨.identifier, s⟩] (.variable s)
  | field {t f : Str} : PlainName t → PlainName f →
      Spells .factor [⟨.identifier, t ++ t!"::" ++ f⟩] (.field (t ++ t!"::" ++ f))
  | string {s : Str} : Spells .factor [⟨.string, s⟩] (.stringLiteral s)
  | paren {ts : List Tok} {e : Node Rt.F} : Spells .cmp ts e →
      Spells .factor (sym .openParen :: ts ++ [sym .closeParen]) e
  | ofFactor {ts : List Tok} {e : Node Rt.F} : Spells .factor ts e → Spells .term ts e
  | mul {a b : List Tok} {x y : Node Rt.F} {op : TokenType} : op = .multiply ∨ op = .divide →
      Spells .term a x → Spells .factor b y → Spells .term (a ++ sym op :: b) (.binary x op y)
  | ofTerm {ts : List Tok} {e : Node Rt.F} : Spells .term ts e → Spells .expr ts e
  | add {a b : List Tok} {x y : Node Rt.F} {op : TokenType} : op = .plus ∨ op = .minus →
      Spells .expr a x → Spells .term b y → Spells .expr (a ++ sym op :: b) (.binary x op y)
  | ofExpr {ts : List Tok} {e : Node Rt.F} : Spells .expr ts e → Spells .concat ts e
  | concatenate {a b : List Tok} {x y : Node Rt.F} :
      Spells .concat a x → Spells .expr b y → Spells .concat (a ++ sym .ampersand :: b) (.concatenation x y)
  | ofConcat {ts : List Tok} {e : Node Rt.F} : Spells .concat ts e → Spells .cmp ts e
  | compare {a b : List Tok} {x y : Node Rt.F} {op : TokenType} :
      op ∈ [TokenType.eq, .neq, .lt, .ltq, .gt, .gtq] →
      Spells .cmp a x → Spells .concat b y → Spells .cmp (a ++ sym op :: b) (.comparison x op y)

/-- The expressions without calls, with operators of the right kind and names that can be written. -/
inductive Expression [Rt] : Node Rt.F → Prop
  | number {x : Rt.F} : Expression (.number x)
  | variable {s : Str} : PlainName s → Expression (.variable s)
  | field {t f : Str} : PlainName t → PlainName f → Expression (.field (t ++ t!"::" ++ f))
  | string {s : Str} : Expression (.stringLiteral s)
  | arith {x y : Node Rt.F} {op : TokenType} : op ∈ [TokenType.plus, .minus, .multiply, .divide] →
      Expression x → Expression y → Expression (.binary x op y)
  | concatenate {x y : Node Rt.F} : Expression x → Expression y → Expression (.concatenation x y)
  | compare {x y : Node Rt.F} {op : TokenType} : op ∈ [TokenType.eq, .neq, .lt, .ltq, .gt, .gtq] →
      Expression x → Expression y → Expression (.comparison x op y)

/-- Tokens in parentheses, if wanted. -/
def parenIf (b : Bool) (ts : List Tok) : List Tok :=
  if b then sym .openParen :: ts ++ [sym .closeParen] else ts

/-- Strength of a level as a number; higher binds looser. -/
def Level.rank : Level → Nat
  | .factor => 0
  | .term => 1
  | .expr => 2
  | .concat => 3
  | .cmp => 4

/-- The tokens of an expression where an expression of level `l` is expected, with parentheses only where
they are needed. -/
def render [Rt] (l : Level) : Node Rt.F → List Tok
  | .number x => [⟨.numericLiteral, Rt.toText x⟩]
  | .variable s => [⟨.identifier, s⟩]
  | .field s => [⟨.identifier, s⟩]
  | .stringLiteral s => [⟨.string, s⟩]
  | .binary x op y =>
    if op = .multiply ∨ op = .divide then
      parenIf (decide (l.rank < 1)) (render .term x ++ sym op :: render .factor y)
    else parenIf (decide (l.rank < 2)) (render .expr x ++ sym op :: render .term y)
  | .concatenation x y =>
    parenIf (decide (l.rank < 3)) (render .concat x ++ sym .ampersand :: render .expr y)
  | .comparison x op y =>
    parenIf (decide (l.rank < 4)) (render .cmp x ++ sym op :: render .concat y)
  | .call _ _ => []

/-- What the documentation of Rust says about `f64` values and their texts, as far as the proofs use it. -/
class LawfulRt extends Rt where
  /-- what `to_string` writes is accepted by `parse` -/
  text_isFloat : ∀ x : F, isFloatText (toText x) = true
  /-- `to_string` followed by `parse` gives the same value -/
  parse_text : ∀ x : F, ofText (toText x) = x
  /-- whole numbers up to 2⁵³ are exact and written in decimal -/
  nat_text : ∀ n : Nat, n ≤ 2 ^ 53 → toText (ofText (Nat.toDigits 10 n)) = Nat.toDigits 10 n
  /-- and are ordered as numbers -/
  nat_cmp : ∀ n m : Nat, n ≤ 2 ^ 53 → m ≤ 2 ^ 53 →
    cmp (ofText (Nat.toDigits 10 n)) (ofText (Nat.toDigits 10 m)) = some (compare n m)
  /-- and added as numbers -/
  nat_add : ∀ n m : Nat, n + m ≤ 2 ^ 53 →
    add (ofText (Nat.toDigits 10 n)) (ofText (Nat.toDigits 10 m)) = ofText (Nat.toDigits 10 (n + m))

end BurnFm.Spec
