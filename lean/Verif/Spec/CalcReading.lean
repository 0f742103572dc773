import Verif.Spec.CalcArgs

/-! The complete grammar of calculations: how any sequence of tokens is read, also those that are not as documented. -/

namespace BurnFm.Spec

/-- The tokens ahead after one was read. The last token is never given up: reading stays at it. -/
def ahead : List Tok → List Tok
  | [] => []
  | [t] => [t]
  | _ :: t :: r => t :: r

/-- The operators of a level. -/
def Level.operators : Level → List TokenType
  | .factor => []
  | .term => [.multiply, .divide]
  | .expr => [.plus, .minus]
  | .concat => [.ampersand]
  | .cmp => [.eq, .neq, .gt, .gtq, .lt, .ltq]

/-- The next tighter level, that of the operands. -/
def Level.operand : Level → Level
  | .factor => .factor
  | .term => .factor
  | .expr => .term
  | .concat => .expr
  | .cmp => .concat

/-- What is read: an expression of a level, or the arguments of a call. -/
inductive Phrase (F : Type) where
  | node (l : Level) (e : Node F)
  | arguments (es : List (Node F))

/-- Nothing can be added to an expression of level `l` from the tokens ahead. -/
def Complete (l : Level) : List Tok → Prop
  | [] => False
  | [o] => l = .cmp ∨ o.ty ∉ l.operators
  | o :: _ :: _ => o.ty ∉ l.operators

/-- `Understood x ts r`: at the tokens `ts`, `x` can be read, and the tokens `r` are ahead then. -/
inductive Understood [Rt] : Phrase Rt.F → List Tok → List Tok → Prop
  /-- a number -/
  | number {s : Str} {x : Rt.F} {r : List Tok} : parseF64 s = some x →
      Understood (.node .factor (.number x)) (⟨.numericLiteral, s⟩ :: r) (ahead (⟨.numericLiteral, s⟩ :: r))
  /-- a text in quotes -/
  | string {s : Str} {r : List Tok} :
      Understood (.node .factor (.stringLiteral s)) (⟨.string, s⟩ :: r) (ahead (⟨.string, s⟩ :: r))
  /-- the name of a field, with one pair of colons -/
  | field {s : Str} {r : List Tok} : (splitCC s).length = 2 →
      Understood (.node .factor (.field s)) (⟨.identifier, s⟩ :: r) (ahead (⟨.identifier, s⟩ :: r))
  /-- another name, if no parenthesis follows -/
  | name {s : Str} {r : List Tok} : (splitCC s).length ≠ 2 → (∀ t, r.head? = some t → t.ty ≠ .openParen) →
      Understood (.node .factor (.variable s)) (⟨.identifier, s⟩ :: r) (ahead (⟨.identifier, s⟩ :: r))
  /-- a name and a parenthesis begin a call; the parenthesis is read as part of the first argument, and the token after the last
  argument is skipped, whatever it is -/
  | call {s : Str} {t : Tok} {r r' : List Tok} {es : List (Node Rt.F)} : (splitCC s).length ≠ 2 → t.ty = .openParen →
      Understood (.arguments es) (t :: r) r' →
      Understood (.node .factor (.call s es)) (⟨.identifier, s⟩ :: t :: r) (ahead r')
  /-- the last argument -/
  | lastArgument {e : Node Rt.F} {ts r : List Tok} : Understood (.node .expr e) ts r → Complete .expr r →
      (∀ t, r.head? = some t → t.ty ≠ .comma) → Understood (.arguments [e]) ts r
  /-- an argument with a comma after it -/
  | argument {e : Node Rt.F} {es : List (Node Rt.F)} {ts r r' : List Tok} {t : Tok} :
      Understood (.node .expr e) ts (t :: r) → t.ty = .comma → Understood (.arguments es) (ahead (t :: r)) r' →
      Understood (.arguments (e :: es)) ts r'
  /-- after a parenthesis an expression is read, and then one token is skipped, whatever it is -/
  | paren {t : Tok} {e : Node Rt.F} {r r' : List Tok} : t.ty = .openParen → Understood (.node .cmp e) (ahead (t :: r)) r' →
      Complete .cmp r' → Understood (.node .factor e) (t :: r) (ahead r')
  /-- an operand alone -/
  | alone {l : Level} {e : Node Rt.F} {ts r : List Tok} : l ≠ .factor → Understood (.node l.operand e) ts r →
      Complete l.operand r → Understood (.node l e) ts r
  /-- an operator and another operand -/
  | operation {l : Level} {e e' : Node Rt.F} {ts r r' : List Tok} {o : Tok} : Understood (.node l e) ts (o :: r) →
      ¬ Complete l (o :: r) → Understood (.node l.operand e') (ahead (o :: r)) r' → Complete l.operand r' →
      Understood (.node l (combine o.ty e e')) ts r'

/-- The calculation that is read from a sequence of tokens. What is ahead then does not matter. -/
def Calculation [Rt] (ts : List Tok) (e : Node Rt.F) : Prop := ∃ r, Understood (.node .cmp e) ts r ∧ Complete .cmp r

/-- `Comes x ts`: to read an expression of a level, or the arguments of a call (`none`), at `ts`, an operand must be read at an opening
parenthesis that is the last token. -/
inductive Comes [Rt] : Option Level → List Tok → Prop
  | here {t : Tok} : t.ty = .openParen → Comes (some .factor) [t]
  /-- behind a parenthesis -/
  | paren {t : Tok} {r : List Tok} : t.ty = .openParen → Comes (some .cmp) (ahead (t :: r)) → Comes (some .factor) (t :: r)
  /-- in a call -/
  | call {s : Str} {t : Tok} {r : List Tok} : (splitCC s).length ≠ 2 → t.ty = .openParen → Comes none (t :: r) →
      Comes (some .factor) (⟨.identifier, s⟩ :: t :: r)
  /-- in the first argument -/
  | firstArgument {ts : List Tok} : Comes (some .expr) ts → Comes none ts
  /-- in a later one -/
  | laterArgument {e : Node Rt.F} {ts r : List Tok} {t : Tok} : Understood (.node .expr e) ts (t :: r) → t.ty = .comma →
      Comes none (ahead (t :: r)) → Comes none ts
  /-- in the first operand -/
  | first {l : Level} {ts : List Tok} : l ≠ .factor → Comes (some l.operand) ts → Comes (some l) ts
  /-- in a later one -/
  | later {l : Level} {e : Node Rt.F} {ts r : List Tok} {o : Tok} : Understood (.node l e) ts (o :: r) → ¬ Complete l (o :: r) →
      Comes (some l.operand) (ahead (o :: r)) → Comes (some l) ts

end BurnFm.Spec
