import Verif.Model.CalcNotes
import Verif.Spec.CalcValue

/-! What the warnings of calculations should say. -/

namespace BurnFm.Spec

/-- The second state has all variables of the first one, with the same values, and maybe more; the database is the same. -/
structure MoreVariables (env env' : CalcEnv) : Prop where
  db : env'.db = env.db
  depth : env'.depth = env.depth
  active : Active env' ↔ Active env
  kept : ∀ x v, varValue env x = some v → varValue env' x = some v

/-- The first expression occurs in the second one. -/
inductive Occurs [Rt] (x : Node Rt.F) : Node Rt.F → Prop
  | here : Occurs x x
  | arithLeft {l r : Node Rt.F} {op : TokenType} : Occurs x l → Occurs x (.binary l op r)
  | arithRight {l r : Node Rt.F} {op : TokenType} : Occurs x r → Occurs x (.binary l op r)
  | concatLeft {l r : Node Rt.F} : Occurs x l → Occurs x (.concatenation l r)
  | concatRight {l r : Node Rt.F} : Occurs x r → Occurs x (.concatenation l r)
  | compareLeft {l r : Node Rt.F} {op : TokenType} : Occurs x l → Occurs x (.comparison l op r)
  | compareRight {l r : Node Rt.F} {op : TokenType} : Occurs x r → Occurs x (.comparison l op r)

/-- The value of the expression, looked up as an operand, is a number. -/
def IsNumber [Rt] (env : CalcEnv) (fuel : Nat) (e : Node Rt.F) : Prop :=
  ∃ a o, evalNode env fuel e = .ok a ∧ operandVal env fuel a = .ok o ∧ o.number = true

/-- A stored value that is not looked up any further. -/
def Settled (v : Str) : Prop := isFloatText v = true ∨ isQuoted v = true

/-- All variables and fields of the expression that have a value have a number or a text in quotes. -/
def SettledIn [Rt] (env : CalcEnv) (e : Node Rt.F) : Prop :=
  (∀ x v, Occurs (.variable x) e → varValue env x = some v → Settled v) ∧
  ∀ t f v, Occurs (.field (t ++ t!"::" ++ f)) e → env.db.foundSetRecordField f = .ok v → Settled v

end BurnFm.Spec
