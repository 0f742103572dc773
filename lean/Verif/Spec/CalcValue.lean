import Verif.Spec.CalcGrammar

/-! What calculations should evaluate to. -/

namespace BurnFm.Spec

/-- A name that can only mean a variable: not a number, not a quoted text, without colons. -/
structure VarName (s : Str) : Prop where
  plain : PlainName s
  notNumber : isFloatText s = false
  notQuoted : isQuoted s = false

/-- The value of a variable in the active script invocation. -/
def varValue (env : CalcEnv) (name : Str) : Option Str :=
  match env.depth with
  | 0 => none
  | d + 1 => (env.vars[d]?).bind (fun m => SMap.get m name)

/-- The active script invocation has a set of variables. -/
def Active (env : CalcEnv) : Prop := ∃ d m, env.depth = d + 1 ∧ env.vars[d]? = some m

/-- `v` is in the first field called `f` of record number `r` of occurrence number `i`. -/
def ValueAt (db : Database) (i : Nat) (f v : Str) : Prop :=
  ∃ o t r fld, db.occs[i]? = some o ∧ db.tables[o.tablePtr]? = some t ∧ o.foundSet[o.recordPtr]? = some r ∧
    t.fields.find? (fun x => x.name == f) = some fld ∧ fld.records[r]? = some v

/-- `v` is in field `f` of the current record of the occurrence called `occ`. -/
def OccurrenceValue (db : Database) (occ f v : Str) : Prop := ∃ i, SMap.get db.indices occ = some i ∧ ValueAt db i f v

/-- The floating point operation of an arithmetic operator. -/
def applyOp [Rt] : TokenType → Rt.F → Rt.F → Rt.F
  | .plus => Rt.add
  | .minus => Rt.sub
  | .multiply => Rt.mul
  | _ => Rt.div

/-- `Arith env e x`: the expression `e` over numbers, numeric variables, numeric fields of the current record and
`+ - * /` has the value `x`. -/
inductive Arith [Rt] (env : CalcEnv) : Node Rt.F → Rt.F → Prop
  | number {x : Rt.F} : Arith env (.number x) x
  | variable {name v : Str} {x : Rt.F} : VarName name → varValue env name = some v → parseF64 v = some x →
      Arith env (.variable name) x
  | field {t f v : Str} {x : Rt.F} : PlainName t → PlainName f → isQuoted (t ++ t!"::" ++ f) = false →
      ValueAt env.db env.db.handle f v → parseF64 v = some x → Arith env (.field (t ++ t!"::" ++ f)) x
  | op {l r : Node Rt.F} {op : TokenType} {x y : Rt.F} : op ∈ [TokenType.plus, .minus, .multiply, .divide] →
      Arith env l x → Arith env r y → Arith env (.binary l op r) (applyOp op x y)

/-- The text without quote characters. -/
def unquoted (s : Str) : Str := s.filter (fun c => c != '"')

/-- The number a numeral denotes. -/
def numeral [Rt] (n : Nat) : Node Rt.F := .number (Rt.ofText (Nat.toDigits 10 n))

/-- What a comparison of natural numbers should be. -/
def natCompare : TokenType → Nat → Nat → Bool
  | .eq, n, m => n == m
  | .neq, n, m => n != m
  | .lt, n, m => decide (n < m)
  | .ltq, n, m => decide (n ≤ m)
  | .gt, n, m => decide (m < n)
  | .gtq, n, m => decide (m ≤ n)
  | _, _, _ => false

/-- How many digits a natural number is written with. -/
def digitCount (n : Nat) : Nat := (Nat.toDigits 10 n).length

/-- `0.n ≤ 0.m`, the digits read as those of decimal fractions; of equal fractions the one with fewer digits comes first. -/
def FractionLe (n m : Nat) : Prop :=
  n * 10 ^ digitCount m < m * 10 ^ digitCount n ∨ n * 10 ^ digitCount m = m * 10 ^ digitCount n ∧ digitCount n ≤ digitCount m

instance (n m : Nat) : Decidable (FractionLe n m) := inferInstanceAs (Decidable (_ ∨ _))

/-- The comparisons with the order of the fractions. -/
def fractionCompare : TokenType → Nat → Nat → Bool
  | .eq, n, m => n == m
  | .neq, n, m => n != m
  | .lt, n, m => !decide (FractionLe m n)
  | .ltq, n, m => decide (FractionLe n m)
  | .gt, n, m => !decide (FractionLe n m)
  | .gtq, n, m => decide (FractionLe m n)
  | _, _, _ => false

end BurnFm.Spec
