import Verif.Spec.Means
import Verif.Spec.CalcNotes

/-! The warnings of a calculation, in order. Read this beside `Props/Warns.lean`. -/

namespace BurnFm.Spec

/-- `LookupWarns env s ns`: looking up the text `s` prints the warnings `ns`: none if it leads to a number or a text in quotes, one
if it leads to a variable that is not set. -/
inductive LookupWarns (env : CalcEnv) : Str → List Note → Prop
  | value {s : Str} : isFloatText s = true ∨ isQuoted s = true → LookupWarns env s []
  | unset {s : Str} : isFloatText s = false → isQuoted s = false → (∀ occ f, splitCC s ≠ [occ, f]) → Active env →
      varValue env s = none → LookupWarns env s [.unknownVariable s]
  | next {s t : Str} {ns : List Note} : StoredUnder env s t → LookupWarns env t ns → LookupWarns env s ns

/-- Both texts stand for numbers. -/
def BothNumbers (env : CalcEnv) (a b : Str) : Prop := (∃ v, Resolves env a v true) ∧ ∃ v, Resolves env b v true

mutual

/-- `Warns env e ns`: evaluating the expression `e` prints the warnings `ns`, in this order. -/
inductive Warns [Rt] (env : CalcEnv) : Node Rt.F → List Note → Prop
  | number {x : Rt.F} : Warns env (.number x) []
  | text {s : Str} : Warns env (.stringLiteral s) []
  | variable {x : Str} {ns : List Note} : LookupWarns env x ns → Warns env (.variable x) ns
  | field {x : Str} {ns : List Note} : LookupWarns env x ns → Warns env (.field x) ns
  | concatenation {l r : Node Rt.F} {ns ms : List Note} : Warns env l ns → Warns env r ms →
      Warns env (.concatenation l r) (ns ++ ms)
  | comparison {l r : Node Rt.F} {op : TokenType} {ns ms : List Note} : Warns env l ns → Warns env r ms →
      Warns env (.comparison l op r) (ns ++ ms)
  /-- first the warnings of both sides, then those of looking up both values -/
  | arithmetic {l r : Node Rt.F} {op : TokenType} {a b : Str} {ns ms ns' ms' : List Note} : Warns env l ns → Warns env r ms →
      Means env l a → Means env r b → LookupWarns env a ns' → LookupWarns env b ms' → BothNumbers env a b →
      Warns env (.binary l op r) (ns ++ ms ++ ns' ++ ms')
  | undefined {l r : Node Rt.F} {op : TokenType} {a b : Str} {ns ms ns' ms' : List Note} : Warns env l ns → Warns env r ms →
      Means env l a → Means env r b → LookupWarns env a ns' → LookupWarns env b ms' → ¬BothNumbers env a b →
      Warns env (.binary l op r) (ns ++ ms ++ ns' ++ ms' ++ [.notNumbers])
  /-- `Abs`, `Acos` and `Char` evaluate their first argument only -/
  | first {name : Str} {e : Node Rt.F} {es : List (Node Rt.F)} {ns : List Note} : name ∈ [t!"Abs", t!"Acos", t!"Char"] →
      Warns env e ns → Warns env (.call name (e :: es)) ns
  | asin {e e' : Node Rt.F} {es : List (Node Rt.F)} {ns ms : List Note} : Warns env e ns → Warns env e' ms →
      Warns env (.call t!"Asin" (e :: e' :: es)) (ns ++ ms)
  | min {e : Node Rt.F} {es : List (Node Rt.F)} {v : Str} {ns ms : List Note} : Warns env e ns → Means env e v →
      LeastWarns env v es ms → Warns env (.call t!"Min" (e :: es)) (ns ++ ms)
  /-- other functions do not evaluate their arguments -/
  | other {name : Str} {es : List (Node Rt.F)} : name ∉ [t!"Abs", t!"Acos", t!"Char", t!"Asin", t!"Min"] →
      Warns env (.call name es) []

/-- `LeastWarns env v es ns`: the warnings while the least of `v` and the values of `es` is found: each value is looked up, and the
least one so far is looked up again every time. -/
inductive LeastWarns [Rt] (env : CalcEnv) : Str → List (Node Rt.F) → List Note → Prop
  | done {v : Str} : LeastWarns env v [] []
  | keep {v u : Str} {e : Node Rt.F} {es : List (Node Rt.F)} {ns vs us ms : List Note} : Warns env e ns → Means env e u →
      LookupWarns env v vs → LookupWarns env u us → Larger env v u false → LeastWarns env v es ms →
      LeastWarns env v (e :: es) (ns ++ vs ++ us ++ ms)
  | take {v u : Str} {e : Node Rt.F} {es : List (Node Rt.F)} {ns vs us ms : List Note} : Warns env e ns → Means env e u →
      LookupWarns env v vs → LookupWarns env u us → Larger env v u true → LeastWarns env u es ms →
      LeastWarns env v (e :: es) (ns ++ vs ++ us ++ ms)

end

end BurnFm.Spec
