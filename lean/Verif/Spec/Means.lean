import Verif.Spec.Resolves
import Verif.Spec.TextOrder

/-! The calculation language: what the value of every expression is, and why an expression has none. Read this beside
`Props/Means.lean`. -/

namespace BurnFm.Spec

/-- The text `s` is a name, and `t` is what is stored under it. -/
inductive StoredUnder (env : CalcEnv) (s t : Str) : Prop
  | field {occ f : Str} : isFloatText s = false → isQuoted s = false → splitCC s = [occ, f] → CurrentValue env.db f t →
      StoredUnder env s t
  | var : isFloatText s = false → isQuoted s = false → (∀ occ f, splitCC s ≠ [occ, f]) → varValue env s = some t →
      StoredUnder env s t

/-- The text `s` is a name that cannot be looked up: a field where there is no current record, or a variable where no script is
running. -/
inductive DeadEnd (env : CalcEnv) (s : Str) : Prop
  | field {occ f : Str} : isFloatText s = false → isQuoted s = false → splitCC s = [occ, f] →
      (∀ t, ¬CurrentValue env.db f t) → DeadEnd env s
  | var : isFloatText s = false → isQuoted s = false → (∀ occ f, splitCC s ≠ [occ, f]) → ¬Active env → DeadEnd env s

/-- From the name `s` one comes to `t`, by looking up names any number of times. -/
inductive LeadsTo (env : CalcEnv) : Str → Str → Prop
  | here {s : Str} : LeadsTo env s s
  | next {s t u : Str} : StoredUnder env s t → LeadsTo env t u → LeadsTo env s u

/-- The two ways in which a calculation has no value: the program crashes, or it goes on looking up names, until its stack is
full. -/
inductive Ending where
  | crash
  | endless

/-- The text `s` stands for no value: it leads to a name that cannot be looked up, or into a circle. -/
def Lost (env : CalcEnv) : Ending → Str → Prop
  | .crash, s => ∃ t, LeadsTo env s t ∧ DeadEnd env t
  | .endless, s => ∃ t u, LeadsTo env s t ∧ StoredUnder env t u ∧ LeadsTo env u t

/-- The order of the values `x` and `y` in `Min`: as numbers if both stand for numbers, otherwise by the bytes of the texts they
stand for. -/
inductive Larger [Rt] (env : CalcEnv) (x y : Str) : Bool → Prop
  | numbers {a b : Str} {o : Ordering} : Resolves env x a true → Resolves env y b true →
      Rt.cmp (Rt.ofText a) (Rt.ofText b) = some o → Larger env x y (o == .gt)
  | texts {a b : Str} {n m : Bool} : Resolves env x a n → Resolves env y b m → (n && m) = false →
      Larger env x y (decide (textBytes b < textBytes a))

/-- The values `x` and `y` cannot be ordered: one of them stands for no value, or one of them is not a number (NaN). -/
inductive Unordered [Rt] (env : CalcEnv) (x y : Str) : Ending → Prop
  | left {k : Ending} : Lost env k x → Unordered env x y k
  | right {k : Ending} {a : Str} {n : Bool} : Resolves env x a n → Lost env k y → Unordered env x y k
  | nan {a b : Str} : Resolves env x a true → Resolves env y b true → Rt.cmp (Rt.ofText a) (Rt.ofText b) = none →
      Unordered env x y .crash

/-- The functions of the calculation language. `Get` is known but gives a message only. -/
def functionNames : List Str := [t!"Abs", t!"Acos", t!"Asin", t!"Char", t!"Min", t!"Get"]

mutual

/-- `Means env e v`: the value of the expression `e` is the text `v`. -/
inductive Means [Rt] (env : CalcEnv) : Node Rt.F → Str → Prop
  | number {x : Rt.F} : Means env (.number x) (Rt.toText x)
  | text {s : Str} : Means env (.stringLiteral s) s
  | variable {x v : Str} {b : Bool} : Resolves env x v b → Means env (.variable x) v
  | field {x v : Str} {b : Bool} : Resolves env x v b → Means env (.field x) v
  | concatenation {l r : Node Rt.F} {a b : Str} : Means env l a → Means env r b →
      Means env (.concatenation l r) (t!"\"" ++ unquoted a ++ unquoted b ++ t!"\"")
  | holds {l r : Node Rt.F} {op : TokenType} {a b : Str} : op ∈ [TokenType.eq, .neq, .lt, .ltq, .gt, .gtq] →
      Means env l a → Means env r b → TextRel op a b → Means env (.comparison l op r) t!"true"
  | holdsNot {l r : Node Rt.F} {op : TokenType} {a b : Str} : op ∈ [TokenType.eq, .neq, .lt, .ltq, .gt, .gtq] →
      Means env l a → Means env r b → ¬TextRel op a b → Means env (.comparison l op r) t!"false"
  | arithmetic {l r : Node Rt.F} {op : TokenType} {a b a' b' : Str} : op ∈ [TokenType.plus, .minus, .multiply, .divide] →
      Means env l a → Means env r b → Resolves env a a' true → Resolves env b b' true →
      Means env (.binary l op r) (Rt.toText (applyOp op (Rt.ofText a') (Rt.ofText b')))
  | undefined {l r : Node Rt.F} {op : TokenType} {a b a' b' : Str} {n m : Bool} :
      op ∈ [TokenType.plus, .minus, .multiply, .divide] →
      Means env l a → Means env r b → Resolves env a a' n → Resolves env b b' m → (n && m) = false →
      Means env (.binary l op r) t!"undefined"
  | abs {e : Node Rt.F} {es : List (Node Rt.F)} {v : Str} : Means env e v → isFloatText v = true →
      Means env (.call t!"Abs" (e :: es)) (Rt.absText v)
  | acos {e : Node Rt.F} {es : List (Node Rt.F)} {v : Str} : Means env e v → isFloatText v = true →
      Means env (.call t!"Acos" (e :: es)) (Rt.acosText v)
  /-- `Asin` gives the smaller text of the first two arguments. -/
  | asin {e e' : Node Rt.F} {es : List (Node Rt.F)} {v w : Str} : Means env e v → Means env e' w →
      Means env (.call t!"Asin" (e :: e' :: es)) (if textBytes v ≤ textBytes w then v else w)
  | char {e : Node Rt.F} {es : List (Node Rt.F)} {v : Str} {n : Nat} : Means env e v →
      parseUnsigned (2 ^ 32) v = some n → n.isValidChar →
      Means env (.call t!"Char" (e :: es)) (t!"\"" ++ [Char.ofNat n] ++ t!"\"")
  | min {e : Node Rt.F} {es : List (Node Rt.F)} {v w : Str} : Means env e v → Least env v es w →
      Means env (.call t!"Min" (e :: es)) w
  | get {e : Node Rt.F} {es : List (Node Rt.F)} : Means env (.call t!"Get" (e :: es)) t!"Unknown argument for Get()"
  | unimplemented {name : Str} {es : List (Node Rt.F)} : name ∉ functionNames →
      Means env (.call name es) (t!"Unimplemented function: " ++ name)

/-- `Least env v es w`: the least of the value `v` and the values of the expressions `es`, the first one of several, is `w`. -/
inductive Least [Rt] (env : CalcEnv) : Str → List (Node Rt.F) → Str → Prop
  | done {v : Str} : Least env v [] v
  | keep {v u w : Str} {e : Node Rt.F} {es : List (Node Rt.F)} : Means env e u → Larger env v u false → Least env v es w →
      Least env v (e :: es) w
  | take {v u w : Str} {e : Node Rt.F} {es : List (Node Rt.F)} : Means env e u → Larger env v u true → Least env u es w →
      Least env v (e :: es) w

end

mutual

/-- `Fails env k e`: the expression `e` has no value, in the way `k`. -/
inductive Fails [Rt] (env : CalcEnv) : Ending → Node Rt.F → Prop
  | variable {k : Ending} {x : Str} : Lost env k x → Fails env k (.variable x)
  | field {k : Ending} {x : Str} : Lost env k x → Fails env k (.field x)
  | concatenationLeft {k : Ending} {l r : Node Rt.F} : Fails env k l → Fails env k (.concatenation l r)
  | concatenationRight {k : Ending} {l r : Node Rt.F} {a : Str} : Means env l a → Fails env k r →
      Fails env k (.concatenation l r)
  /-- not an operator of comparison: the parser makes no such expressions -/
  | noComparison {l r : Node Rt.F} {op : TokenType} : op ∉ [TokenType.eq, .neq, .lt, .ltq, .gt, .gtq] →
      Fails env .crash (.comparison l op r)
  | comparisonLeft {k : Ending} {l r : Node Rt.F} {op : TokenType} : op ∈ [TokenType.eq, .neq, .lt, .ltq, .gt, .gtq] →
      Fails env k l → Fails env k (.comparison l op r)
  | comparisonRight {k : Ending} {l r : Node Rt.F} {op : TokenType} {a : Str} :
      op ∈ [TokenType.eq, .neq, .lt, .ltq, .gt, .gtq] → Means env l a → Fails env k r → Fails env k (.comparison l op r)
  | arithmeticLeft {k : Ending} {l r : Node Rt.F} {op : TokenType} : Fails env k l → Fails env k (.binary l op r)
  | arithmeticRight {k : Ending} {l r : Node Rt.F} {op : TokenType} {a : Str} : Means env l a → Fails env k r →
      Fails env k (.binary l op r)
  /-- the values of the operands are taken for names in their turn -/
  | operandLeft {k : Ending} {l r : Node Rt.F} {op : TokenType} {a b : Str} : Means env l a → Means env r b → Lost env k a →
      Fails env k (.binary l op r)
  | operandRight {k : Ending} {l r : Node Rt.F} {op : TokenType} {a b a' : Str} {n : Bool} : Means env l a → Means env r b →
      Resolves env a a' n → Lost env k b → Fails env k (.binary l op r)
  /-- not an operator of arithmetic: the parser makes no such expressions -/
  | noArithmetic {l r : Node Rt.F} {op : TokenType} {a b a' b' : Str} {n m : Bool} :
      op ∉ [TokenType.plus, .minus, .multiply, .divide] → Means env l a → Means env r b → Resolves env a a' n →
      Resolves env b b' m → Fails env .crash (.binary l op r)
  | noArguments {name : Str} : name ∈ functionNames → Fails env .crash (.call name [])
  /-- `Get` does not look at its arguments -/
  | firstArgument {k : Ending} {name : Str} {e : Node Rt.F} {es : List (Node Rt.F)} : name ∈ functionNames → name ≠ t!"Get" →
      Fails env k e → Fails env k (.call name (e :: es))
  | noNumber {name : Str} {e : Node Rt.F} {es : List (Node Rt.F)} {v : Str} : name ∈ [t!"Abs", t!"Acos"] → Means env e v →
      isFloatText v = false → Fails env .crash (.call name (e :: es))
  | asinOne {e : Node Rt.F} {v : Str} : Means env e v → Fails env .crash (.call t!"Asin" [e])
  | asinSecond {k : Ending} {e e' : Node Rt.F} {es : List (Node Rt.F)} {v : Str} : Means env e v → Fails env k e' →
      Fails env k (.call t!"Asin" (e :: e' :: es))
  | noCharacter {e : Node Rt.F} {es : List (Node Rt.F)} {v : Str} : Means env e v →
      (∀ n, parseUnsigned (2 ^ 32) v = some n → ¬n.isValidChar) → Fails env .crash (.call t!"Char" (e :: es))
  | min {k : Ending} {e : Node Rt.F} {es : List (Node Rt.F)} {v : Str} : Means env e v → NoLeast env k v es →
      Fails env k (.call t!"Min" (e :: es))

/-- `NoLeast env k v es`: the least of `v` and the values of `es` cannot be found. -/
inductive NoLeast [Rt] (env : CalcEnv) : Ending → Str → List (Node Rt.F) → Prop
  | argument {k : Ending} {v : Str} {e : Node Rt.F} {es : List (Node Rt.F)} : Fails env k e → NoLeast env k v (e :: es)
  | order {k : Ending} {v u : Str} {e : Node Rt.F} {es : List (Node Rt.F)} : Means env e u → Unordered env v u k →
      NoLeast env k v (e :: es)
  | keep {k : Ending} {v u : Str} {e : Node Rt.F} {es : List (Node Rt.F)} : Means env e u → Larger env v u false →
      NoLeast env k v es → NoLeast env k v (e :: es)
  | take {k : Ending} {v u : Str} {e : Node Rt.F} {es : List (Node Rt.F)} : Means env e u → Larger env v u true →
      NoLeast env k u es → NoLeast env k v (e :: es)

end

/-- The text `s` is read as the expression `e`. What is read as what is the matter of C38 to C41. -/
def ReadAs [Rt] (s : Str) (e : Node Rt.F) : Prop := ∃ ts fuel, lexCalc s = .ok ts ∧ parseCalc fuel ts = .ok e

end BurnFm.Spec
