import Verif.Model.Database

/-! Model of the calculation engine of the test runner: `src/testing/calc_tokens.rs`,
`src/testing/calc_eval.rs` and the functions `eval_calculation`, `get_operand_val` and `evaluate` of
`src/testing/test.rs`. -/

namespace BurnFm

/-- Why a computation of the test runner stops without a result: a panic, or the bound on the recursion depth
was reached. Recursion without end overflows the stack of the program and aborts it; the model shows it as
`fuel` for every bound. -/
inductive Stop where
  | panic (p : Panic)
  | fuel
  deriving DecidableEq, Repr

/-- Result of a computation that may panic or not return. -/
abbrev Ev (α : Type) := Except Stop α

instance instDecEqEv {α : Type} [DecidableEq α] : DecidableEq (Ev α)
  | .ok a, .ok b => if h : a = b then .isTrue (by rw [h]) else .isFalse (fun e => h (Except.ok.inj e))
  | .error a, .error b => if h : a = b then .isTrue (by rw [h]) else .isFalse (fun e => h (Except.error.inj e))
  | .ok _, .error _ => .isFalse nofun
  | .error _, .ok _ => .isFalse nofun

/-- A panicking computation as part of one that may not return. -/
def liftR {α : Type} : Res α → Ev α
  | .ok a => .ok a
  | .error p => .error (.panic p)

/-! ### Characters and number texts -/

/-- `c.is_ascii_digit()` -/
def isDigit (c : Char) : Bool := decide (48 ≤ c.toNat) && decide (c.toNat ≤ 57)

/-- `c.is_whitespace()`: the characters with the Unicode property White_Space. -/
def isSpace (c : Char) : Bool :=
  (decide (9 ≤ c.toNat) && decide (c.toNat ≤ 13)) || c.toNat == 32 || c.toNat == 0x85 || c.toNat == 0xA0 ||
  c.toNat == 0x1680 || (decide (0x2000 ≤ c.toNat) && decide (c.toNat ≤ 0x200A)) || c.toNat == 0x2028 ||
  c.toNat == 0x2029 || c.toNat == 0x202F || c.toNat == 0x205F || c.toNat == 0x3000

/-- ASCII lower case -/
def lower (c : Char) : Char :=
  if decide (65 ≤ c.toNat) && decide (c.toNat ≤ 90) then Char.ofNat (c.toNat + 32) else c

/-- An optional sign in front of a number text. -/
def dropSign : Str → Str
  | '+' :: s => s
  | '-' :: s => s
  | s => s

/-- Nothing, or an exponent: `e` or `E`, an optional sign, digits. -/
def isExponent : Str → Bool
  | [] => true
  | c :: s => (c == 'e' || c == 'E') && !(dropSign s).isEmpty && (dropSign s).all isDigit

/-- Digits with an optional point and exponent; at least one digit before the exponent. -/
def isNumberText (s : Str) : Bool :=
  match s.dropWhile isDigit with
  | '.' :: r => (!(s.takeWhile isDigit).isEmpty || !(r.takeWhile isDigit).isEmpty) && isExponent (r.dropWhile isDigit)
  | r => !(s.takeWhile isDigit).isEmpty && isExponent r

/-- Whether `s.parse::<f64>()` (or `f32`) succeeds, following the grammar in the documentation of Rust's
`f64::from_str`. -/
def isFloatText (s : Str) : Bool :=
  (dropSign s).map lower == t!"inf" || (dropSign s).map lower == t!"infinity" ||
  (dropSign s).map lower == t!"nan" || isNumberText (dropSign s)

/-- The value of a text of digits. -/
def digitsVal (s : Str) : Nat := s.foldl (fun n c => 10 * n + (c.toNat - 48)) 0

/-- `s.parse::<uN>()` for the unsigned type with the given number of values. -/
def parseUnsigned (bound : Nat) (s : Str) : Option Nat :=
  let d := match s with | '+' :: s => s | s => s
  if !d.isEmpty && d.all isDigit && decide (digitsVal d < bound) then some (digitsVal d) else none

/-- The parts of the Rust runtime the calculation engine uses and the model leaves open: 64 bit floating
point numbers and the Unicode tables. -/
class Rt where
  /-- the `f64` values; all NaN are one value -/
  F : Type
  /-- the value of a text accepted by `parse::<f64>()` -/
  ofText : Str → F
  /-- `x.to_string()` -/
  toText : F → Str
  add : F → F → F
  sub : F → F → F
  mul : F → F → F
  div : F → F → F
  /-- `x.partial_cmp(&y)`, `None` if one is NaN -/
  cmp : F → F → Option Ordering
  /-- `s.parse::<f32>().unwrap().abs().to_string()` for an accepted text -/
  absText : Str → Str
  /-- `s.parse::<f64>().unwrap().acos().to_string()` for an accepted text -/
  acosText : Str → Str
  /-- `c.is_alphanumeric()` for characters outside ASCII -/
  alnumHigh : Char → Bool

/-- `c.is_alphanumeric()` -/
def isAlnum [Rt] (c : Char) : Bool :=
  if c.toNat < 128 then
    isDigit c || (decide (65 ≤ c.toNat) && decide (c.toNat ≤ 90)) || (decide (97 ≤ c.toNat) && decide (c.toNat ≤ 122))
  else Rt.alnumHigh c

/-- `s.parse::<f64>().ok()` -/
def parseF64 [Rt] (s : Str) : Option Rt.F := if isFloatText s then some (Rt.ofText s) else none

/-! ### Tokens -/

/-- src/testing/calc_tokens.rs:2-24 `TokenType`. -/
inductive TokenType where
  | openParen | closeParen | identifier | numericLiteral | string | semiColon | comma | openSquare | closeSquare
  | plus | minus | multiply | divide | ampersand | eq | neq | gtq | ltq | gt | lt
  deriving DecidableEq, Repr

/-- src/testing/calc_tokens.rs:26-47 `Token`. -/
structure Tok where
  ty : TokenType
  value : Str := []
  deriving DecidableEq, Repr

/-- Where the calculation lexer is. The code has nested loops, the model one machine: `skip` is the
`lex_iter.next()` after `!=`, `str` the loop at lines 624-630, `fieldSkip` the `lex_iter.next()` at line 647
and `field` the loop at lines 649-655. -/
inductive CalcMode where
  | normal | skip | str | fieldSkip | field
  deriving DecidableEq, Repr

/-- src/testing/test.rs:470-483 `flush_buffer`, then `unwrap`. The buffer is not empty where it is called. -/
def flushBuffer [Rt] (b : Str) : Res Tok :=
  match parseF64 b with
  | some n => .ok ⟨.numericLiteral, Rt.toText n⟩
  | none =>
    match b with
    | [] => .error .index
    | c :: _ => if isDigit c then .error .unwrap else .ok ⟨.identifier, b⟩

/-- `if buffer.len() > 0 { .. tokens.push(b.unwrap()); }` -/
def flushInto [Rt] (buf : Str) (acc : List Tok) : Res (List Tok) :=
  if buf.isEmpty then .ok acc else do
    let t ← flushBuffer buf
    pure (acc ++ [t])

/-- The one-character tokens, src/testing/test.rs:503-566. -/
def symbolToken : Char → Option TokenType
  | '(' => some .openParen
  | ')' => some .closeParen
  | '+' => some .plus
  | ',' => some .comma
  | '-' => some .minus
  | '*' => some .multiply
  | '/' => some .divide
  | '&' => some .ampersand
  | _ => none

/-- src/testing/test.rs:631-637: a string literal is kept only if it contains an alphanumeric character. -/
def pushString [Rt] (buf : Str) (acc : List Tok) : List Tok :=
  if buf.any isAlnum then acc ++ [⟨.string, buf⟩] else acc

/-- src/testing/test.rs:485-670: the lexer of `eval_calculation`; `peek` is the head of the remaining text. -/
def calcLex [Rt] (m : CalcMode) (buf : Str) (acc : List Tok) : Str → Res (List Tok)
  | [] =>
    match m with
    | .normal => flushInto buf acc
    | .skip => flushInto buf acc
    | .str => .ok (pushString buf acc)
    | .fieldSkip => .ok (acc ++ [⟨.identifier, buf ++ [':']⟩])
    | .field => .ok (acc ++ [⟨.identifier, buf⟩])
  | c :: rest =>
    match m with
    | .skip => calcLex .normal buf acc rest
    | .str =>
      if c = '"' then calcLex .normal [] (pushString (buf ++ [c]) acc) rest
      else calcLex .str (buf ++ [c]) acc rest
    | .fieldSkip => calcLex .field (buf ++ [':']) acc rest
    | .field =>
      match rest with
      | d :: _ =>
        if isAlnum d then calcLex .field (buf ++ [c]) acc rest
        else calcLex .normal [] (acc ++ [⟨.identifier, buf ++ [c]⟩]) rest
      | [] => calcLex .normal [] (acc ++ [⟨.identifier, buf ++ [c]⟩]) rest
    | .normal =>
      if isSpace c && buf.isEmpty then calcLex .normal buf acc rest
      else if c = ' ' then do
        let acc ← flushInto buf acc
        calcLex .normal [] acc rest
      else match symbolToken c with
        | some ty => do
          let acc ← flushInto buf acc
          calcLex .normal [] (acc ++ [⟨ty, []⟩]) rest
        | none =>
          if c = '!' then do
            let acc ← flushInto buf acc
            let d ← unwrap rest.head?
            if d = '=' then calcLex .skip [] (acc ++ [⟨.neq, []⟩]) rest
            else calcLex .normal [] acc rest
          else if c = '=' then do
            let acc ← flushInto buf acc
            let d ← unwrap rest.head?
            if d = '=' then calcLex .normal [] (acc ++ [⟨.eq, []⟩]) rest
            else calcLex .normal [] acc rest
          else if c = '<' then do
            let acc ← flushInto buf acc
            let d ← unwrap rest.head?
            if d = '=' then calcLex .normal [] (acc ++ [⟨.ltq, []⟩]) rest
            else calcLex .normal [] (acc ++ [⟨.lt, []⟩]) rest
          else if c = '>' then do
            let acc ← flushInto buf acc
            let d ← unwrap rest.head?
            if d = '=' then calcLex .normal [] (acc ++ [⟨.gtq, []⟩]) rest
            else calcLex .normal [] (acc ++ [⟨.gt, []⟩]) rest
          else if c = '"' then do
            let acc ← flushInto buf acc
            calcLex .str [c] acc rest
          else if c = ':' then
            if rest.head? = some ':' then calcLex .fieldSkip (buf ++ [':']) acc rest
            else calcLex .fieldSkip (buf ++ [':', ':']) acc rest
          else calcLex .normal (buf ++ [c]) acc rest

/-- The tokens of a calculation text. -/
def lexCalc [Rt] (s : Str) : Res (List Tok) := calcLex .normal [] [] s

/-! ### Parser -/

/-- src/testing/calc_eval.rs:45-56 `Node`. Simplification: `Unary` and `Grouping` are left out, the parser
never builds them (`parse_primary` is only called by `parse_factor`, which handles `OpenParen` itself). -/
inductive Node (F : Type) where
  | binary (left : Node F) (operation : TokenType) (right : Node F)
  | concatenation (left right : Node F)
  | comparison (left : Node F) (operation : TokenType) (right : Node F)
  | call (name : Str) (args : List (Node F))
  | number (x : F)
  | variable (name : Str)
  | field (name : Str)
  | stringLiteral (s : Str)

/-- src/testing/calc_eval.rs:113-115 `current`. -/
def current (ts : List Tok) (i : Nat) : Ev Tok := liftR (idx ts i)

/-- src/testing/calc_eval.rs:98-104 `next`: the new index, or `none` at the last token, where the index stays.
The parser never calls it on an empty list: `current` panics first. -/
def nextIdx (ts : List Tok) (i : Nat) : Option Nat := if i = ts.length - 1 then none else some (i + 1)

/-- The index after `self.tokens.next()` if the result is ignored. -/
def advance (ts : List Tok) (i : Nat) : Nat := (nextIdx ts i).getD i

/-- src/testing/calc_eval.rs:91-96 `peek`: the type of the following token. -/
def peekType (ts : List Tok) (i : Nat) : Option TokenType :=
  if i = ts.length - 1 then none else (ts[i + 1]?).map (·.ty)

/-- src/testing/calc_eval.rs:303-305 -/
def isComparison : TokenType → Bool
  | .eq | .neq | .gt | .gtq | .lt | .ltq => true
  | _ => false

/-- src/testing/calc_eval.rs:344 -/
def isAdditive : TokenType → Bool
  | .plus | .minus => true
  | _ => false

/-- src/testing/calc_eval.rs:363 -/
def isMultiplicative : TokenType → Bool
  | .multiply | .divide => true
  | _ => false

mutual

/-- src/testing/calc_eval.rs:295-317 `parse_comparison`. Each parsing function returns the tree and the new
index. -/
def parseComparison [Rt] (ts : List Tok) : Nat → Nat → Ev (Node Rt.F × Nat)
  | 0, _ => .error .fuel
  | fuel + 1, i => do
    let (lhs, i) ← parseConcatenation ts fuel i
    comparisonLoop ts fuel lhs i

/-- src/testing/calc_eval.rs:297-315, the loop. -/
def comparisonLoop [Rt] (ts : List Tok) : Nat → Node Rt.F → Nat → Ev (Node Rt.F × Nat)
  | 0, _, _ => .error .fuel
  | fuel + 1, lhs, i => do
    let op ← current ts i
    match nextIdx ts i with
    | none => pure (lhs, i)
    | some j =>
      if isComparison op.ty then do
        let (rhs, k) ← parseConcatenation ts fuel j
        comparisonLoop ts fuel (.comparison lhs op.ty rhs) k
      else pure (lhs, j)

/-- src/testing/calc_eval.rs:319-336 `parse_concatenation`. -/
def parseConcatenation [Rt] (ts : List Tok) : Nat → Nat → Ev (Node Rt.F × Nat)
  | 0, _ => .error .fuel
  | fuel + 1, i => do
    let (lhs, i) ← parseExpr ts fuel i
    concatenationLoop ts fuel lhs i

/-- src/testing/calc_eval.rs:321-334, the loop. -/
def concatenationLoop [Rt] (ts : List Tok) : Nat → Node Rt.F → Nat → Ev (Node Rt.F × Nat)
  | 0, _, _ => .error .fuel
  | fuel + 1, lhs, i => do
    let op ← current ts i
    if op.ty = .ampersand then do
      let (rhs, k) ← parseExpr ts fuel (advance ts i)
      concatenationLoop ts fuel (.concatenation lhs rhs) k
    else pure (lhs, i)

/-- src/testing/calc_eval.rs:338-356 `parse_expr`. -/
def parseExpr [Rt] (ts : List Tok) : Nat → Nat → Ev (Node Rt.F × Nat)
  | 0, _ => .error .fuel
  | fuel + 1, i => do
    let (lhs, i) ← parseTerm ts fuel i
    exprLoop ts fuel lhs i

/-- src/testing/calc_eval.rs:341-354, the loop. -/
def exprLoop [Rt] (ts : List Tok) : Nat → Node Rt.F → Nat → Ev (Node Rt.F × Nat)
  | 0, _, _ => .error .fuel
  | fuel + 1, lhs, i => do
    let op ← current ts i
    if isAdditive op.ty then do
      let (rhs, k) ← parseTerm ts fuel (advance ts i)
      exprLoop ts fuel (.binary lhs op.ty rhs) k
    else pure (lhs, i)

/-- src/testing/calc_eval.rs:358-376 `parse_term`. -/
def parseTerm [Rt] (ts : List Tok) : Nat → Nat → Ev (Node Rt.F × Nat)
  | 0, _ => .error .fuel
  | fuel + 1, i => do
    let (lhs, i) ← parseFactor ts fuel i
    termLoop ts fuel lhs i

/-- src/testing/calc_eval.rs:360-374, the loop. -/
def termLoop [Rt] (ts : List Tok) : Nat → Node Rt.F → Nat → Ev (Node Rt.F × Nat)
  | 0, _, _ => .error .fuel
  | fuel + 1, lhs, i => do
    let op ← current ts i
    if isMultiplicative op.ty then do
      let (rhs, k) ← parseFactor ts fuel (advance ts i)
      termLoop ts fuel (.binary lhs op.ty rhs) k
    else pure (lhs, i)

/-- src/testing/calc_eval.rs:378-437 `parse_factor` with `parse_primary` inlined; the trees are built in
`parse_primary`, the step to the next token is in `parse_factor`. -/
def parseFactor [Rt] (ts : List Tok) : Nat → Nat → Ev (Node Rt.F × Nat)
  | 0, _ => .error .fuel
  | fuel + 1, i => do
    let cur ← current ts i
    match cur.ty with
    | .identifier =>
      if (splitCC cur.value).length = 2 then pure (.field cur.value, advance ts i)
      else if peekType ts i = some .openParen then do
        let (args, j) ← parseArgs ts fuel i
        pure (.call cur.value args, advance ts j)
      else pure (.variable cur.value, advance ts i)
    | .numericLiteral => do
      let x ← liftR (unwrap (parseF64 cur.value))
      pure (.number x, advance ts i)
    | .string => pure (.stringLiteral cur.value, advance ts i)
    | .openParen => parseComparison ts fuel (advance ts i)
    | _ => .error (.panic .unwrap)

/-- src/testing/calc_eval.rs:131-145 `parse_args`. -/
def parseArgs [Rt] (ts : List Tok) : Nat → Nat → Ev (List (Node Rt.F) × Nat)
  | 0, _ => .error .fuel
  | fuel + 1, i => do
    let (arg, j) ← parseExpr ts fuel (advance ts i)
    let cur ← current ts j
    if cur.ty = .comma then do
      let (args, k) ← parseArgs ts fuel j
      pure (arg :: args, k)
    else pure ([arg], j)

end

/-- src/testing/calc_eval.rs:289-293 `parse`, recursion bounded by `fuel`. -/
def parseCalc [Rt] (fuel : Nat) (ts : List Tok) : Ev (Node Rt.F) := do
  let r ← parseComparison ts fuel 0
  pure r.1

/-! ### Evaluation -/

/-- The state a calculation reads: the database, the number of active script invocations
(`instruction_ptr.len()`) and the variables of each. Of a `Variable` only the value is read. -/
structure CalcEnv where
  db : Database
  depth : Nat
  vars : List (SMap Str)

/-- src/testing/test.rs:52-63 `Operand` and `OperandType`: the text, and whether it is a number. The type
`FieldName` is never used. -/
structure Operand where
  value : Str
  number : Bool
  deriving DecidableEq, Repr

/-- `val.starts_with("\"") && val.ends_with("\"")` -/
def isQuoted (s : Str) : Bool := s.head? == some '"' && s.getLast? == some '"'

/-- src/testing/test.rs:679-719 `get_operand_val`. Without an active script the subtraction at line 700
overflows or the indexing after it fails; both panic. -/
def operandVal (env : CalcEnv) : Nat → Str → Ev Operand
  | 0, _ => .error .fuel
  | fuel + 1, val =>
    if isFloatText val then pure ⟨val, true⟩
    else if isQuoted val then pure ⟨val, false⟩
    else
      match splitCC val with
      | [_, field] => do
        let v ← liftR (env.db.foundSetRecordField field)
        operandVal env fuel v
      | _ =>
        match env.depth with
        | 0 => .error (.panic .overflow)
        | scope + 1 => do
          let vars ← liftR (idx env.vars scope)
          match SMap.get vars val with
          | none => pure ⟨[], false⟩
          | some v => operandVal env fuel v

/-- `b.to_string()` for a `bool` -/
def boolText (b : Bool) : Str := if b then t!"true" else t!"false"

/-- src/testing/test.rs:865-876: comparisons are made on the texts. -/
def compareTexts (op : TokenType) (a b : Str) : Ev Str :=
  match op with
  | .eq => pure (boolText (a == b))
  | .neq => pure (boolText (a != b))
  | .gt => pure (boolText (!strLe a b))
  | .gtq => pure (boolText (strLe b a))
  | .lt => pure (boolText (!strLe b a))
  | .ltq => pure (boolText (strLe a b))
  | _ => .error (.panic .explicit)

/-- src/testing/test.rs:814-863: arithmetic on two operands. -/
def arith [Rt] (op : TokenType) (a b : Operand) : Ev Str :=
  if !isAdditive op && !isMultiplicative op then .error (.panic .explicit)
  else if !a.number || !b.number then pure t!"undefined"
  else do
    let x ← liftR (unwrap (parseF64 a.value))
    let y ← liftR (unwrap (parseF64 b.value))
    match op with
    | .plus => pure (Rt.toText (Rt.add x y))
    | .minus => pure (Rt.toText (Rt.sub x y))
    | .multiply => pure (Rt.toText (Rt.mul x y))
    | _ => pure (Rt.toText (Rt.div x y))

/-- `s.replace('"', "")` -/
def dropQuotes (s : Str) : Str := s.filter (fun c => c != '"')

/-- src/testing/test.rs:877-883 -/
def concatTexts (a b : Str) : Str := '"' :: (dropQuotes a ++ dropQuotes b) ++ ['"']

/-- src/testing/test.rs:783-794: the order used by `Min`. -/
def minOrder [Rt] (env : CalcEnv) (fuel : Nat) (x y : Str) : Ev Ordering := do
  let lhs ← operandVal env fuel x
  let rhs ← operandVal env fuel y
  if lhs.number && rhs.number then do
    let a ← liftR (unwrap (parseF64 lhs.value))
    let b ← liftR (unwrap (parseF64 rhs.value))
    liftR (unwrap (Rt.cmp a b))
  else
    pure (if strLe lhs.value rhs.value then (if strLe rhs.value lhs.value then .eq else .lt) else .gt)

/-- src/testing/test.rs:755-813: built-in functions, on the (lazily evaluated) arguments. Simplification: the
message for an unknown argument of `Get` does not show the argument; the branch for `Unary` arguments is left
out, see `Node`. -/
def callFunction [Rt] (env : CalcEnv) (fuel : Nat) (name : Str) (args : List (Ev Str)) : Ev Str :=
  if name = t!"Abs" then do
    let a ← liftR (idx args 0)
    let v ← a
    if isFloatText v then pure (Rt.absText v) else .error (.panic .unwrap)
  else if name = t!"Acos" then do
    let a ← liftR (idx args 0)
    let v ← a
    if isFloatText v then pure (Rt.acosText v) else .error (.panic .unwrap)
  else if name = t!"Asin" then do
    let a ← liftR (idx args 0)
    let v ← a
    let b ← liftR (idx args 1)
    let w ← b
    pure (if strLe v w then v else w)
  else if name = t!"Char" then do
    let a ← liftR (idx args 0)
    let v ← a
    let n ← liftR (unwrap (parseUnsigned (2 ^ 32) v))
    if n.isValidChar then pure ['"', Char.ofNat n, '"'] else .error (.panic .unwrap)
  else if name = t!"Min" then
    match args with
    | [] => .error (.panic .unwrap)
    | a :: rest => do
      let v ← a
      rest.foldlM (fun best b => do
        let w ← b
        let o ← minOrder env fuel best w
        pure (if o = .gt then w else best)) v
  else if name = t!"Get" then do
    let _ ← liftR (idx args 0)
    pure t!"Unknown argument for Get()"
  else pure (t!"Unimplemented function: " ++ name)

mutual

/-- src/testing/test.rs:721-898 `evaluate`; `fuel` bounds the recursion of `get_operand_val`. -/
def evalNode [Rt] (env : CalcEnv) (fuel : Nat) : Node Rt.F → Ev Str
  | .binary l op r => do
    let a ← evalNode env fuel l
    let b ← evalNode env fuel r
    let x ← operandVal env fuel a
    let y ← operandVal env fuel b
    arith op x y
  | .concatenation l r => do
    let a ← evalNode env fuel l
    let b ← evalNode env fuel r
    pure (concatTexts a b)
  | .comparison l op r =>
    if isComparison op then do
      let a ← evalNode env fuel l
      let b ← evalNode env fuel r
      compareTexts op a b
    else .error (.panic .explicit)
  | .call name args => callFunction env fuel name (evalArgs env fuel args)
  | .number x => pure (Rt.toText x)
  | .variable name => do
    let o ← operandVal env fuel name
    pure o.value
  | .field name => do
    let o ← operandVal env fuel name
    pure o.value
  | .stringLiteral s => pure s

/-- The arguments of a call, each evaluated when the function asks for it. -/
def evalArgs [Rt] (env : CalcEnv) (fuel : Nat) : List (Node Rt.F) → List (Ev Str)
  | [] => []
  | a :: as => evalNode env fuel a :: evalArgs env fuel as

end

/-- src/testing/test.rs:469-677 `eval_calculation`. -/
def evalCalc [Rt] (env : CalcEnv) (fuel : Nat) (calculation : Str) : Ev Str := do
  let ts ← liftR (lexCalc calculation)
  let ast ← parseCalc fuel ts
  evalNode env fuel ast

end BurnFm
