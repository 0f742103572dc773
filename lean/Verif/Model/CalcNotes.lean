import Verif.Model.Calc

/-!
The warnings printed while a calculation is evaluated, on the error output: `eval_calculation`, `get_operand_val` and `evaluate`
of `src/testing/test.rs`. The functions here do what those of `Verif/Model/Calc.lean` do and collect the warnings, also those
before a panic. The warning at src/testing/database.rs:301 is not among them: `get_current_record_field` is never called by
calculations.
-/

namespace BurnFm

/-- A warning of a calculation. -/
inductive Note where
  /-- "invalid ':' found.", src/testing/test.rs:644 -/
  | invalidColon
  /-- "Unknown variable: …", line 705 -/
  | unknownVariable (name : Str)
  /-- "Unable to add non-number types.", lines 830, 840, 850, 860 -/
  | notNumbers
  deriving DecidableEq, Repr

/-- The warnings printed, and the result. -/
structure Noted (α : Type) where
  notes : List Note
  result : Ev α

/-- One computation after the other; a panic of the first one is the end. -/
def Noted.andThen {α β : Type} (x : Noted α) (f : α → Noted β) : Noted β :=
  match x with
  | ⟨ns, .error e⟩ => ⟨ns, .error e⟩
  | ⟨ns, .ok a⟩ => ⟨ns ++ (f a).notes, (f a).result⟩

instance : Monad Noted where
  pure a := ⟨[], .ok a⟩
  bind := Noted.andThen

/-- A computation that prints nothing. -/
def quiet {α : Type} (r : Ev α) : Noted α := ⟨[], r⟩

/-- Print one warning. -/
def note (n : Note) : Noted Unit := ⟨[n], .ok ()⟩

/-- src/testing/test.rs:485-670 with the warnings, see `calcLex`: only the branch for ':' prints. -/
def calcLexN [Rt] (m : CalcMode) (buf : Str) (acc : List Tok) : Str → Noted (List Tok)
  | [] => quiet (liftR (calcLex m buf acc []))
  | c :: rest =>
    match m with
    | .skip => calcLexN .normal buf acc rest
    | .str =>
      if c = '"' then calcLexN .normal [] (pushString (buf ++ [c]) acc) rest
      else calcLexN .str (buf ++ [c]) acc rest
    | .fieldSkip => calcLexN .field (buf ++ [':']) acc rest
    | .field =>
      match rest with
      | d :: _ =>
        if isAlnum d then calcLexN .field (buf ++ [c]) acc rest
        else calcLexN .normal [] (acc ++ [⟨.identifier, buf ++ [c]⟩]) rest
      | [] => calcLexN .normal [] (acc ++ [⟨.identifier, buf ++ [c]⟩]) rest
    | .normal =>
      if isSpace c && buf.isEmpty then calcLexN .normal buf acc rest
      else if c = ' ' then do
        let acc ← quiet (liftR (flushInto buf acc))
        calcLexN .normal [] acc rest
      else match symbolToken c with
        | some ty => do
          let acc ← quiet (liftR (flushInto buf acc))
          calcLexN .normal [] (acc ++ [⟨ty, []⟩]) rest
        | none =>
          if c = '!' then do
            let acc ← quiet (liftR (flushInto buf acc))
            let d ← quiet (liftR (unwrap rest.head?))
            if d = '=' then calcLexN .skip [] (acc ++ [⟨.neq, []⟩]) rest
            else calcLexN .normal [] acc rest
          else if c = '=' then do
            let acc ← quiet (liftR (flushInto buf acc))
            let d ← quiet (liftR (unwrap rest.head?))
            if d = '=' then calcLexN .normal [] (acc ++ [⟨.eq, []⟩]) rest
            else calcLexN .normal [] acc rest
          else if c = '<' then do
            let acc ← quiet (liftR (flushInto buf acc))
            let d ← quiet (liftR (unwrap rest.head?))
            if d = '=' then calcLexN .normal [] (acc ++ [⟨.ltq, []⟩]) rest
            else calcLexN .normal [] (acc ++ [⟨.lt, []⟩]) rest
          else if c = '>' then do
            let acc ← quiet (liftR (flushInto buf acc))
            let d ← quiet (liftR (unwrap rest.head?))
            if d = '=' then calcLexN .normal [] (acc ++ [⟨.gtq, []⟩]) rest
            else calcLexN .normal [] (acc ++ [⟨.gt, []⟩]) rest
          else if c = '"' then do
            let acc ← quiet (liftR (flushInto buf acc))
            calcLexN .str [c] acc rest
          else if c = ':' then
            if rest.head? = some ':' then calcLexN .fieldSkip (buf ++ [':']) acc rest
            else do
              note .invalidColon
              calcLexN .fieldSkip (buf ++ [':', ':']) acc rest
          else calcLexN .normal (buf ++ [c]) acc rest

/-- src/testing/test.rs:679-719 `get_operand_val` with the warnings, see `operandVal`. -/
def operandValN (env : CalcEnv) : Nat → Str → Noted Operand
  | 0, _ => quiet (.error .fuel)
  | fuel + 1, val =>
    if isFloatText val then pure ⟨val, true⟩
    else if isQuoted val then pure ⟨val, false⟩
    else
      match splitCC val with
      | [_, field] => do
        let v ← quiet (liftR (env.db.foundSetRecordField field))
        operandValN env fuel v
      | _ =>
        match env.depth with
        | 0 => quiet (.error (.panic .overflow))
        | scope + 1 => do
          let vars ← quiet (liftR (idx env.vars scope))
          match SMap.get vars val with
          | none => do
            note (.unknownVariable val)
            pure ⟨[], false⟩
          | some v => operandValN env fuel v

/-- src/testing/test.rs:814-863 with the warnings, see `arith`. -/
def arithN [Rt] (op : TokenType) (a b : Operand) : Noted Str :=
  if !isAdditive op && !isMultiplicative op then quiet (.error (.panic .explicit))
  else if !a.number || !b.number then do
    note .notNumbers
    pure t!"undefined"
  else quiet (arith op a b)

/-- src/testing/test.rs:783-794 with the warnings, see `minOrder`. -/
def minOrderN [Rt] (env : CalcEnv) (fuel : Nat) (x y : Str) : Noted Ordering := do
  let lhs ← operandValN env fuel x
  let rhs ← operandValN env fuel y
  if lhs.number && rhs.number then do
    let a ← quiet (liftR (unwrap (parseF64 lhs.value)))
    let b ← quiet (liftR (unwrap (parseF64 rhs.value)))
    quiet (liftR (unwrap (Rt.cmp a b)))
  else
    pure (if strLe lhs.value rhs.value then (if strLe rhs.value lhs.value then .eq else .lt) else .gt)

/-- src/testing/test.rs:780-797, the rest of `Min`: `min_by` keeps the best argument so far. -/
def minRestN [Rt] (env : CalcEnv) (fuel : Nat) : Str → List (Noted Str) → Noted Str
  | best, [] => pure best
  | best, b :: rest => do
    let w ← b
    let o ← minOrderN env fuel best w
    minRestN env fuel (if o = .gt then w else best) rest

/-- src/testing/test.rs:755-813 with the warnings, see `callFunction`. -/
def callFunctionN [Rt] (env : CalcEnv) (fuel : Nat) (name : Str) (args : List (Noted Str)) : Noted Str :=
  if name = t!"Abs" then do
    let a ← quiet (liftR (idx args 0))
    let v ← a
    if isFloatText v then pure (Rt.absText v) else quiet (.error (.panic .unwrap))
  else if name = t!"Acos" then do
    let a ← quiet (liftR (idx args 0))
    let v ← a
    if isFloatText v then pure (Rt.acosText v) else quiet (.error (.panic .unwrap))
  else if name = t!"Asin" then do
    let a ← quiet (liftR (idx args 0))
    let v ← a
    let b ← quiet (liftR (idx args 1))
    let w ← b
    pure (if strLe v w then v else w)
  else if name = t!"Char" then do
    let a ← quiet (liftR (idx args 0))
    let v ← a
    let n ← quiet (liftR (unwrap (parseUnsigned (2 ^ 32) v)))
    if n.isValidChar then pure ['"', Char.ofNat n, '"'] else quiet (.error (.panic .unwrap))
  else if name = t!"Min" then
    match args with
    | [] => quiet (.error (.panic .unwrap))
    | a :: rest => do
      let v ← a
      minRestN env fuel v rest
  else if name = t!"Get" then do
    let _ ← quiet (liftR (idx args 0))
    pure t!"Unknown argument for Get()"
  else pure (t!"Unimplemented function: " ++ name)

mutual

/-- src/testing/test.rs:721-898 `evaluate` with the warnings, see `evalNode`. -/
def evalNodeN [Rt] (env : CalcEnv) (fuel : Nat) : Node Rt.F → Noted Str
  | .binary l op r => do
    let a ← evalNodeN env fuel l
    let b ← evalNodeN env fuel r
    let x ← operandValN env fuel a
    let y ← operandValN env fuel b
    arithN op x y
  | .concatenation l r => do
    let a ← evalNodeN env fuel l
    let b ← evalNodeN env fuel r
    pure (concatTexts a b)
  | .comparison l op r =>
    if isComparison op then do
      let a ← evalNodeN env fuel l
      let b ← evalNodeN env fuel r
      quiet (compareTexts op a b)
    else quiet (.error (.panic .explicit))
  | .call name args => callFunctionN env fuel name (evalArgsN env fuel args)
  | .number x => pure (Rt.toText x)
  | .variable name => do
    let o ← operandValN env fuel name
    pure o.value
  | .field name => do
    let o ← operandValN env fuel name
    pure o.value
  | .stringLiteral s => pure s

/-- The arguments of a call, see `evalArgs`. -/
def evalArgsN [Rt] (env : CalcEnv) (fuel : Nat) : List (Node Rt.F) → List (Noted Str)
  | [] => []
  | a :: as => evalNodeN env fuel a :: evalArgsN env fuel as

end

/-- src/testing/test.rs:469-677 `eval_calculation` with the warnings, see `evalCalc`. -/
def evalCalcN [Rt] (env : CalcEnv) (fuel : Nat) (calculation : Str) : Noted Str := do
  let ts ← calcLexN .normal [] [] calculation
  let ast ← quiet (parseCalc fuel ts)
  evalNodeN env fuel ast

end BurnFm
