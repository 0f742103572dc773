import Verif.Model.Calc
import Verif.Model.File

/-! Model of the script language of `.burn` files: `src/burn_script/tokens.rs`, `src/burn_script/lexer.rs`,
`src/burn_script/parser.rs` and `src/burn_script/compiler.rs`. -/

namespace BurnFm

/-- src/burn_script/tokens.rs:3-32 `TokenType`. -/
inductive ScriptTokType where
  | define | identifier | openParen | closeParen | semiColon | comma | openBracket | closeBracket | «let» | assign
  | plus | minus | multiply | divide | ampersand | loop | «if» | elif | «else» | eq | neq | geq | leq | gt | lt
  | numericLiteral | string | argument
  deriving DecidableEq, Repr

/-- src/burn_script/tokens.rs:35-53 `Token`. -/
structure ScriptTok where
  ty : ScriptTokType
  value : Str := []
  deriving DecidableEq, Repr

/-- src/burn_script/lexer.rs:20-37 `flush_buffer`. -/
def wordTok (b : Str) : ScriptTok :=
  if b = t!"define" then ⟨.define, []⟩ else
  if b = t!"let" then ⟨.let, []⟩ else
  if b = t!"loop" then ⟨.loop, []⟩ else
  if b = t!"if" then ⟨.if, []⟩ else
  if b = t!"elif" then ⟨.elif, []⟩ else
  if b = t!"else" then ⟨.else, []⟩ else
  if isFloatText b then ⟨.numericLiteral, b⟩ else ⟨.identifier, b⟩

/-- `if buffer.len() > 0 { ret.push(flush_buffer(..)); }` -/
def flushWord (buf : Str) : List ScriptTok := if buf.isEmpty then [] else [wordTok buf]

/-- The one-character tokens, src/burn_script/lexer.rs:109-155, 235-277. -/
def scriptSymbol : Char → Option ScriptTokType
  | '{' => some .openBracket
  | '}' => some .closeBracket
  | ',' => some .comma
  | ';' => some .semiColon
  | '+' => some .plus
  | '-' => some .minus
  | '*' => some .multiply
  | '/' => some .divide
  | '&' => some .ampersand
  | _ => none

/-- Where the script lexer is: `normal` is the loop at lines 38-290, `skip` a `lex_iter.next()` whose result is not
used, `args` the loop at lines 67-106 with its variables `stack` and `in_string`. -/
inductive ScriptLexMode where
  | normal
  | skip
  | args (stack : Nat) (inString : Bool)
  deriving DecidableEq, Repr

/-- src/burn_script/lexer.rs:38-292: the loop of `get_tokens`; `peek` is the head of the remaining text. What is in
the buffer at the end of the text is lost. Simplification: `scope`, which is never read, is left out. -/
def scriptLex (m : ScriptLexMode) (buf : Str) (acc : List ScriptTok) : Str → Res (List ScriptTok)
  | [] => .ok acc
  | c :: rest =>
    match m with
    | .skip => scriptLex .normal buf acc rest
    | .args stack inStr =>
      if c = ' ' then
        if !inStr && buf.isEmpty then scriptLex m buf acc rest else scriptLex m (buf ++ [c]) acc rest
      else if c = '"' then scriptLex (.args stack (!inStr)) (buf ++ [c]) acc rest
      else if c = ')' then
        match stack with
        | 0 => scriptLex .normal [] (acc ++ [⟨.argument, buf⟩]) rest
        | k + 1 => scriptLex (.args k inStr) (buf ++ [c]) acc rest
      else if c = '(' then scriptLex (.args (stack + 1) inStr) (buf ++ [c]) acc rest
      else if c = ',' then
        match stack with
        | 0 => scriptLex m [] (acc ++ [⟨.argument, buf⟩]) rest
        | _ + 1 => scriptLex m (buf ++ [c]) acc rest
      else scriptLex m (buf ++ [c]) acc rest
    | .normal =>
      if isSpace c then scriptLex .normal [] (acc ++ flushWord buf) rest
      else if c = '(' then scriptLex (.args 0 false) [] (acc ++ flushWord buf) rest
      else match scriptSymbol c with
        | some ty => scriptLex .normal [] (acc ++ flushWord buf ++ [⟨ty, []⟩]) rest
        | none =>
          if c = '!' then do
            let d ← unwrap rest.head?
            if d = '=' then scriptLex .skip [] (acc ++ flushWord buf ++ [⟨.neq, []⟩]) rest
            else scriptLex .normal [] (acc ++ flushWord buf ++ [⟨.assign, []⟩]) rest
          else if c = '=' then do
            let d ← unwrap rest.head?
            if d = '=' then scriptLex .skip [] (acc ++ flushWord buf ++ [⟨.eq, []⟩]) rest
            else scriptLex .normal [] (acc ++ flushWord buf ++ [⟨.assign, []⟩]) rest
          else if c = '>' then do
            let d ← unwrap rest.head?
            scriptLex .skip [] (acc ++ flushWord buf ++ [⟨if d = '=' then .geq else .gt, []⟩]) rest
          else if c = '<' then do
            let d ← unwrap rest.head?
            scriptLex .skip [] (acc ++ flushWord buf ++ [⟨if d = '=' then .leq else .lt, []⟩]) rest
          else scriptLex .normal (buf ++ [c]) acc rest

/-- src/burn_script/lexer.rs:14-293 `get_tokens`. -/
def lexScript (code : Str) : Res (List ScriptTok) := scriptLex .normal [] [] code

/-- Where the script parser is: `top` is the loop at lines 27-208, `name` line 31, `params` the loop at lines 37-56,
`body` the loop at lines 59-201, `step`, `elif` and `if` the loops at lines 69-82, 147-160 and 168-181,
`loopOpen` and `elseOpen` the `next` at lines 127 and 185. -/
inductive ScriptMode where
  | top | name | params | body
  | step (op : Instruction) (switches : List Str)
  | elif (switches : List Str)
  | «if» (switches : List Str)
  | loopOpen | elseOpen
  deriving DecidableEq, Repr

/-- `tmp.instructions.insert(tmp.instructions.len(), ScriptStep { .. })` -/
def FScript.push (s : FScript) (op : Instruction) (switches : List Str) : FScript :=
  { s with instructions := s.instructions ++ [⟨op, 0, switches⟩] }

/-- Whether the next token is `else` or `elif`, src/burn_script/parser.rs:93-104. -/
def startsElse : List ScriptTok → Bool
  | t :: _ => t.ty == .else || t.ty == .elif
  | [] => false

/-- src/burn_script/parser.rs:21-210 `parse`: `stack` is `punc_stack` with its last element first, `tmp` the script
being read and `acc` the scripts read before; `none` is `Err`. Messages on the error output are not modelled. -/
def parseScripts (m : ScriptMode) (stack : List Instruction) (tmp : FScript) (acc : List FScript) :
    List ScriptTok → Res (Option (List FScript))
  | [] =>
    match m with
    | .top => .ok (some acc)
    | .name => .error .unwrap
    | .loopOpen => .error .unwrap
    | .elseOpen => .error .unwrap
    | _ => .ok (some (acc ++ [tmp]))
  | t :: ts =>
    match m with
    | .top => if t.ty = .define then parseScripts .name stack {} acc ts else parseScripts .top stack tmp acc ts
    | .name => parseScripts .params stack (if t.ty = .identifier then { tmp with name := t.value } else tmp) acc ts
    | .params =>
      if t.ty = .argument then parseScripts .params stack { tmp with arguments := tmp.arguments ++ [t.value] } acc ts
      else if t.ty = .openBracket then parseScripts .body stack tmp acc ts
      else parseScripts .params stack tmp acc ts
    | .step op switches =>
      if t.ty = .argument then parseScripts (.step op (switches ++ [t.value])) stack tmp acc ts
      else if t.ty = .semiColon then parseScripts .body stack (tmp.push op switches) acc ts
      else .error .explicit
    | .elif switches =>
      if t.ty = .argument then parseScripts (.elif (switches ++ [t.value])) stack tmp acc ts
      else if t.ty = .openBracket then parseScripts .body stack (tmp.push .elseIf switches) acc ts
      else .error .explicit
    | .if switches =>
      if t.ty = .argument then parseScripts (.if (switches ++ [t.value])) stack tmp acc ts
      else if t.ty = .openBracket then parseScripts .body (.if :: stack) (tmp.push .if switches) acc ts
      else .error .explicit
    | .loopOpen =>
      if t.ty = .openBracket then parseScripts .body (.loop :: stack) (tmp.push .loop []) acc ts
      else parseScripts .top stack tmp (acc ++ [tmp]) ts
    | .elseOpen =>
      if t.ty = .openBracket then parseScripts .body stack (tmp.push .else []) acc ts
      else parseScripts .top stack tmp (acc ++ [tmp]) ts
    | .body =>
      match t.ty with
      | .identifier =>
        match Instruction.fromStr t.value with
        | some op => parseScripts (.step op []) stack tmp acc ts
        | none => parseScripts .body stack tmp acc ts
      | .closeBracket =>
        match stack with
        | [] => parseScripts .top stack tmp (acc ++ [tmp]) ts
        | top :: below =>
          if startsElse ts then parseScripts .body stack tmp acc ts
          else match top with
            | .if => parseScripts .body below (tmp.push .endIf []) acc ts
            | .loop => parseScripts .body below (tmp.push .endLoop []) acc ts
            | _ => .ok none
      | .loop => parseScripts .loopOpen stack tmp acc ts
      | .elif => parseScripts (.elif []) stack tmp acc ts
      | .if => parseScripts (.if []) stack tmp acc ts
      | .else => parseScripts .elseOpen stack tmp acc ts
      | _ => parseScripts .body stack tmp acc ts

/-- src/burn_script/compiler.rs:8-13 `compile_burn_script`. -/
def compileScripts (code : Str) : Res (List FScript) := do
  let tokens ← lexScript code
  let scripts ← parseScripts .top [] {} [] tokens
  unwrap scripts

end BurnFm
