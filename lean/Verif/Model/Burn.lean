import Verif.Model.BurnScript

/-! Model of the compiler for `.burn` files: `src/compile/token.rs`, `src/compile/lexer.rs`, `src/compile/parser.rs`,
`src/compile/compiler.rs`, and of the merging of files in `src/main.rs`. -/

namespace BurnFm

/-- src/compile/token.rs:3-45 `TokenType`, without the types that neither the lexer makes nor the parser looks at. -/
inductive BurnTokType where
  | table | relationship | valueList | script | test | tableOccurence | assertionBlock | assertion | identifier
  | assign | semiColon | colon | comma | openCurly | closeCurly | openSquare | closeSquare | openParen | closeParen
  | exclamation | calculation | «end» | eComparison | foundIn | string | numericLiteral
  deriving DecidableEq, Repr

/-- src/compile/token.rs:47-60 `Token`. -/
structure BurnTok where
  ty : BurnTokType
  text : Str := []
  deriving DecidableEq, Repr

/-- src/compile/lexer.rs:13-33 `flush_buffer`; `none` is `Err`. The buffer is not empty where it is called. -/
def burnWord [Rt] (b : Str) : Option BurnTok :=
  if b = t!"table" then some ⟨.table, []⟩ else
  if b = t!"relationship" then some ⟨.relationship, []⟩ else
  if b = t!"value_list" then some ⟨.valueList, []⟩ else
  if b = t!"table_occurence" then some ⟨.tableOccurence, []⟩ else
  if b = t!"script" then some ⟨.script, []⟩ else
  if b = t!"test" then some ⟨.test, []⟩ else
  if b = t!"end" then some ⟨.end, []⟩ else
  match parseF64 b with
  | some n => some ⟨.numericLiteral, Rt.toText n⟩
  | none => if (b.head?.map isDigit).getD false then none else some ⟨.identifier, b⟩

/-- `if !buffer.is_empty() { if let Ok(t) = flush_buffer(b) { ret.push(t) } }` -/
def burnFlush [Rt] (buf : Str) : List BurnTok := if buf.isEmpty then [] else (burnWord buf).toList

/-- The one-character tokens, src/compile/lexer.rs:155-200, 215-292. -/
def burnSymbol : Char → Option BurnTokType
  | ']' => some .closeSquare
  | ')' => some .closeParen
  | '!' => some .exclamation
  | '}' => some .closeCurly
  | ';' => some .semiColon
  | ':' => some .colon
  | ',' => some .comma
  | _ => none

/-- Where the lexer is: `skip` is the `lex_iter.next()` at line 132; `str`, `script` and `calc` are the flags
`in_string`, `in_script` and `in_calc`, of which at most one is set. -/
inductive BurnLexMode where
  | normal | skip | str | script | calc
  deriving DecidableEq, Repr

/-- src/compile/lexer.rs:35-307: the loop of `tokenize`; `peek` is the head of the remaining text. Text in the buffer at
the end is lost; inside of a string, script or calculation the end of the text makes `lex_iter.next().unwrap()` panic,
unless nothing but white space has been read of it. Simplification: the flag `in_assertion` and the loop at lines 71-100
are left out. The flag is only set after a token `AssertionBlock`, which the lexer never makes. -/
def burnLex [Rt] (p : Profile) (m : BurnLexMode) (buf : Str) (acc : List BurnTok) : Str → Res (List BurnTok)
  | [] =>
    match m with
    | .normal => .ok acc
    | .skip => .ok acc
    | _ => if buf.isEmpty then .ok acc else .error .unwrap
  | c :: rest =>
    match m with
    | .skip => burnLex p .normal buf acc rest
    | .str =>
      if isSpace c && buf.isEmpty then burnLex p .str buf acc rest
      else if c = '"' then
        if rest.isEmpty then .error .unwrap else burnLex p .normal ['"'] (acc ++ [⟨.string, buf⟩]) rest
      else burnLex p .str (buf ++ [c]) acc rest
    | .script =>
      if isSpace c && buf.isEmpty then burnLex p .script buf acc rest
      else if c = ']' then burnLex p .normal [] (acc ++ [⟨.script, buf⟩, ⟨.closeSquare, []⟩]) rest
      else burnLex p .script (buf ++ [c]) acc rest
    | .calc =>
      if isSpace c && buf.isEmpty then burnLex p .calc buf acc rest
      else if c = '}' then
        if rest.isEmpty then .error .unwrap else burnLex p .normal ['}'] (acc ++ [⟨.calculation, buf⟩]) rest
      else burnLex p .calc (buf ++ [c]) acc rest
    | .normal =>
      if isSpace c then
        if buf.isEmpty then burnLex p .normal buf acc rest
        else match burnWord buf with
          | some t => burnLex p .normal [] (acc ++ [t]) rest
          | none => burnLex p .normal buf acc rest
      else if c = '=' then
        match rest.head? with
        | some d =>
          if d = '=' then burnLex p .skip [] (acc ++ burnFlush buf ++ [⟨.eComparison, []⟩]) rest
          else burnLex p .normal [] (acc ++ burnFlush buf ++ [⟨.assign, []⟩]) rest
        | none => burnLex p .normal [] (acc ++ burnFlush buf) rest
      else if c = '[' then do
        let last ← unwrap acc.getLast?
        burnLex p (if last.ty = .foundIn then .normal else .script) [] (acc ++ burnFlush buf ++ [⟨.openSquare, []⟩]) rest
      else if c = '(' then do
        let i ← usub p acc.length 2
        let _ ← idx acc i
        burnLex p .normal [] (acc ++ burnFlush buf ++ [⟨.openParen, []⟩]) rest
      else if c = '"' then burnLex p .str [] (acc ++ burnFlush buf) rest
      else if c = '{' then burnLex p .calc [] (acc ++ burnFlush buf ++ [⟨.openCurly, []⟩]) rest
      else match burnSymbol c with
        | some ty => burnLex p .normal [] (acc ++ burnFlush buf ++ [⟨ty, []⟩]) rest
        | none => burnLex p .normal (buf ++ [c]) acc rest

/-- src/compile/lexer.rs:4-309 `tokenize`. -/
def lexBurn [Rt] (p : Profile) (code : Str) : Res (List BurnTok) := burnLex p .normal [] [] code

/-- A declaration being read: the local variables `table`, `relationship`, `value_list`, `table_occurence` and `test` of
`parse_program`. -/
inductive BurnItem where
  | table (t : FTable)
  | relationship (r : FRelationship)
  | valueList (v : FValueList)
  | occurrence (o : FOccurrence)
  | test (t : FTest)
  deriving DecidableEq, Repr

/-- The keyword after `end`, src/compile/parser.rs:34, 70, 98, 163, 226. -/
def BurnItem.keyword : BurnItem → BurnTokType
  | .table _ => .table
  | .relationship _ => .relationship
  | .valueList _ => .valueList
  | .occurrence _ => .tableOccurence
  | .test _ => .test

/-- The end of a declaration, src/compile/parser.rs:48, 84, 112, 177, 240. -/
def FmpFile.addItem (f : FmpFile) : BurnItem → FmpFile
  | .table t => { f with tables := f.tables.insert (f.tables.length + 1) t }
  | .relationship r => { f with relationships := f.relationships.insert (f.tables.length + 1) r }
  | .valueList v => { f with valueLists := f.valueLists.insert (f.valueLists.length + 1) v }
  | .occurrence o => { f with tableOccurrences := f.tableOccurrences.insert f.tableOccurrences.length o }
  | .test t => { f with tests := f.tests ++ [t] }

/-- src/compile/parser.rs:128-130. -/
def FmpFile.addScripts (f : FmpFile) (scripts : List FScript) : FmpFile :=
  { f with scripts := scripts.foldl (fun m s => m.insert (m.length + 1) s) f.scripts }

/-- Where the parser is: `top` is the loop at lines 20-246, `item` the loops at lines 29-47, 55-83, 93-111, 144-176 and
187-239, `assertions` the loop at lines 208-221; the others are single calls of `next` or `peek` followed by a test of
the token. -/
inductive BurnMode where
  | top
  | name (i : BurnItem)
  | relColon
  | item (i : BurnItem)
  | itemEnd (i : BurnItem)
  | itemSemi (i : BurnItem)
  | relSep (r : FRelationship)
  | relSecond (r : FRelationship)
  | occColon (o : FOccurrence)
  | occName (o : FOccurrence)
  | scriptColon | scriptOpen | scriptBlock | scriptClose
  | testColon (t : FTest)
  | testOpen (t : FTest)
  | testBlock (t : FTest)
  | assertColon (t : FTest)
  | assertions (t : FTest)
  deriving DecidableEq, Repr

/-- The name of a declaration, src/compile/parser.rs:27, 91, 142, 184. -/
def BurnItem.named (n : Str) : BurnItem → BurnItem
  | .table t => .table { t with name := n }
  | .valueList v => .valueList { v with name := n }
  | .occurrence o => .occurrence { o with name := n }
  | .test t => .test { t with name := n }
  | .relationship r => .relationship r

/-- src/compile/parser.rs:15-248 `parse_program`: `ret` is the file so far; `none` is `Err`. The end of the tokens
where one is expected is a panic. -/
def parseBurn (m : BurnMode) (ret : FmpFile) : List BurnTok → Res (Option FmpFile)
  | [] =>
    match m with
    | .top => .ok (some ret)
    | .item i => .ok (some (ret.addItem i))
    | .assertions t => .ok (some (ret.addItem (.test t)))
    | _ => .error .unwrap
  | t :: ts =>
    match m with
    | .top =>
      match t.ty with
      | .table => parseBurn (.name (.table {})) ret ts
      | .relationship => parseBurn .relColon ret ts
      | .valueList => parseBurn (.name (.valueList {})) ret ts
      | .script => parseBurn .scriptColon ret ts
      | .tableOccurence => parseBurn (.name (.occurrence {})) ret ts
      | .test => parseBurn (.name (.test {})) ret ts
      | _ => .ok none
    | .name i => if t.ty = .identifier then parseBurn (.item (i.named t.text)) ret ts else .ok none
    | .relColon => if t.ty = .colon then parseBurn (.item (.relationship {})) ret ts else .ok none
    | .itemEnd i => if t.ty = i.keyword then parseBurn (.itemSemi i) ret ts else .ok none
    | .itemSemi i => if t.ty = .semiColon then parseBurn .top (ret.addItem i) ts else .ok none
    | .relSep r => parseBurn (.relSecond r) ret ts
    | .relSecond r => parseBurn (.item (.relationship { r with table2Name := t.text })) ret ts
    | .occColon o => if t.ty = .colon then parseBurn (.occName o) ret ts else .ok none
    | .occName o =>
      if t.ty = .identifier then parseBurn (.item (.occurrence { o with tableActualName := t.text })) ret ts else .ok none
    | .scriptColon => if t.ty = .colon then parseBurn .scriptOpen ret ts else .ok none
    | .scriptOpen => if t.ty = .openSquare then parseBurn .scriptBlock ret ts else .ok none
    | .scriptBlock => do
      let scripts ← compileScripts t.text
      parseBurn .scriptClose (ret.addScripts scripts) ts
    | .scriptClose => if t.ty = .closeSquare then parseBurn .top ret ts else .ok none
    | .testColon x => if t.ty = .colon then parseBurn (.testOpen x) ret ts else .ok none
    | .testOpen x => if t.ty = .openSquare then parseBurn (.testBlock x) ret ts else .ok none
    | .testBlock x => do
      let scripts ← compileScripts t.text
      if 1 < scripts.length then .ok none
      else do
        let s ← idx scripts 0
        parseBurn (.item (.test { x with script := s })) ret ts
    | .assertColon x => if t.ty = .colon then parseBurn (.assertions x) ret ts else .ok none
    | .assertions x =>
      if t.ty = .assertion then parseBurn (.assertions { x with assertions := x.assertions ++ [t.text] }) ret ts
      else if t.ty = .comma then parseBurn (.assertions x) ret ts
      else parseBurn (.item (.test x)) ret ts
    | .item i =>
      if t.ty = .end then parseBurn (.itemEnd i) ret ts
      else match i with
        | .relationship r =>
          if t.ty = .identifier then
            match ts.head? with
            | none => .error .unwrap
            | some c =>
              if c.ty = .colon then parseBurn (.relSep { r with table1Name := t.text }) ret ts
              else parseBurn m ret ts
          else parseBurn m ret ts
        | .occurrence o => if t.ty = .table then parseBurn (.occColon o) ret ts else parseBurn m ret ts
        | .test x =>
          if t.ty = .script then parseBurn (.testColon x) ret ts
          else if t.ty = .assertionBlock then parseBurn (.assertColon x) ret ts
          else parseBurn m ret ts
        | _ => parseBurn m ret ts

/-- src/compile/compiler.rs:5-9 `compile_burn`. -/
def compileBurn [Rt] (p : Profile) (code : Str) : Res FmpFile := do
  let tokens ← lexBurn p code
  let file ← parseBurn .top {} tokens
  unwrap file

/-- `map.extend(other)` -/
def HMap.extend {α : Type} (m other : HMap α) : HMap α := other.foldl (fun m e => m.insert e.1 e.2) m

/-- src/main.rs:44-54, 80-86: adding one input file to the file. The name, which only the first of these places sets, is
left out, as are the tests named on the command line, src/main.rs:27-35, which are added before. -/
def FmpFile.merge (f g : FmpFile) : FmpFile :=
  { f with
    tables := f.tables.extend g.tables
    relationships := f.relationships.extend g.relationships
    valueLists := f.valueLists.extend g.valueLists
    tableOccurrences := f.tableOccurrences.extend g.tableOccurrences
    scripts := f.scripts.extend g.scripts
    layouts := f.layouts.extend g.layouts
    tests := f.tests ++ g.tests }

/-- src/main.rs:25, 38-54 and 68-86: the file after the input files. -/
def mergeFiles (files : List FmpFile) : FmpFile := files.foldl FmpFile.merge {}

end BurnFm
