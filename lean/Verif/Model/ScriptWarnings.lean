import Verif.Model.Burn

/-! The warnings of the compiler: what `src/burn_script/parser.rs` writes to the error output while it reads scripts. The
functions here are those of `Verif/Model/BurnScript.lean` and `Verif/Model/Burn.lean` with the warnings added; they are shown
to give the same results in `Verif/Proofs/ScriptWarnings.lean`. -/

namespace BurnFm

/-- A line on the error output, src/burn_script/parser.rs:54, 84, 129 and 187 (with the same text), 198 and 205. -/
inductive Warning where
  /-- "invalid token." -/
  | invalidToken
  /-- "Invalid script step: …" -/
  | invalidStep (name : Str)
  /-- "Expected '{' after loop." -/
  | expectedBrace
  /-- "Invalid token in script: …" -/
  | invalidScriptToken (t : ScriptTok)
  /-- "Unrecognized token" -/
  | unrecognized
  deriving DecidableEq, Repr

/-- A computation that writes warnings: the lines, and its result. What was written before a panic is kept. -/
abbrev Warned (α : Type) := List Warning × α

/-- Write a line, then go on. -/
def warn {α : Type} (w : Warning) (r : Warned α) : Warned α := (w :: r.1, r.2)

/-- src/burn_script/parser.rs:21-210 `parse` with its warnings, see `parseScripts`. -/
def parseScriptsW (m : ScriptMode) (stack : List Instruction) (tmp : FScript) (acc : List FScript) :
    List ScriptTok → Warned (Res (Option (List FScript)))
  | [] =>
    match m with
    | .top => ([], .ok (some acc))
    | .name => ([], .error .unwrap)
    | .loopOpen => ([], .error .unwrap)
    | .elseOpen => ([], .error .unwrap)
    | _ => ([], .ok (some (acc ++ [tmp])))
  | t :: ts =>
    match m with
    | .top =>
      if t.ty = .define then parseScriptsW .name stack {} acc ts
      else warn .unrecognized (parseScriptsW .top stack tmp acc ts)
    | .name => parseScriptsW .params stack (if t.ty = .identifier then { tmp with name := t.value } else tmp) acc ts
    | .params =>
      match t.ty with
      | .argument => parseScriptsW .params stack { tmp with arguments := tmp.arguments ++ [t.value] } acc ts
      | .comma => parseScriptsW .params stack tmp acc ts
      | .openParen => parseScriptsW .params stack tmp acc ts
      | .closeParen => parseScriptsW .params stack tmp acc ts
      | .openBracket => parseScriptsW .body stack tmp acc ts
      | _ => warn .invalidToken (parseScriptsW .params stack tmp acc ts)
    | .step op switches =>
      if t.ty = .argument then parseScriptsW (.step op (switches ++ [t.value])) stack tmp acc ts
      else if t.ty = .semiColon then parseScriptsW .body stack (tmp.push op switches) acc ts
      else ([], .error .explicit)
    | .elif switches =>
      if t.ty = .argument then parseScriptsW (.elif (switches ++ [t.value])) stack tmp acc ts
      else if t.ty = .openBracket then parseScriptsW .body stack (tmp.push .elseIf switches) acc ts
      else ([], .error .explicit)
    | .if switches =>
      if t.ty = .argument then parseScriptsW (.if (switches ++ [t.value])) stack tmp acc ts
      else if t.ty = .openBracket then parseScriptsW .body (.if :: stack) (tmp.push .if switches) acc ts
      else ([], .error .explicit)
    | .loopOpen =>
      if t.ty = .openBracket then parseScriptsW .body (.loop :: stack) (tmp.push .loop []) acc ts
      else warn .expectedBrace (parseScriptsW .top stack tmp (acc ++ [tmp]) ts)
    | .elseOpen =>
      if t.ty = .openBracket then parseScriptsW .body stack (tmp.push .else []) acc ts
      else warn .expectedBrace (parseScriptsW .top stack tmp (acc ++ [tmp]) ts)
    | .body =>
      match t.ty with
      | .identifier =>
        match Instruction.fromStr t.value with
        | some op => parseScriptsW (.step op []) stack tmp acc ts
        | none => warn (.invalidStep t.value) (parseScriptsW .body stack tmp acc ts)
      | .closeBracket =>
        match stack with
        | [] => parseScriptsW .top stack tmp (acc ++ [tmp]) ts
        | top :: below =>
          if startsElse ts then parseScriptsW .body stack tmp acc ts
          else match top with
            | .if => parseScriptsW .body below (tmp.push .endIf []) acc ts
            | .loop => parseScriptsW .body below (tmp.push .endLoop []) acc ts
            | _ => ([], .ok none)
      | .openBracket => parseScriptsW .body stack tmp acc ts
      | .loop => parseScriptsW .loopOpen stack tmp acc ts
      | .elif => parseScriptsW (.elif []) stack tmp acc ts
      | .if => parseScriptsW (.if []) stack tmp acc ts
      | .else => parseScriptsW .elseOpen stack tmp acc ts
      | _ => warn (.invalidScriptToken t) (parseScriptsW .body stack tmp acc ts)

/-- src/burn_script/compiler.rs:8-13 `compile_burn_script` with its warnings, see `compileScripts`. -/
def compileScriptsW (code : Str) : Warned (Res (List FScript)) :=
  match lexScript code with
  | .error e => ([], .error e)
  | .ok tokens =>
    let r := parseScriptsW .top [] {} [] tokens
    (r.1, r.2 >>= unwrap)

/-- A computation after one that writes warnings; a panic ends it. -/
def Warned.andThen {α β : Type} (r : Warned (Res α)) (k : α → Warned (Res β)) : Warned (Res β) :=
  match r.2 with
  | .ok x => (r.1 ++ (k x).1, (k x).2)
  | .error e => (r.1, .error e)

/-- src/compile/parser.rs:15-248 `parse_program` with its warnings, see `parseBurn`. -/
def parseBurnW (m : BurnMode) (ret : FmpFile) : List BurnTok → Warned (Res (Option FmpFile))
  | [] =>
    match m with
    | .top => ([], .ok (some ret))
    | .item i => ([], .ok (some (ret.addItem i)))
    | .assertions t => ([], .ok (some (ret.addItem (.test t))))
    | _ => ([], .error .unwrap)
  | t :: ts =>
    match m with
    | .top =>
      match t.ty with
      | .table => parseBurnW (.name (.table {})) ret ts
      | .relationship => parseBurnW .relColon ret ts
      | .valueList => parseBurnW (.name (.valueList {})) ret ts
      | .script => parseBurnW .scriptColon ret ts
      | .tableOccurence => parseBurnW (.name (.occurrence {})) ret ts
      | .test => parseBurnW (.name (.test {})) ret ts
      | _ => ([], .ok none)
    | .name i => if t.ty = .identifier then parseBurnW (.item (i.named t.text)) ret ts else ([], .ok none)
    | .relColon => if t.ty = .colon then parseBurnW (.item (.relationship {})) ret ts else ([], .ok none)
    | .itemEnd i => if t.ty = i.keyword then parseBurnW (.itemSemi i) ret ts else ([], .ok none)
    | .itemSemi i => if t.ty = .semiColon then parseBurnW .top (ret.addItem i) ts else ([], .ok none)
    | .relSep r => parseBurnW (.relSecond r) ret ts
    | .relSecond r => parseBurnW (.item (.relationship { r with table2Name := t.text })) ret ts
    | .occColon o => if t.ty = .colon then parseBurnW (.occName o) ret ts else ([], .ok none)
    | .occName o =>
      if t.ty = .identifier then parseBurnW (.item (.occurrence { o with tableActualName := t.text })) ret ts else ([], .ok none)
    | .scriptColon => if t.ty = .colon then parseBurnW .scriptOpen ret ts else ([], .ok none)
    | .scriptOpen => if t.ty = .openSquare then parseBurnW .scriptBlock ret ts else ([], .ok none)
    | .scriptBlock =>
      (compileScriptsW t.text).andThen fun scripts => parseBurnW .scriptClose (ret.addScripts scripts) ts
    | .scriptClose => if t.ty = .closeSquare then parseBurnW .top ret ts else ([], .ok none)
    | .testColon x => if t.ty = .colon then parseBurnW (.testOpen x) ret ts else ([], .ok none)
    | .testOpen x => if t.ty = .openSquare then parseBurnW (.testBlock x) ret ts else ([], .ok none)
    | .testBlock x =>
      (compileScriptsW t.text).andThen fun scripts =>
        if 1 < scripts.length then ([], .ok none)
        else Warned.andThen ([], idx scripts 0) fun s => parseBurnW (.item (.test { x with script := s })) ret ts
    | .assertColon x => if t.ty = .colon then parseBurnW (.assertions x) ret ts else ([], .ok none)
    | .assertions x =>
      if t.ty = .assertion then parseBurnW (.assertions { x with assertions := x.assertions ++ [t.text] }) ret ts
      else if t.ty = .comma then parseBurnW (.assertions x) ret ts
      else parseBurnW (.item (.test x)) ret ts
    | .item i =>
      if t.ty = .end then parseBurnW (.itemEnd i) ret ts
      else match i with
        | .relationship r =>
          if t.ty = .identifier then
            match ts.head? with
            | none => ([], .error .unwrap)
            | some c =>
              if c.ty = .colon then parseBurnW (.relSep { r with table1Name := t.text }) ret ts
              else parseBurnW m ret ts
          else parseBurnW m ret ts
        | .occurrence o => if t.ty = .table then parseBurnW (.occColon o) ret ts else parseBurnW m ret ts
        | .test x =>
          if t.ty = .script then parseBurnW (.testColon x) ret ts
          else if t.ty = .assertionBlock then parseBurnW (.assertColon x) ret ts
          else parseBurnW m ret ts
        | _ => parseBurnW m ret ts

/-- src/compile/compiler.rs:5-9 `compile_burn` with its warnings, see `compileBurn`. -/
def compileBurnW [Rt] (p : Profile) (code : Str) : Warned (Res FmpFile) :=
  match lexBurn p code with
  | .error e => ([], .error e)
  | .ok tokens =>
    let r := parseBurnW .top {} tokens
    (r.1, r.2 >>= unwrap)

end BurnFm
