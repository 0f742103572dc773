import Verif.Spec.Burn
import Verif.Model.ScriptWarnings
import Verif.Spec.BurnScript

/-! What the source text of scripts says, read off its tokens without parsing it, and what it means that scripts have all of
it. -/

namespace BurnFm.Spec

/-- A word with what follows it in parentheses: a step, or one of `if`, `elif`, `else`, `loop`, or the name of a script. -/
structure Head where
  kind : ScriptTokType
  word : Str
  args : List Str
  deriving DecidableEq

/-- The arguments that follow a word, up to the first token that cannot be part of an argument list. -/
def argsAfter : List ScriptTok → List Str
  | [] => []
  | t :: ts =>
    match t.ty with
    | .argument => t.value :: argsAfter ts
    | .comma => argsAfter ts
    | .openParen => argsAfter ts
    | .closeParen => argsAfter ts
    | _ => []

/-- The kinds of words: names and block keywords. -/
def headKinds : List ScriptTokType := [.identifier, .loop, .if, .elif, .else]

/-- All words of a source text with their arguments, in order. -/
def heads : List ScriptTok → List Head
  | [] => []
  | t :: ts => if t.ty ∈ headKinds then ⟨t.ty, t.value, argsAfter ts⟩ :: heads ts else heads ts

/-- `StepsKept hs code`: the instructions are those of the words, in order, with the same arguments; in between there are only
the ends of blocks, which have no word of their own. -/
inductive StepsKept : List Head → List ScriptStep → Prop
  | nil : StepsKept [] []
  | step {n : Str} {op : Instruction} {as : List Str} {hs : List Head} {code : List ScriptStep} :
      Instruction.fromStr n = some op → StepsKept hs code → StepsKept (⟨.identifier, n, as⟩ :: hs) (⟨op, 0, as⟩ :: code)
  | if {v : Str} {as : List Str} {hs : List Head} {code : List ScriptStep} : StepsKept hs code →
      StepsKept (⟨.if, v, as⟩ :: hs) (⟨.if, 0, as⟩ :: code)
  | elif {v : Str} {as : List Str} {hs : List Head} {code : List ScriptStep} : StepsKept hs code →
      StepsKept (⟨.elif, v, as⟩ :: hs) (⟨.elseIf, 0, as⟩ :: code)
  | else {v : Str} {as : List Str} {hs : List Head} {code : List ScriptStep} : StepsKept hs code →
      StepsKept (⟨.else, v, as⟩ :: hs) (⟨.else, 0, as⟩ :: code)
  | loop {v : Str} {as : List Str} {hs : List Head} {code : List ScriptStep} : StepsKept hs code →
      StepsKept (⟨.loop, v, as⟩ :: hs) (⟨.loop, 0, as⟩ :: code)
  | endIf {hs : List Head} {code : List ScriptStep} : StepsKept hs code → StepsKept hs (⟨.endIf, 0, []⟩ :: code)
  | endLoop {hs : List Head} {code : List ScriptStep} : StepsKept hs code → StepsKept hs (⟨.endLoop, 0, []⟩ :: code)

/-- `ScriptsKept hs scripts`: the same for several scripts, each of which begins with its name and parameters. -/
inductive ScriptsKept : List Head → List FScript → Prop
  | nil : ScriptsKept [] []
  | script {s : FScript} {ss : List FScript} {hs rest : List Head} : StepsKept hs s.instructions → ScriptsKept rest ss →
      ScriptsKept (⟨.identifier, s.name, s.arguments⟩ :: (hs ++ rest)) (s :: ss)

/-- Every `define` is followed by a name. -/
def EveryScriptNamed (ts : List ScriptTok) : Prop :=
  ∀ a d t b, ts = a ++ d :: t :: b → d.ty = .define → t.ty = .identifier

/-- The text does not end inside of a step: its last token is a semicolon or a brace. -/
def Finished (ts : List ScriptTok) : Prop := ∀ t ∈ ts.getLast?, t.ty = .semiColon ∨ t.ty = .openBracket ∨ t.ty = .closeBracket

/-- The names of steps that are not instructions, in order. The word after `define` is not a step. -/
def unknownSteps : List ScriptTok → List Str
  | [] => []
  | [t] => if t.ty = .identifier ∧ Instruction.fromStr t.value = none then [t.value] else []
  | t :: t' :: ts =>
    if t.ty = .define then unknownSteps ts
    else if t.ty = .identifier ∧ Instruction.fromStr t.value = none then t.value :: unknownSteps (t' :: ts)
    else unknownSteps (t' :: ts)

/-- The names of steps in some warnings. -/
def reportedSteps : List Warning → List Str
  | [] => []
  | .invalidStep n :: ws => n :: reportedSteps ws
  | _ :: ws => reportedSteps ws

/-- A warning after which the parser has not lost its place: it names what it does not understand, and this is not the
beginning of another script. -/
def Local : Warning → Prop
  | .invalidStep _ => True
  | .invalidScriptToken t => t.ty ≠ .define
  | _ => False

/-- The number of definitions in a source text. -/
def defines (ts : List ScriptTok) : Nat := ts.countP (fun t => t.ty == .define)

/-! ### Programs with any text in their script blocks -/

/-- The declaration has a script block. -/
def Decl.hasScripts : Decl → Bool
  | .scripts _ => true
  | .test _ _ => true
  | _ => false

/-- The tokens of a declaration, see `DeclToks`, and the text of its script block, which can be anything. -/
inductive DraftDecl : List Str → List BurnTok → Prop
  | other {d : Decl} {ts : List BurnTok} : DeclToks d ts → d.hasScripts = false → DraftDecl [] ts
  | scripts {s : Str} :
      DraftDecl [s] [⟨.script, []⟩, ⟨.colon, []⟩, ⟨.openSquare, []⟩, ⟨.script, s⟩, ⟨.closeSquare, []⟩]
  | test {name s : Str} {comma : List BurnTok} : comma = [] ∨ comma = [⟨.comma, []⟩] →
      DraftDecl [s] (⟨.test, []⟩ :: ⟨.identifier, name⟩ :: ⟨.colon, []⟩ :: ⟨.script, []⟩ :: ⟨.colon, []⟩ ::
        ⟨.openSquare, []⟩ :: ⟨.script, s⟩ :: ⟨.closeSquare, []⟩ :: comma ++ closing .test)

/-- The tokens of a program, and the texts of its script blocks in order. -/
inductive DraftToks : List Str → List BurnTok → Prop
  | nil : DraftToks [] []
  | cons {bs bs' : List Str} {ts rest : List BurnTok} : DraftDecl bs ts → DraftToks bs' rest →
      DraftToks (bs ++ bs') (ts ++ rest)

end BurnFm.Spec
