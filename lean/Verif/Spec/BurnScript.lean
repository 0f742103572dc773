import Verif.Model.BurnScript
import Verif.Spec.Script

/-! The script language as written: tokens of structured scripts, and the texts that spell them. -/

namespace BurnFm.Spec

/-! ### Abbreviations for tokens -/

abbrev tDefine : ScriptTok := ⟨.define, []⟩
abbrev tIf : ScriptTok := ⟨.if, []⟩
abbrev tElif : ScriptTok := ⟨.elif, []⟩
abbrev tElse : ScriptTok := ⟨.else, []⟩
abbrev tLoop : ScriptTok := ⟨.loop, []⟩
abbrev tOpen : ScriptTok := ⟨.openBracket, []⟩
abbrev tClose : ScriptTok := ⟨.closeBracket, []⟩
abbrev tSemi : ScriptTok := ⟨.semiColon, []⟩
abbrev tName (n : Str) : ScriptTok := ⟨.identifier, n⟩
abbrev tArg (a : Str) : ScriptTok := ⟨.argument, a⟩

/-! ### Token sequences of structured scripts -/

mutual

/-- `Written unknown prog ts`: `ts` are the tokens of the structured script `prog`. A step is written as one of the
names of its instruction, its arguments, and a semicolon. With `unknown` there may be steps in between whose name is
not that of an instruction. -/
inductive Written (unknown : Bool) : Prog → List ScriptTok → Prop
  | nil : Written unknown .nil []
  | step {name : Str} {op : Instruction} {args : List Str} {rest : Prog} {ts : List ScriptTok} :
      Instruction.fromStr name = some op → Written unknown rest ts →
      Written unknown (.step ⟨op, 0, args⟩ rest) (tName name :: args.map tArg ++ tSemi :: ts)
  | exitIf {c : Str} {rest : Prog} {ts : List ScriptTok} : Written unknown rest ts →
      Written unknown (.exitIf c rest) (tName t!"exit_loop_if" :: tArg c :: tSemi :: ts)
  | cond {c : Str} {body rest : Prog} {alt : Alt} {b a ts : List ScriptTok} : Written unknown body b →
      WrittenAlt unknown alt a → Written unknown rest ts →
      Written unknown (.cond c body alt rest) (tIf :: tArg c :: tOpen :: b ++ tClose :: a ++ ts)
  | loop {body rest : Prog} {b ts : List ScriptTok} : Written unknown body b → Written unknown rest ts →
      Written unknown (.loop body rest) (tLoop :: tOpen :: b ++ tClose :: ts)
  | unknown {prog : Prog} {name : Str} {args : List Str} {ts : List ScriptTok} : unknown = true →
      Instruction.fromStr name = none → Written unknown prog ts →
      Written unknown prog (tName name :: args.map tArg ++ tSemi :: ts)

/-- The same for the branches after the first. -/
inductive WrittenAlt (unknown : Bool) : Alt → List ScriptTok → Prop
  | none : WrittenAlt unknown .none []
  | else {body : Prog} {b : List ScriptTok} : Written unknown body b →
      WrittenAlt unknown (.else body) (tElse :: tOpen :: b ++ [tClose])
  | elif {c : Str} {body : Prog} {alt : Alt} {b a : List ScriptTok} : Written unknown body b →
      WrittenAlt unknown alt a →
      WrittenAlt unknown (.elif c body alt) (tElif :: tArg c :: tOpen :: b ++ tClose :: a)

end

/-- A script definition: name, parameters and structured body. -/
structure ScriptDef where
  name : Str
  params : List Str
  body : Prog

/-- The compiled script of a definition. -/
def ScriptDef.script (d : ScriptDef) : FScript :=
  { name := d.name, arguments := d.params, instructions := d.body.code }

/-- The tokens of a sequence of definitions `define name(params) { body }`. -/
inductive WrittenDefs (unknown : Bool) : List ScriptDef → List ScriptTok → Prop
  | nil : WrittenDefs unknown [] []
  | cons {d : ScriptDef} {ds : List ScriptDef} {b ts : List ScriptTok} : Written unknown d.body b →
      WrittenDefs unknown ds ts →
      WrittenDefs unknown (d :: ds) (tDefine :: tName d.name :: d.params.map tArg ++ tOpen :: b ++ tClose :: ts)

/-! ### Texts -/

/-- The characters of words: not white space and not one with a meaning of its own. -/
def NameChar (c : Char) : Prop := isSpace c = false ∧ c ∉ ['(', '{', '}', ',', ';', '!', '=', '<', '>', '+', '-', '*', '/', '&']

instance (c : Char) : Decidable (NameChar c) := inferInstanceAs (Decidable (_ ∧ _))

/-- A text with balanced parentheses. -/
inductive Nested : Str → Prop
  | nil : Nested []
  | char {c : Char} {s : Str} : c ≠ '(' → c ≠ ')' → Nested s → Nested (c :: s)
  | parens {s t : Str} : Nested s → Nested t → Nested ('(' :: s ++ ')' :: t)

/-- A text with balanced parentheses and no comma outside of them. -/
inductive ArgBody : Str → Prop
  | nil : ArgBody []
  | char {c : Char} {s : Str} : c ≠ '(' → c ≠ ')' → c ≠ ',' → ArgBody s → ArgBody (c :: s)
  | parens {s t : Str} : Nested s → ArgBody t → ArgBody ('(' :: s ++ ')' :: t)

/-- The text of one argument: balanced, no comma outside of parentheses, its quotes closed, no leading blank. -/
def ArgText (s : Str) : Prop := ArgBody s ∧ s.count '"' % 2 = 0 ∧ s.head? ≠ some ' '

/-- Argument syntax with strings: what stands between quotes has no meaning of its own. This is `ArgBody`, except that
in a string commas and parentheses are allowed. -/
inductive QuotedArg : Str → Prop
  | nil : QuotedArg []
  | char {c : Char} {s : Str} : c ≠ '(' → c ≠ ')' → c ≠ ',' → c ≠ '"' → QuotedArg s → QuotedArg (c :: s)
  | string {q s : Str} : '"' ∉ q → QuotedArg s → QuotedArg ('"' :: q ++ '"' :: s)
  | parens {s t : Str} : Nested s → QuotedArg t → QuotedArg ('(' :: s ++ ')' :: t)

/-- Texts with commas between them. -/
def commaSeparated : List Str → Str
  | [] => []
  | [a] => a
  | a :: as => a ++ ',' :: commaSeparated as

/-- The pieces of an argument list as they are read: the blanks before a piece are dropped, unless the number of quotes
before it is odd. -/
def asRead (quotes : Nat) : List Str → List Str
  | [] => []
  | a :: as => (if quotes % 2 = 0 then a.dropWhile (fun c => c == ' ') else a) :: asRead (quotes + a.count '"') as

/-- The arguments as written: separated by commas, each after some blanks. -/
def argsText : List (Nat × Str) → Str
  | [] => []
  | [a] => List.replicate a.1 ' ' ++ a.2
  | a :: as => List.replicate a.1 ' ' ++ a.2 ++ ',' :: argsText as

/-- The words that are not names. -/
def keywords : List (Str × ScriptTokType) :=
  [(t!"define", .define), (t!"let", .let), (t!"loop", .loop), (t!"if", .if), (t!"elif", .elif), (t!"else", .else)]

/-- `ScriptText ts s`: the text `s` spells the tokens `ts`. -/
inductive ScriptText : List ScriptTok → Str → Prop
  | nil : ScriptText [] []
  | space {c : Char} {ts : List ScriptTok} {s : Str} : isSpace c = true → ScriptText ts s → ScriptText ts (c :: s)
  | semi {ts : List ScriptTok} {s : Str} : ScriptText ts s → ScriptText (tSemi :: ts) (';' :: s)
  | open {ts : List ScriptTok} {s : Str} : ScriptText ts s → ScriptText (tOpen :: ts) ('{' :: s)
  | close {ts : List ScriptTok} {s : Str} : ScriptText ts s → ScriptText (tClose :: ts) ('}' :: s)
  /-- a keyword, then a character that ends it -/
  | keyword {w : Str} {ty : ScriptTokType} {d : Char} {ts : List ScriptTok} {s : Str} : (w, ty) ∈ keywords →
      ¬ NameChar d → ScriptText ts (d :: s) → ScriptText (⟨ty, []⟩ :: ts) (w ++ d :: s)
  /-- a name that is not a keyword and not a number -/
  | name {w : Str} {d : Char} {ts : List ScriptTok} {s : Str} : w ≠ [] → (∀ c ∈ w, NameChar c) →
      w ∉ keywords.map (·.1) → isFloatText w = false → ¬ NameChar d → ScriptText ts (d :: s) →
      ScriptText (tName w :: ts) (w ++ d :: s)
  /-- arguments in parentheses; `()` is one empty argument -/
  | args {as : List (Nat × Str)} {ts : List ScriptTok} {s : Str} : as ≠ [] → (∀ a ∈ as, ArgText a.2) → ScriptText ts s →
      ScriptText (as.map (fun a => tArg a.2) ++ ts) ('(' :: argsText as ++ ')' :: s)

end BurnFm.Spec
