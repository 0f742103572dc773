import Verif.Model.Burn
import Verif.Spec.BurnScript

/-! Programs in the `.burn` language as written: declarations, their tokens, the texts that spell them, and the file
they stand for. -/

namespace BurnFm.Spec

/-- A declaration of a program. -/
inductive Decl where
  | table (name : Str)
  | relationship (first second : Str)
  | valueList (name : Str)
  | scripts (defs : List ScriptDef)
  | occurrence (name table : Str)
  | test (name : Str) (script : ScriptDef)

/-- `end <keyword>;` -/
def closing (k : BurnTokType) : List BurnTok := [⟨.end, []⟩, ⟨k, []⟩, ⟨.semiColon, []⟩]

/-- The tokens of a script block that spells some definitions. -/
inductive BlockToks : List ScriptDef → List BurnTok → Prop
  | block {ds : List ScriptDef} {ts : List ScriptTok} {s : Str} : ScriptText ts s → WrittenDefs false ds ts →
      BlockToks ds [⟨.colon, []⟩, ⟨.openSquare, []⟩, ⟨.script, s⟩, ⟨.closeSquare, []⟩]

/-- `DeclToks d ts`: `ts` are the tokens of the declaration `d`. What a table or value list contains is any sequence of
tokens without `end` that does not begin with a parenthesis. A relationship names its two tables first; after that there is no other name followed by a colon.
An occurrence names its table. A test has one script. -/
inductive DeclToks : Decl → List BurnTok → Prop
  | table {name : Str} {inner : List BurnTok} : (∀ t ∈ inner, t.ty ≠ .end) → (∀ t ∈ inner.head?, t.ty ≠ .openParen) →
      DeclToks (.table name) (⟨.table, []⟩ :: ⟨.identifier, name⟩ :: inner ++ closing .table)
  | valueList {name : Str} {inner : List BurnTok} : (∀ t ∈ inner, t.ty ≠ .end) →
      (∀ t ∈ inner.head?, t.ty ≠ .openParen) →
      DeclToks (.valueList name) (⟨.valueList, []⟩ :: ⟨.identifier, name⟩ :: inner ++ closing .valueList)
  | relationship {a b : Str} {inner : List BurnTok} : (∀ t ∈ inner, t.ty ≠ .end ∧ t.ty ≠ .colon) →
      DeclToks (.relationship a b) (⟨.relationship, []⟩ :: ⟨.colon, []⟩ :: ⟨.identifier, a⟩ :: ⟨.colon, []⟩ ::
        ⟨.identifier, b⟩ :: inner ++ closing .relationship)
  | occurrence {name table : Str} {comma : List BurnTok} : comma = [] ∨ comma = [⟨.comma, []⟩] →
      DeclToks (.occurrence name table) (⟨.tableOccurence, []⟩ :: ⟨.identifier, name⟩ :: ⟨.colon, []⟩ :: ⟨.table, []⟩ ::
        ⟨.colon, []⟩ :: ⟨.identifier, table⟩ :: comma ++ closing .tableOccurence)
  | scripts {ds : List ScriptDef} {ts : List BurnTok} : BlockToks ds ts → DeclToks (.scripts ds) (⟨.script, []⟩ :: ts)
  | test {name : Str} {d : ScriptDef} {ts comma : List BurnTok} : BlockToks [d] ts →
      comma = [] ∨ comma = [⟨.comma, []⟩] →
      DeclToks (.test name d) (⟨.test, []⟩ :: ⟨.identifier, name⟩ :: ⟨.colon, []⟩ :: ⟨.script, []⟩ :: ts ++ comma ++
        closing .test)

/-- The tokens of a program. -/
inductive ProgramToks : List Decl → List BurnTok → Prop
  | nil : ProgramToks [] []
  | cons {d : Decl} {ds : List Decl} {ts rest : List BurnTok} : DeclToks d ts → ProgramToks ds rest →
      ProgramToks (d :: ds) (ts ++ rest)

/-! ### The file a program stands for -/

def Decl.table? : Decl → Option FTable
  | .table n => some { name := n }
  | _ => none

def Decl.valueList? : Decl → Option FValueList
  | .valueList n => some { name := n }
  | _ => none

def Decl.occurrence? : Decl → Option FOccurrence
  | .occurrence n t => some { name := n, tableActualName := t }
  | _ => none

def Decl.test? : Decl → Option FTest
  | .test n d => some { name := n, script := d.script }
  | _ => none

def Decl.relationship? : Decl → Option FRelationship
  | .relationship a b => some { table1Name := a, table2Name := b }
  | _ => none

def Decl.scripts? : Decl → List FScript
  | .scripts ds => ds.map ScriptDef.script
  | _ => []

/-- The scripts of a program that can be called. If several have the same name, the interpreter calls the one that comes
first in a hash map; here it is the first. -/
def programEnv (ds : List Decl) (name : Str) : Option Prog :=
  ((ds.flatMap (fun d => match d with | .scripts defs => defs | _ => [])).find? (fun d => d.name == name)).map (·.body)

/-- The script of a test. -/
def Decl.testBody? : Decl → Option Prog
  | .test _ d => some d.body
  | _ => none

/-- How many tables are declared. -/
def tableCount (ds : List Decl) : Nat := (ds.filterMap Decl.table?).length

/-- `RelationshipAt ds k r`: `r` is the relationship that is declared last among those declared after exactly `k - 1`
tables. -/
def RelationshipAt (ds : List Decl) (k : Nat) (r : FRelationship) : Prop :=
  ∃ pre d post, ds = pre ++ d :: post ∧ d.relationship? = some r ∧ k = tableCount pre + 1 ∧
    ∀ mid d' post', post = mid ++ d' :: post' → d'.relationship? ≠ none → tableCount mid ≠ 0

/-- `HasNumbers start vals m`: the map has the values as its entries, numbered from `start` in order, and no others. -/
def HasNumbers {α : Type} (start : Nat) (vals : List α) (m : HMap α) : Prop :=
  ∀ k, m.get k = if k < start then none else vals[k - start]?

/-- The file a program stands for: tables, value lists and scripts numbered from 1, occurrences numbered from 0, tests
in order. -/
structure StandsFor (ds : List Decl) (f : FmpFile) : Prop where
  tables : HasNumbers 1 (ds.filterMap Decl.table?) f.tables
  valueLists : HasNumbers 1 (ds.filterMap Decl.valueList?) f.valueLists
  scripts : HasNumbers 1 (ds.flatMap Decl.scripts?) f.scripts
  occurrences : HasNumbers 0 (ds.filterMap Decl.occurrence?) f.tableOccurrences
  tests : f.tests = ds.filterMap Decl.test?
  rest : f.layouts = [] ∧ f.dataSources = [] ∧ f.name = []

/-- The value of the last of several maps that has the key. -/
def lastWins {α : Type} (ms : List (HMap α)) (k : Nat) : Option α := ms.reverse.findSome? (·.get k)

/-- Distinct keys in all maps of a file, as hash maps have. -/
structure UniqueKeys (f : FmpFile) : Prop where
  tables : (f.tables.map (·.1)).Nodup
  relationships : (f.relationships.map (·.1)).Nodup
  valueLists : (f.valueLists.map (·.1)).Nodup
  occurrences : (f.tableOccurrences.map (·.1)).Nodup
  scripts : (f.scripts.map (·.1)).Nodup
  layouts : (f.layouts.map (·.1)).Nodup

/-! ### Texts -/

/-- The characters of words: not white space and not one with a meaning of its own. -/
def BurnChar (c : Char) : Prop :=
  isSpace c = false ∧ c ∉ ['=', '[', ']', '(', ')', '"', '!', '{', '}', ';', ':', ',']

instance (c : Char) : Decidable (BurnChar c) := inferInstanceAs (Decidable (_ ∧ _))

/-- The words that are not names. -/
def burnKeywords : List (Str × BurnTokType) :=
  [(t!"table", .table), (t!"relationship", .relationship), (t!"value_list", .valueList),
   (t!"table_occurence", .tableOccurence), (t!"script", .script), (t!"test", .test), (t!"end", .end)]

/-- The one-character tokens. -/
def burnMarks : List (Char × BurnTokType) :=
  [(';', .semiColon), (':', .colon), (',', .comma), ('!', .exclamation), (')', .closeParen), (']', .closeSquare),
   ('}', .closeCurly)]

/-- `BurnText ts s`: the text `s` spells the tokens `ts`. Leading white space of strings, script blocks and
calculations is dropped; after a string or a calculation the lexer leaves its closing character as a name. -/
inductive BurnText [Rt] : List BurnTok → Str → Prop
  | nil : BurnText [] []
  | space {c : Char} {ts : List BurnTok} {s : Str} : isSpace c = true → BurnText ts s → BurnText ts (c :: s)
  | mark {c : Char} {ty : BurnTokType} {ts : List BurnTok} {s : Str} : (c, ty) ∈ burnMarks → BurnText ts s →
      BurnText (⟨ty, []⟩ :: ts) (c :: s)
  | paren {ts : List BurnTok} {s : Str} : BurnText ts s → BurnText (⟨.openParen, []⟩ :: ts) ('(' :: s)
  | equal {ts : List BurnTok} {s : Str} : BurnText ts s → BurnText (⟨.eComparison, []⟩ :: ts) ('=' :: '=' :: s)
  | assign {d : Char} {ts : List BurnTok} {s : Str} : d ≠ '=' → BurnText ts (d :: s) →
      BurnText (⟨.assign, []⟩ :: ts) ('=' :: d :: s)
  | keyword {w : Str} {ty : BurnTokType} {d : Char} {ts : List BurnTok} {s : Str} : (w, ty) ∈ burnKeywords →
      ¬ BurnChar d → BurnText ts (d :: s) → BurnText (⟨ty, []⟩ :: ts) (w ++ d :: s)
  | name {w : Str} {d : Char} {ts : List BurnTok} {s : Str} : w ≠ [] → (∀ c ∈ w, BurnChar c) →
      w ∉ burnKeywords.map (·.1) → isFloatText w = false → (∀ c, w.head? = some c → isDigit c = false) →
      ¬ BurnChar d → BurnText ts (d :: s) → BurnText (⟨.identifier, w⟩ :: ts) (w ++ d :: s)
  | number {w : Str} {x : Rt.F} {d : Char} {ts : List BurnTok} {s : Str} : w ≠ [] → (∀ c ∈ w, BurnChar c) →
      parseF64 w = some x → ¬ BurnChar d → BurnText ts (d :: s) →
      BurnText (⟨.numericLiteral, Rt.toText x⟩ :: ts) (w ++ d :: s)
  | string {q : Str} {d : Char} {ts : List BurnTok} {s : Str} : '"' ∉ q → ¬ BurnChar d → BurnText ts (d :: s) →
      BurnText (⟨.string, q.dropWhile isSpace⟩ :: ⟨.identifier, t!"\""⟩ :: ts) ('"' :: q ++ '"' :: d :: s)
  | calculation {q : Str} {d : Char} {ts : List BurnTok} {s : Str} : '}' ∉ q → ¬ BurnChar d → BurnText ts (d :: s) →
      BurnText (⟨.openCurly, []⟩ :: ⟨.calculation, q.dropWhile isSpace⟩ :: ⟨.identifier, t!"}"⟩ :: ts)
        ('{' :: q ++ '}' :: d :: s)
  | block {q : Str} {ts : List BurnTok} {s : Str} : ']' ∉ q → BurnText ts s →
      BurnText (⟨.openSquare, []⟩ :: ⟨.script, q.dropWhile isSpace⟩ :: ⟨.closeSquare, []⟩ :: ts) ('[' :: q ++ ']' :: s)

end BurnFm.Spec
