import Verif.Spec.Burn
import Verif.Spec.ScriptGrammar

/-! Which file any tokens of a program give, also those that are not as documented. -/

namespace BurnFm.Spec

/-- What can be declared, but for scripts. -/
inductive Entry where
  | table (name : Str)
  | relationship (first second : Str)
  | valueList (name : Str)
  | occurrence (name table : Str)
  | test (name : Str) (script : FScript)

/-- The word after `end`. -/
def Entry.ending : Entry → BurnTokType
  | .table _ => .table
  | .relationship _ _ => .relationship
  | .valueList _ => .valueList
  | .occurrence _ _ => .tableOccurence
  | .test _ _ => .test

/-- Something declared. -/
inductive Declared where
  | entry (e : Entry)
  | scripts (fs : List FScript)

/-! ### The file -/

def Declared.table? : Declared → Option FTable
  | .entry (.table n) => some { name := n }
  | _ => none

def Declared.valueList? : Declared → Option FValueList
  | .entry (.valueList n) => some { name := n }
  | _ => none

def Declared.occurrence? : Declared → Option FOccurrence
  | .entry (.occurrence n t) => some { name := n, tableActualName := t }
  | _ => none

def Declared.test? : Declared → Option FTest
  | .entry (.test n s) => some { name := n, script := s }
  | _ => none

def Declared.relationship? : Declared → Option FRelationship
  | .entry (.relationship a b) => some { table1Name := a, table2Name := b }
  | _ => none

def Declared.scripts? : Declared → List FScript
  | .scripts fs => fs
  | _ => []

/-- How many tables are declared. -/
def declaredTables (ds : List Declared) : Nat := (ds.filterMap Declared.table?).length

/-- `RelationshipIn ds k r`: `r` is the relationship that is declared last among those declared after exactly `k - 1` tables. -/
def RelationshipIn (ds : List Declared) (k : Nat) (r : FRelationship) : Prop :=
  ∃ pre d post, ds = pre ++ d :: post ∧ d.relationship? = some r ∧ k = declaredTables pre + 1 ∧
    ∀ mid d' post', post = mid ++ d' :: post' → d'.relationship? ≠ none → declaredTables mid ≠ 0

/-- The file with what is declared: tables, value lists and scripts numbered from 1, occurrences numbered from 0, tests in order. -/
structure DeclaredFile (ds : List Declared) (f : FmpFile) : Prop where
  tables : HasNumbers 1 (ds.filterMap Declared.table?) f.tables
  valueLists : HasNumbers 1 (ds.filterMap Declared.valueList?) f.valueLists
  scripts : HasNumbers 1 (ds.flatMap Declared.scripts?) f.scripts
  occurrences : HasNumbers 0 (ds.filterMap Declared.occurrence?) f.tableOccurrences
  tests : f.tests = ds.filterMap Declared.test?
  relationships : ∀ k r, f.relationships.get k = some r ↔ RelationshipIn ds k r
  rest : f.layouts = [] ∧ f.dataSources = [] ∧ f.name = []

/-! ### The grammar -/

/-- The text of a block compiles to these scripts. -/
def BlockOf (text : Str) (fs : List FScript) : Prop := ∃ ts, ScriptCut text ts ∧ ScriptsOf [] ts fs

/-- Compiling the text of a block crashes. -/
def BlockBreaks (text : Str) (p : Panic) : Prop :=
  p = .unwrap ∧ ScriptUncut text ∨ ∃ ts, ScriptCut text ts ∧ ScriptsBreak [] ts p

/-- How reading a program can fail. -/
inductive Failure where
  | refused
  | crash (p : Panic)

/-- `Expected ks ts f`: the tokens do not begin with tokens of the types `ks`, of which `none` is any type. If one is another, the
program is refused, if there are too few, reading it crashes. -/
inductive Expected : List (Option BurnTokType) → List BurnTok → Failure → Prop
  | noMore {k : Option BurnTokType} {ks : List (Option BurnTokType)} : Expected (k :: ks) [] (.crash .unwrap)
  | other {k : BurnTokType} {ks : List (Option BurnTokType)} {t : BurnTok} {r : List BurnTok} : t.ty ≠ k →
      Expected (some k :: ks) (t :: r) .refused
  | later {k : BurnTokType} {ks : List (Option BurnTokType)} {t : BurnTok} {r : List BurnTok} {f : Failure} : t.ty = k →
      Expected ks r f → Expected (some k :: ks) (t :: r) f

/-- `EntryStarts w e`: the tokens `w` begin the declaration `e`. -/
inductive EntryStarts : List BurnTok → Entry → Prop
  | table {t n : BurnTok} : t.ty = .table → n.ty = .identifier → EntryStarts [t, n] (.table n.text)
  | valueList {t n : BurnTok} : t.ty = .valueList → n.ty = .identifier → EntryStarts [t, n] (.valueList n.text)
  | occurrence {t n : BurnTok} : t.ty = .tableOccurence → n.ty = .identifier → EntryStarts [t, n] (.occurrence n.text [])
  | test {t n : BurnTok} : t.ty = .test → n.ty = .identifier → EntryStarts [t, n] (.test n.text {})
  | relationship {t c : BurnTok} : t.ty = .relationship → c.ty = .colon → EntryStarts [t, c] (.relationship [] [])

/-- The tokens that mean something in a declaration, but for `end`. -/
def Special : Entry → BurnTok → Prop
  | .relationship _ _, t => t.ty = .identifier
  | .occurrence _ _, t => t.ty = .table
  | .test _ _, t => t.ty = .script ∨ t.ty = .assertionBlock
  | _, _ => False

/-- `EntryPhrase e w e' r`: in the declaration, which is `e` so far, the tokens `w` before `r` make it `e'`. -/
inductive EntryPhrase : Entry → List BurnTok → Entry → List BurnTok → Prop
  /-- a name, a colon and any token are the two tables -/
  | tables {x y : Str} {t c b : BurnTok} {r : List BurnTok} : t.ty = .identifier → c.ty = .colon →
      EntryPhrase (.relationship x y) [t, c, b] (.relationship t.text b.text) r
  | noColon {x y : Str} {t c : BurnTok} {r : List BurnTok} : t.ty = .identifier → c.ty ≠ .colon →
      EntryPhrase (.relationship x y) [t] (.relationship x y) (c :: r)
  | table {n x : Str} {t c b : BurnTok} {r : List BurnTok} : t.ty = .table → c.ty = .colon → b.ty = .identifier →
      EntryPhrase (.occurrence n x) [t, c, b] (.occurrence n b.text) r
  | script {n : Str} {x s : FScript} {t c o b : BurnTok} {r : List BurnTok} : t.ty = .script → c.ty = .colon → o.ty = .openSquare →
      BlockOf b.text [s] → EntryPhrase (.test n x) [t, c, o, b] (.test n s) r
  /-- any other token is skipped -/
  | skip {e : Entry} {t : BurnTok} {r : List BurnTok} : t.ty ≠ .end → ¬ Special e t → EntryPhrase e [t] e r

/-- `EntryEnds e w r`: the tokens `w` before `r` end the declaration; the end of the tokens does so, too. -/
inductive EntryEnds : Entry → List BurnTok → List BurnTok → Prop
  | closed {e : Entry} {t k s : BurnTok} {r : List BurnTok} : t.ty = .end → k.ty = e.ending → s.ty = .semiColon →
      EntryEnds e [t, k, s] r
  | noMore {e : Entry} : EntryEnds e [] []

/-- `EntryFails e ts f`: in the declaration, the tokens begin with something that cannot be read. -/
inductive EntryFails : Entry → List BurnTok → Failure → Prop
  | ending {e : Entry} {t : BurnTok} {r : List BurnTok} {f : Failure} : t.ty = .end →
      Expected [some e.ending, some .semiColon] r f → EntryFails e (t :: r) f
  | lastName {x y : Str} {t : BurnTok} : t.ty = .identifier → EntryFails (.relationship x y) [t] (.crash .unwrap)
  | noSecond {x y : Str} {t c : BurnTok} : t.ty = .identifier → c.ty = .colon →
      EntryFails (.relationship x y) [t, c] (.crash .unwrap)
  | table {n x : Str} {t : BurnTok} {r : List BurnTok} {f : Failure} : t.ty = .table →
      Expected [some .colon, some .identifier] r f → EntryFails (.occurrence n x) (t :: r) f
  | script {n : Str} {x : FScript} {t : BurnTok} {r : List BurnTok} {f : Failure} : t.ty = .script →
      Expected [some .colon, some .openSquare, none] r f → EntryFails (.test n x) (t :: r) f
  | manyScripts {n : Str} {x : FScript} {t c o b : BurnTok} {r : List BurnTok} {fs : List FScript} : t.ty = .script → c.ty = .colon →
      o.ty = .openSquare → BlockOf b.text fs → 1 < fs.length → EntryFails (.test n x) (t :: c :: o :: b :: r) .refused
  | noScript {n : Str} {x : FScript} {t c o b : BurnTok} {r : List BurnTok} : t.ty = .script → c.ty = .colon →
      o.ty = .openSquare → BlockOf b.text [] → EntryFails (.test n x) (t :: c :: o :: b :: r) (.crash .index)
  | brokenScript {n : Str} {x : FScript} {t c o b : BurnTok} {r : List BurnTok} {p : Panic} : t.ty = .script → c.ty = .colon →
      o.ty = .openSquare → BlockBreaks b.text p → EntryFails (.test n x) (t :: c :: o :: b :: r) (.crash p)

/-- `EntryBody e ts e' r`: the declaration, which is `e` before the tokens `ts`, is `e'` at its end, and `r` follows. -/
inductive EntryBody : Entry → List BurnTok → Entry → List BurnTok → Prop
  | ends {e : Entry} {w r : List BurnTok} : EntryEnds e w r → EntryBody e (w ++ r) e r
  | phrase {e e' e'' : Entry} {w r r' : List BurnTok} : EntryPhrase e w e' r → EntryBody e' r e'' r' → EntryBody e (w ++ r) e'' r'

/-- `BrokenEntry e ts f`: reading the rest `ts` of the declaration fails. -/
inductive BrokenEntry : Entry → List BurnTok → Failure → Prop
  | here {e : Entry} {ts : List BurnTok} {f : Failure} : EntryFails e ts f → BrokenEntry e ts f
  | phrase {e e' : Entry} {w r : List BurnTok} {f : Failure} : EntryPhrase e w e' r → BrokenEntry e' r f → BrokenEntry e (w ++ r) f

/-- `ProgramOf ts ds`: the tokens `ts` declare `ds`. -/
inductive ProgramOf : List BurnTok → List Declared → Prop
  | nil : ProgramOf [] []
  | entry {w b r : List BurnTok} {e e' : Entry} {ds : List Declared} : EntryStarts w e → EntryBody e b e' r → ProgramOf r ds →
      ProgramOf (w ++ b) (.entry e' :: ds)
  | scripts {t c o b z : BurnTok} {r : List BurnTok} {fs : List FScript} {ds : List Declared} : t.ty = .script → c.ty = .colon →
      o.ty = .openSquare → BlockOf b.text fs → z.ty = .closeSquare → ProgramOf r ds →
      ProgramOf (t :: c :: o :: b :: z :: r) (.scripts fs :: ds)

/-- `ProgramFails ts f`: reading the tokens fails. -/
inductive ProgramFails : List BurnTok → Failure → Prop
  | noDeclaration {t : BurnTok} {r : List BurnTok} :
      t.ty ∉ [.table, .relationship, .valueList, .script, .tableOccurence, .test] → ProgramFails (t :: r) .refused
  | noName {t : BurnTok} {r : List BurnTok} {f : Failure} : t.ty ∈ [.table, .valueList, .tableOccurence, .test] →
      Expected [some .identifier] r f → ProgramFails (t :: r) f
  | noColon {t : BurnTok} {r : List BurnTok} {f : Failure} : t.ty = .relationship → Expected [some .colon] r f →
      ProgramFails (t :: r) f
  | noBlock {t : BurnTok} {r : List BurnTok} {f : Failure} : t.ty = .script → Expected [some .colon, some .openSquare, none] r f →
      ProgramFails (t :: r) f
  | brokenBlock {t c o b : BurnTok} {r : List BurnTok} {p : Panic} : t.ty = .script → c.ty = .colon → o.ty = .openSquare →
      BlockBreaks b.text p → ProgramFails (t :: c :: o :: b :: r) (.crash p)
  | openBlock {t c o b : BurnTok} {r : List BurnTok} {fs : List FScript} {f : Failure} : t.ty = .script → c.ty = .colon →
      o.ty = .openSquare → BlockOf b.text fs → Expected [some .closeSquare] r f → ProgramFails (t :: c :: o :: b :: r) f
  | entry {w b : List BurnTok} {e : Entry} {f : Failure} : EntryStarts w e → BrokenEntry e b f → ProgramFails (w ++ b) f
  | afterEntry {w b r : List BurnTok} {e e' : Entry} {f : Failure} : EntryStarts w e → EntryBody e b e' r → ProgramFails r f →
      ProgramFails (w ++ b) f
  | afterScripts {t c o b z : BurnTok} {r : List BurnTok} {fs : List FScript} {f : Failure} : t.ty = .script → c.ty = .colon →
      o.ty = .openSquare → BlockOf b.text fs → z.ty = .closeSquare → ProgramFails r f →
      ProgramFails (t :: c :: o :: b :: z :: r) f

end BurnFm.Spec
