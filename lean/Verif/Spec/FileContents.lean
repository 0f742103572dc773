import Verif.Spec.Schema
import Verif.Spec.Segments
import Verif.Spec.ChunkFormat
import Verif.Spec.FileLayout
import Verif.Spec.Calc
import Verif.Spec.Sources

/-! What a complete file says: tables, table occurrences and the links between them, layouts, scripts
(doc/fmp_format.md). -/

namespace BurnFm.Spec

/-- `Sectors buf i evs`: following the links from sector `i`, each sector holds chunks in the format, starting in the root
directory, and zero bytes up to its end; in all they mean `evs`. A sector may end in the root directory or in another
directory; in the latter case the zero bytes at its end are seen as empty data in that directory. -/
inductive Sectors (buf : Bytes) : Nat → List Event → Prop
  | last : Sectors buf 0 []
  | sector {i n : Nat} {bytes : Bytes} {evs rest : List Event} : i ≠ 0 → i ≤ nextSector buf 1 → (i + 1) * 4096 ≤ buf.length →
      (buf.drop (i * 4096 + 20)).take 4076 = bytes ++ zeros n → FormatRun [] bytes evs [] →
      Sectors buf (nextSector buf i) rest → Sectors buf i (evs ++ rest)
  | openSector {i n : Nat} {bytes : Bytes} {path : List Nat} {evs rest : List Event} : i ≠ 0 → i ≤ nextSector buf 1 →
      (i + 1) * 4096 ≤ buf.length → (buf.drop (i * 4096 + 20)).take 4076 = bytes ++ zeros n → FormatRun [] bytes evs path →
      Sectors buf (nextSector buf i) rest → Sectors buf i (evs ++ seen (padding path n) ++ rest)

/-- The content of a file starts in sector 2. -/
def FileOf (buf : Bytes) (evs : List Event) : Prop := 4116 ≤ buf.length ∧ Sectors buf 2 evs

/-- A table occurrence: byte 7 of `info` is the number of its table. The third byte of each link is the number of an
occurrence it is related to. Occurrences are numbered in file order, from 1. -/
structure OccurrenceDef where
  info : Bytes
  name : Str
  links : List Bytes

/-- The criterion of relationship number `rel`. -/
structure CriterionDef where
  rel : Nat
  info : Bytes

inductive LayoutItem where
  /-- the second byte is 128 plus the number of the occurrence -/
  | info (b : Bytes)
  | name (s : Str)
  | other (key : Nat) (v : Bytes)

structure LayoutDef where
  id : Nat
  items : List LayoutItem

/-- A parameter of a step. -/
inductive ParamDef where
  /-- the variable of a Set Variable step -/
  | variableName (s : Str)
  /-- the result of an Exit Script step -/
  | result (c : List CalcItem)
  /-- a calculation -/
  | value (c : List CalcItem)

/-- A step: 28 bytes, what they mean, and the parameters stored elsewhere. -/
structure StepDef where
  bytes : Bytes
  op : Instruction
  index : Nat
  callee : Nat
  params : List ParamDef

inductive CodeDef where
  /-- all steps in one property -/
  | inline
  /-- all steps in one piece of data -/
  | long
  /-- steps spread over numbered segments -/
  | segments (segs : List (UInt8 × Bytes))

structure StoredScript where
  id : Nat
  name : Str
  steps : List StepDef
  code : CodeDef

structure FileDef where
  tables : List TableDef := []
  occurrences : List OccurrenceDef := []
  criteria : List CriterionDef := []
  layouts : List LayoutDef := []
  scripts : List StoredScript := []
  sources : List SourceDef := []

/-! Events -/

/-- The directory `[3].[17].[5].[0]` for an occurrence, and `[3].[17].[5].[0].[251]` for its links. -/
def occurrenceEvents (enc : Str → Bytes) (o : OccurrenceDef) : List Event :=
  [⟨[3, 17, 5, 0], .kv 2 o.info⟩, ⟨[3, 17, 5, 0], .kv 16 (enc o.name)⟩] ++ o.links.map fun l => ⟨[3, 17, 5, 0, 251], .data l⟩

/-- The directory `[3].[251].[5].[relationship].[3]`. -/
def criterionEvent (c : CriterionDef) : Event := ⟨[3, 251, 5, c.rel, 3], .kv 1 c.info⟩

def graphEvents (enc : Str → Bytes) (os : List OccurrenceDef) (cs : List CriterionDef) : List Event :=
  os.flatMap (occurrenceEvents enc) ++ cs.map criterionEvent

def LayoutItem.what (enc : Str → Bytes) : LayoutItem → What
  | .info b => .kv 2 b
  | .name s => .kv 16 (enc s)
  | .other k v => .kv k v

/-- The directory `[4].[1].[7].[layout]`. -/
def layoutEvents (enc : Str → Bytes) (l : LayoutDef) : List Event :=
  ⟨[4, 1, 7, l.id], .push⟩ :: l.items.map fun i => ⟨[4, 1, 7, l.id], i.what enc⟩

/-- The bytes of a calculation. -/
def calcBytes (enc : Str → Bytes) (c : List CalcItem) : Bytes := c.flatMap (·.bytes enc)

/-- The directories `[17].[5].[script].[5].[step].[128]`, `….[128].[5]` and `….[129].[5]`. -/
def ParamDef.events (enc : Str → Bytes) (script step : Nat) : ParamDef → List Event
  | .variableName s => [⟨[17, 5, script, 5, step, 128], .kv 1 (enc s)⟩]
  | .result c => [⟨[17, 5, script, 5, step, 128, 5], .kv 5 (calcBytes enc c)⟩]
  | .value c => [⟨[17, 5, script, 5, step, 129, 5], .push⟩, ⟨[17, 5, script, 5, step, 129, 5], .kv 5 (calcBytes enc c)⟩]

/-- The parameters of the steps, in order. -/
def paramEvents (enc : Str → Bytes) (s : StoredScript) : List Event :=
  s.steps.flatMap fun t => t.params.flatMap (ParamDef.events enc s.id t.index)

/-- The directory `[17].[5].[script]`: the code, then the parameters. -/
def codeEvents (enc : Str → Bytes) (s : StoredScript) : List Event :=
  match s.code with
  | .inline => ⟨[17, 5, s.id], .kv 4 (s.steps.flatMap (·.bytes))⟩ :: paramEvents enc s
  | .long => ⟨[17, 5, s.id], .segment 4 (s.steps.flatMap (·.bytes))⟩ :: paramEvents enc s
  | .segments segs => segmentEvents s.id segs

/-- The names, in `[17].[1].[7].[script]`, then the code of each script. -/
def scriptEvents (enc : Str → Bytes) (ss : List StoredScript) : List Event :=
  ss.map (fun s => ⟨[17, 1, 7, s.id], .kv 16 (enc s.name)⟩) ++ ss.flatMap (codeEvents enc)

/-! Which events are about what -/

def aboutGraph (e : Event) : Bool :=
  match e.what with
  | .data _ => e.path == [3, 17, 5, 0, 251]
  | .kv k _ => (e.path.take 4 == [3, 17, 5, 0] && e.path != [3, 17, 5, 0, 251] && (k == 2 || k == 16)) ||
      (e.path.length == 5 && e.path.take 3 == [3, 251, 5] && e.path.getD 4 0 == 3 && k == 1)
  | _ => false

def aboutLayouts (e : Event) : Bool :=
  e.path.take 3 == [4, 1, 7] && 4 ≤ e.path.length && (match e.what with
    | .push => true
    | .kv _ _ => true
    | _ => false)

/-- The directories of a script. -/
inductive ScriptPlace where
  | segments | result | variableName | value | plain
  deriving DecidableEq

def scriptPlace : List Nat → ScriptPlace
  | [17, 5, _, 4] => .segments
  | [17, 5, _, 5, _, 128, 5] => .result
  | [17, 5, _, 5, _, 128] => .variableName
  | [17, 5, _, 5, _, 129, 5] => .value
  | _ => .plain

def aboutScripts (e : Event) : Bool :=
  (e.path.take 2 == [17, 1] && 4 ≤ e.path.length && (match e.what with
    | .kv k _ => k == 16
    | _ => false)) ||
  (e.path.take 2 == [17, 5] && 3 ≤ e.path.length && (match scriptPlace e.path, e.what with
    | .segments, .push => true
    | .segments, .segment _ _ => true
    | .result, .kv k _ => k == 5
    | .variableName, .kv k _ => k == 1
    | .value, _ => true
    | .plain, .kv k _ => k == 4
    | .plain, .segment n _ => n == 4
    | _, _ => false))

def aboutSources (e : Event) : Bool :=
  e.path == [32, 1, 1] || (e.path.take 2 == [32, 5] && 3 ≤ e.path.length)

/-- The chunks say what `d` says; those about one thing come in order, and may be mixed with chunks about other things and
with anything that is about none of them. -/
structure Describes (enc encName : Str → Bytes) (raws : List Raw) (d : FileDef) : Prop where
  tables : (seen raws).filter describesSchema = tableEvents enc d.tables ++ fieldEvents enc d.tables
  graph : (seen raws).filter aboutGraph = graphEvents enc d.occurrences d.criteria
  layouts : (seen raws).filter aboutLayouts = d.layouts.flatMap (layoutEvents enc)
  scripts : (seen raws).filter aboutScripts = scriptEvents enc d.scripts
  sources : raws.filterMap Raw.note = sourceNotes enc encName d.sources

/-! The components described -/

/-- Byte `i`, counted from 0. -/
def byteAt (b : Bytes) (i : Nat) : Nat := (b.getD i 0).toNat

def OccurrenceDef.linked (o : OccurrenceDef) : List Nat := o.links.map (byteAt · 2)

/-- Each pair of linked occurrences once, from the one with the lower number. -/
def linkedPairs (os : List OccurrenceDef) : List (Nat × Nat) :=
  os.zipIdx.flatMap fun (o, i) => (o.linked.filter (i + 1 ≤ ·)).map fun j => (i + 1, j)

/-- The comparison with the given code. -/
def comparisonWithCode (c : Nat) : Comparison :=
  [Comparison.equal, .notEqual, .less, .lessEqual, .greater, .greaterEqual, .cartesian].getD c .equal

/-- The last criterion given for relationship `r`. -/
def criterionOf (cs : List CriterionDef) (r : Nat) : Option Bytes := ((cs.filter (·.rel == r)).getLast?).map (·.info)

def relationshipOf (cs : List CriterionDef) (r : Nat) (pair : Nat × Nat) : FRelationship :=
  match criterionOf cs r with
  | none => { table1 := pair.1, table2 := pair.2 }
  | some b => { table1 := pair.1, table2 := pair.2, comparison := comparisonWithCode (byteAt b 0), field1 := byteAt b 3,
                field2 := byteAt b 6 }

def layoutItem (l : FLayout) : LayoutItem → FLayout
  | .info b => { l with tableOccurrence := byteAt b 1 - 128 }
  | .name s => { l with name := s }
  | .other _ _ => l

def LayoutDef.layout (l : LayoutDef) : FLayout := l.items.foldl layoutItem {}

def ParamDef.text : ParamDef → Str
  | .variableName s => s
  | .result c => c.flatMap (·.text)
  | .value c => c.flatMap (·.text)

/-- The name of a script. -/
def nameOf (ss : List StoredScript) (id : Nat) : Str := ((ss.find? (·.id == id)).map (·.name)).getD []

/-- A step shows the name of the script it calls, if any, and its parameters. -/
def StepDef.step (ss : List StoredScript) (t : StepDef) : ScriptStep :=
  { opcode := t.op, index := t.index,
    switches := (if t.op = .performScript then [nameOf ss t.callee] else []) ++ t.params.map (·.text) }

def StoredScript.script (ss : List StoredScript) (s : StoredScript) : FScript :=
  { name := s.name, instructions := s.steps.map (StepDef.step ss) }

/-- Occurrences are numbered from 1. -/
def occurrencesOf (os : List OccurrenceDef) : HMap FOccurrence :=
  os.zipIdx.map fun (o, i) => (i + 1, { name := o.name, tableActual := byteAt o.info 6 })

/-- Relationships are numbered from 1. -/
def relationshipsOf (os : List OccurrenceDef) (cs : List CriterionDef) : HMap FRelationship :=
  (linkedPairs os).zipIdx.map fun (pair, r) => (r + 1, relationshipOf cs (r + 1) pair)

def FileDef.file (d : FileDef) : FmpFile :=
  { tables := d.tables.map fun t => (t.id, t.table)
    tableOccurrences := occurrencesOf d.occurrences
    relationships := relationshipsOf d.occurrences d.criteria
    layouts := d.layouts.map fun l => (l.id, l.layout)
    scripts := d.scripts.map fun s => (s.id, s.script d.scripts)
    dataSources := d.sources.map fun s => (s.id.toNat, s.source) }

/-! Well-formed descriptions -/

/-- Links are mutual and given once at each end. -/
structure GraphOk (os : List OccurrenceDef) (cs : List CriterionDef) : Prop where
  count : os.length < 65536
  info : ∀ o ∈ os, 7 ≤ o.info.length ∧ ∀ l ∈ o.links, 3 ≤ l.length
  once : ∀ o ∈ os, o.linked.Nodup
  symmetric : ∀ i o, os[i]? = some o → ∀ j ∈ o.linked, ∃ o', 1 ≤ j ∧ os[j - 1]? = some o' ∧ i + 1 ∈ o'.linked
  criteria : ∀ c ∈ cs, 7 ≤ c.info.length

def LayoutItem.Ok : LayoutItem → Prop
  | .info b => 2 ≤ b.length ∧ 128 ≤ byteAt b 1
  | .name _ => True
  | .other k _ => k ≠ 2 ∧ k ≠ 16

structure LayoutsOk (ls : List LayoutDef) : Prop where
  ids : ls.Pairwise (·.id ≠ ·.id)
  items : ∀ l ∈ ls, ∀ i ∈ l.items, i.Ok

/-- Which step a parameter belongs to, and that its calculation is complete. -/
def ParamDef.Ok (enc : Str → Bytes) (op : Instruction) : ParamDef → Prop
  | .variableName _ => op = .setVariable
  | .result c => op = .exitScript ∧ ∀ i ∈ c, i.Valid enc
  | .value c => ∀ i ∈ c, i.Valid enc

/-- Byte 22 is the number of the instruction; bytes 1 to 4 give the number of the step, in one byte or two; byte 9 is
the number of the script called. -/
structure StepDef.Ok (enc : Str → Bytes) (ss : List StoredScript) (t : StepDef) : Prop where
  length : t.bytes.length = 28
  op : byteAt t.bytes 21 = t.op.code
  notAssert : t.op ≠ .assert
  index : (byteAt t.bytes 0 = 2 ∧ t.index = byteAt t.bytes 2) ∨ (byteAt t.bytes 0 = 3 ∧ t.index = 128 + byteAt t.bytes 3)
  callee : t.callee = byteAt t.bytes 8
  called : t.op = .performScript → ∃ s ∈ ss, s.id = t.callee
  params : ∀ x ∈ t.params, x.Ok enc t.op

/-- Step numbers are distinct; in a long piece of data they are 0, 1, 2, … A script in segments has no parameters, and
its segments in the order of their numbers make up the steps. -/
def StoredScript.CodeOk (s : StoredScript) : Prop :=
  match s.code with
  | .inline => s.steps.Pairwise (·.index ≠ ·.index)
  | .long => ∀ (i : Nat) (t : StepDef), s.steps[i]? = some t → t.index = i
  | .segments segs => (∀ t ∈ s.steps, t.params = []) ∧ ∃ sorted : List (UInt8 × Bytes), sorted.Perm segs ∧
      sorted.Pairwise (·.1 < ·.1) ∧ sorted.flatMap (·.2) = s.steps.flatMap (·.bytes)

structure ScriptsOk (enc : Str → Bytes) (ss : List StoredScript) : Prop where
  ids : ss.Pairwise (·.id ≠ ·.id)
  steps : ∀ s ∈ ss, ∀ t ∈ s.steps, t.Ok enc ss
  code : ∀ s ∈ ss, s.CodeOk

structure FileDef.WellFormed (enc : Str → Bytes) (d : FileDef) : Prop where
  tables : WellNumbered d.tables
  graph : GraphOk d.occurrences d.criteria
  layouts : LayoutsOk d.layouts
  scripts : ScriptsOk enc d.scripts
  sources : SourcesOk enc d.sources

end BurnFm.Spec
