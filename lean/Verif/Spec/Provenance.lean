import Verif.Spec.FileContents

/-! Where each part of a decompiled schema comes from, for files with any content in any order. -/

namespace BurnFm.Spec

/-- The events after the last one for which `q` holds, if there is one. -/
def sinceLast (q : Event → Bool) : List Event → Option (List Event)
  | [] => none
  | e :: es => (sinceLast q es).or (if q e then some es else none)

/-- The bytes of property `k` in a directory for which `dir` holds. -/
def propertyAt (dir : List Nat → Bool) (k : Nat) (e : Event) : Option Bytes :=
  match e.what with
  | .kv k' b => if k' = k ∧ dir e.path = true then some b else none
  | _ => none

/-- The last value of property `k` in the directories `dir`. -/
def lastProperty (dir : List Nat → Bool) (k : Nat) (evs : List Event) : Option Bytes :=
  (evs.filterMap (propertyAt dir k)).getLast?

/-- A directory for which `dir` holds is entered. -/
def enters (dir : List Nat → Bool) (e : Event) : Bool := e.what == .push && dir e.path

/-- The last text of property `k`, empty if there is none. -/
def lastText (dec : Bytes → Str) (dir : List Nat → Bool) (k : Nat) (evs : List Event) : Str :=
  ((lastProperty dir k evs).map dec).getD []

/-! Layouts -/

/-- The directory `[4].[1].[7].[x]` and what is in it. -/
def inLayout (x : Nat) (path : List Nat) : Bool := path.take 4 == [4, 1, 7, x]

/-- The second byte less 128, as a 64-bit number. -/
def occurrenceByte (b : Bytes) : Nat := (byteAt b 1 + 2 ^ 64 - 128) % 2 ^ 64

/-- Layout `x`: what was said since its directory, or one in it, was last entered. -/
def layoutSaid (dec : Bytes → Str) (evs : List Event) (x : Nat) : Option FLayout :=
  (sinceLast (enters (inLayout x)) evs).map fun since =>
    { name := lastText dec (inLayout x) 16 since
      tableOccurrence := ((lastProperty (inLayout x) 2 since).map occurrenceByte).getD 0 }

/-! Scripts -/

/-- The directories `[17].[1].[_].[k]` and what is in them. -/
def scriptNameDir (k : Nat) (path : List Nat) : Bool := path.take 2 == [17, 1] && 4 ≤ path.length && path.getD 3 0 == k

/-! Tables and fields -/

/-- The directory `[3].[16].[5].[128 + t]`. -/
def tableEntryDir (t : Nat) (path : List Nat) : Bool := path == [3, 16, 5, 128 + t]

/-- The directories of the fields of table `t`: `[128 + t].[3].[5].[_]`. -/
def fieldsDir (t : Nat) (path : List Nat) : Bool := path.length == 4 && path.take 3 == [128 + t, 3, 5]

/-- The directory of field `k` of table `t`; numbers are taken modulo 65536. -/
def inField (t k : Nat) (path : List Nat) : Bool := fieldsDir t path && path.getD 3 0 % 65536 == k

/-- Field `k` of table `t`: what was said since its directory was last entered. -/
def fieldSaid (dec : Bytes → Str) (evs : List Event) (t k : Nat) : Option FField :=
  (sinceLast (enters (inField t k)) evs).map fun since =>
    { name := lastText dec (inField t k) 16 since
      fieldType := lastText dec (inField t k) 2 since
      description := lastText dec (inField t k) 3 since
      createdByAccount := lastText dec (inField t k) 129 since
      createdByUser := lastText dec (inField t k) 130 since }

/-- What was said about table `t` since its directory was last entered, or everything if it never was. -/
def tableSince (evs : List Event) (t : Nat) : List Event := (sinceLast (enters (tableEntryDir t)) evs).getD evs

/-- The directory of table `t` is entered, or one of its fields. -/
def tableKnown (evs : List Event) (t : Nat) : Bool := evs.any fun e => enters (tableEntryDir t) e || enters (fieldsDir t) e

/-! Table occurrences -/

/-- The directory `[3].[17].[5].[0]` and what is in it, except `[3].[17].[5].[0].[251]`. -/
def occurrenceDir (path : List Nat) : Bool := path.take 4 == [3, 17, 5, 0] && path != [3, 17, 5, 0, 251]

/-- Property 2 there begins a table occurrence. -/
def occurrenceStart (e : Event) : Option Bytes := propertyAt occurrenceDir 2 e

/-- Each occurrence has the table of its first property and the last name given before the next occurrence begins. -/
def occurrencesSaid (dec : Bytes → Str) : List Event → List FOccurrence
  | [] => []
  | e :: es =>
    match occurrenceStart e with
    | none => occurrencesSaid dec es
    | some b => { name := lastText dec occurrenceDir 16 (es.takeWhile fun e => (occurrenceStart e).isNone), tableActual := byteAt b 6 } ::
        occurrencesSaid dec es

/-! Relationships -/

/-- Data in `[3].[17].[5].[0].[251]`. -/
def linkBytes (e : Event) : Option Bytes :=
  match e.what with
  | .data b => if e.path = [3, 17, 5, 0, 251] then some b else none
  | _ => none

/-- A link between two occurrences and the events after it. -/
structure LinkSaid where
  table1 : Nat
  table2 : Nat
  after : List Event

/-- The links, each from the last occurrence begun before it to the one named in it; `n` occurrences have begun. -/
def linksSaid (n : Nat) : List Event → List LinkSaid
  | [] => []
  | e :: es =>
    match linkBytes e with
    | some b => { table1 := n % 65536, table2 := byteAt b 2, after := es } :: linksSaid n es
    | none => linksSaid (if (occurrenceStart e).isSome then n + 1 else n) es

/-- Links that lead back along an earlier one are dropped. -/
def keptLinks (ls : List LinkSaid) : List LinkSaid :=
  ls.foldl (fun kept l => if kept.any (fun k => k.table1 == l.table2 && k.table2 == l.table1) then kept else kept ++ [l]) []

/-- The directory `[3].[251].[5].[r].[3]`. -/
def criterionDir (r : Nat) (path : List Nat) : Bool := path == [3, 251, 5, r, 3]

/-- Relationship `r` made of a link: its criterion is the last one given after the link. -/
def LinkSaid.relationship (l : LinkSaid) (r : Nat) : FRelationship :=
  match lastProperty (criterionDir r) 1 l.after with
  | none => { table1 := l.table1, table2 := l.table2 }
  | some b => { table1 := l.table1, table2 := l.table2, comparison := comparisonWithCode (byteAt b 0), field1 := byteAt b 3,
                field2 := byteAt b 6 }

/-- The relationships, numbered from 1. -/
def relationshipsSaid (evs : List Event) : HMap FRelationship :=
  (keptLinks (linksSaid 0 evs)).zipIdx.map fun (l, r) => (r + 1, l.relationship (r + 1))

/-! Data sources -/

/-- The last location given to data source `k`. -/
def lastLocation (k : Nat) (ns : List SourceNote) : Option Bytes :=
  (ns.filterMap fun n => match n with
    | .location id b => if id = k then some b else none
    | _ => none).getLast?

/-- The last user given to data source `k`. -/
def lastUser (k : Nat) (ns : List SourceNote) : Option Bytes :=
  (ns.filterMap fun n => match n with
    | .user id b => if id = k then some b else none
    | _ => none).getLast?

/-- A directory of a data source is entered: its number, the name it takes, and what follows. -/
structure SourceEntry where
  number : Nat
  name : Bytes
  after : List SourceNote

/-- Every directory entered takes the first name not yet taken; if there is none it is ignored. `names` are those not yet taken. -/
def sourceEntries (number : Bytes → Nat) (names : List Bytes) : List SourceNote → List SourceEntry
  | [] => []
  | .name b :: ns => sourceEntries number (names ++ [b]) ns
  | .enter _ d :: ns =>
    match names with
    | [] => sourceEntries number [] ns
    | b :: rest => ⟨number d, b, ns⟩ :: sourceEntries number rest ns
  | .location _ _ :: ns => sourceEntries number names ns
  | .user _ _ :: ns => sourceEntries number names ns

/-- Data source `k`: the name it took when it was last entered, and the last location and user given since. -/
def sourceSaid (number : Bytes → Nat) (nameOf dec : Bytes → Str) (locationOf : Bytes → SourceLocation) (ns : List SourceNote) (k : Nat) :
    Option FDataSource :=
  ((sourceEntries number [] ns).filter (·.number == k)).getLast?.map fun e =>
    { name := nameOf e.name
      location := ((lastLocation k e.after).map locationOf).getD {}
      createdByUser := ((lastUser k e.after).map dec).getD [] }

end BurnFm.Spec
