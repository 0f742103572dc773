import Verif.Spec.FileContents

/-! The numbers under which a file stores table occurrences and relationships, as in files written by the original product. -/

namespace BurnFm.Spec

/-- An occurrence that is stored under the number `id`: its directory is `[3].[17].[5].[n]`, where `n` is the three-byte number
208, 0, `id`. Each of its links gives, in the third byte, the number of the other occurrence and, in the fifth byte, the number
of the relationship. -/
structure StoredOccurrence where
  id : UInt8
  occ : OccurrenceDef

def relationshipNumber (link : Bytes) : Nat := byteAt link 4

/-- What a file says about occurrences and relationships. -/
inductive GraphNote where
  /-- a directory `[3].[17].[5].[n]` with the three-byte number `n` is entered -/
  | enter (number : Bytes)
  | event (e : Event)

def graphNote (r : Raw) : Option GraphNote :=
  match r.event with
  | none => none
  | some e =>
    if aboutGraph e then some (.event e)
    else if r.opcode = 0x30 ∧ e = ⟨[3, 17, 5, 0], .push⟩ then some (.enter r.operands)
    else none

/-- The occurrences with their numbers, then the criteria. -/
def storedGraph (enc : Str → Bytes) (os : List StoredOccurrence) (cs : List CriterionDef) : List GraphNote :=
  os.flatMap (fun o => .enter [208, 0, o.id] :: (occurrenceEvents enc o.occ).map .event) ++ (cs.map criterionEvent).map .event

/-- The pairs of linked occurrences, by their places in the file, in the order in which the links mention them. A link back is not
counted again. -/
def addLink (i : Nat) (ps : List (Nat × Nat)) (j : Nat) : List (Nat × Nat) := if (j, i) ∈ ps then ps else ps ++ [(i, j)]

def mentionedPairs (os : List OccurrenceDef) : List (Nat × Nat) :=
  os.zipIdx.foldl (fun ps oi => oi.1.linked.foldl (addLink (oi.2 + 1)) ps) []

/-- Long enough to be read. -/
structure Readable (os : List OccurrenceDef) (cs : List CriterionDef) : Prop where
  count : os.length < 65536
  info : ∀ o ∈ os, 7 ≤ o.info.length ∧ ∀ l ∈ o.links, 3 ≤ l.length
  criteria : ∀ c ∈ cs, 7 ≤ c.info.length

end BurnFm.Spec
