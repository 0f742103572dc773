import Verif.Spec.CalcValue

/-! What the name of a variable or field stands for. -/

namespace BurnFm.Spec

/-- The value of the field `f` in the current record of the current occurrence: the empty text if the table has no such
field. -/
def CurrentValue (db : Database) (f v : Str) : Prop :=
  ∃ o t r, db.occs[db.handle]? = some o ∧ db.tables[o.tablePtr]? = some t ∧ o.foundSet[o.recordPtr]? = some r ∧
    (t.fields.find? (fun x => x.name == f) = none ∧ v = [] ∨
      ∃ fld, t.fields.find? (fun x => x.name == f) = some fld ∧ fld.records[r]? = some v)

/-- `Resolves env s v b`: the text `s` stands for the value `v`, and `b` says whether this is a number. A number or quoted
text stands for itself. Anything else is a name, and what is stored under it is a text that may be a name again. -/
inductive Resolves (env : CalcEnv) : Str → Str → Bool → Prop
  | number {s : Str} : isFloatText s = true → Resolves env s s true
  | quoted {s : Str} : isFloatText s = false → isQuoted s = true → Resolves env s s false
  /-- `occ::f`: the name of the occurrence does not matter -/
  | field {s occ f v v' : Str} {b : Bool} : isFloatText s = false → isQuoted s = false → splitCC s = [occ, f] →
      CurrentValue env.db f v → Resolves env v v' b → Resolves env s v' b
  | var {s v v' : Str} {b : Bool} : isFloatText s = false → isQuoted s = false → (∀ occ f, splitCC s ≠ [occ, f]) →
      varValue env s = some v → Resolves env v v' b → Resolves env s v' b
  /-- a variable that was not set -/
  | unset {s : Str} : isFloatText s = false → isQuoted s = false → (∀ occ f, splitCC s ≠ [occ, f]) →
      Active env → varValue env s = none → Resolves env s [] false

end BurnFm.Spec
