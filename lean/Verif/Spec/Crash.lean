import Verif.Spec.Console

/-! The reasons for which a test run stops without a verdict. -/

namespace BurnFm.Spec

/-- The calculation in parameter `i` of step `s` has the value `v` in state `u`. -/
def HasValue (ev : Calculator) (u : Vm) (s : ScriptStep) (i : Nat) (v : Str) : Prop :=
  ∃ c, s.switches[i]? = some c ∧ u.world.eval ev u.frames.length c = .ok v

/-- Parameter `i` of step `s` has no value: there is no such parameter, or its calculation crashes or does not end. -/
def NoValue (ev : Calculator) (u : Vm) (s : ScriptStep) (i : Nat) : Prop := ∀ v, ¬HasValue ev u s i v

/-- The parameters of a step that are calculations, by number. Those of `else_if` are not always evaluated, see `StopReason`. -/
def calculations (s : ScriptStep) : List Nat :=
  match s.opcode with
  | .performScript | .goToLayout | .showCustomDialog | .assert | .if | .exitLoopIf => [0]
  | .setVariable | .setField => [1]
  | .goToRecordRequestPage => if 1 < s.switches.length then [0, 1] else [0]
  | _ => []

/-- The steps of the running script from the next one on. -/
def stepsLeft (scripts : HMap FScript) (u : Vm) : List ScriptStep :=
  match u.frames with
  | [] => []
  | (name, ip) :: below => (u.script scripts name below).instructions.drop ip

/-- No step with this opcode follows in the running script. -/
def NoneLeft (scripts : HMap FScript) (u : Vm) (op : Instruction) : Prop := ∀ x ∈ stepsLeft scripts u, x.opcode ≠ op

/-- The fields of the table that the current layout shows; none if there is no such occurrence or table. -/
def fieldsShown (db : Database) : List DField :=
  match db.occs[db.handle]? with
  | none => []
  | some o => match db.tables[o.tablePtr]? with
    | none => []
    | some t => t.fields

/-- `name` is `occ::field`, where the occurrence `occ` has a current record and its table has a field `field`. -/
def Writable (db : Database) (name : Str) : Prop :=
  ∃ occ field i o t, (splitCC name)[0]? = some occ ∧ (splitCC name)[1]? = some field ∧ SMap.get db.indices occ = some i ∧
    db.occs[i]? = some o ∧ o.foundSet ≠ [] ∧ db.tables[o.tablePtr]? = some t ∧ ∃ f ∈ t.fields, f.name = field

/-- The targets of `go_to_record` that count from the end of the found set: numbers, `"next"` and `"last"`. -/
def countsFromEnd (v : Str) : Prop :=
  (∃ n, parseUnsigned (2 ^ 64) v = some n) ∨ v = t!"\"next\"" ∨ v = t!"\"last\""

/-- The position in the found set of `o` after `go_to_record` with the target `v`. In an empty found set the release build takes
the largest number for the last position. -/
def positionAfter (o : DOcc) (v : Str) : Nat :=
  let last := if o.foundSet = [] then 2 ^ 64 - 1 else o.foundSet.length - 1
  match parseUnsigned (2 ^ 64) v with
  | some n => if n < o.foundSet.length then n else last
  | none =>
    if v = t!"\"previous\"" then o.recordPtr - 1
    else if v = t!"\"next\"" then (if o.recordPtr < last then o.recordPtr + 1 else o.recordPtr)
    else if v = t!"\"first\"" then 0
    else if v = t!"\"last\"" then last
    else o.recordPtr

/-- The reasons for which a run in state `u` that executes step `s` stops. -/
inductive StopReason (ev : Calculator) (p : Profile) (scripts : HMap FScript) (u : Vm) (s : ScriptStep) : Prop
  /-- a calculation has no value -/
  | noValue (i : Nat) : i ∈ calculations s → NoValue ev u s i → StopReason ev p scripts u s
  /-- the condition of an `else_if` that is looked at has no value -/
  | noCondition : s.opcode = .elseIf → u.branchTaken = false → NoValue ev u s 0 → StopReason ev p scripts u s
  /-- an `else_if` after a branch that was taken is not followed by the end of the chain, and the last step of the script, which is then
  looked at instead, has no value -/
  | noEndIf (x : ScriptStep) : s.opcode = .elseIf → u.branchTaken = true → NoneLeft scripts u .endIf →
      (stepsLeft scripts u).getLast? = some x → NoValue ev u x 0 → StopReason ev p scripts u s
  /-- the name of a script or layout is not a text in quotes -/
  | notText (v : Str) : s.opcode = .performScript ∨ s.opcode = .goToLayout → HasValue ev u s 0 v →
      (∀ t, v ≠ t!"\"" ++ t ++ t!"\"") → StopReason ev p scripts u s
  /-- a loop without end is left -/
  | noLoopEnd : s.opcode = .exitLoopIf → HasValue ev u s 0 t!"true" → NoneLeft scripts u .endLoop → StopReason ev p scripts u s
  /-- a loop ends and none was ever begun -/
  | noLoop : s.opcode = .endLoop → u.loops = [] → StopReason ev p scripts u s
  /-- a record is gone to, but the current layout shows no occurrence -/
  | nothingShown : s.opcode = .goToRecordRequestPage → u.world.findMode = false → u.world.db.occs[u.world.db.handle]? = none →
      StopReason ev p scripts u s
  /-- a record is gone to that is counted from the end of an empty found set, in the debug build -/
  | nothingFound (o : DOcc) (v : Str) : p = .debug → s.opcode = .goToRecordRequestPage → u.world.findMode = false →
      u.world.db.occs[u.world.db.handle]? = some o → o.foundSet = [] → HasValue ev u s 0 v → countsFromEnd v →
      StopReason ev p scripts u s
  /-- `go_to_record` with an exit flag goes nowhere and is not followed by the end of a loop -/
  | noLoopToLeave (o : DOcc) (v : Str) : s.opcode = .goToRecordRequestPage → 1 < s.switches.length → u.world.findMode = false →
      u.world.db.occs[u.world.db.handle]? = some o → HasValue ev u s 0 v → positionAfter o v = o.recordPtr →
      NoneLeft scripts u .endLoop → StopReason ev p scripts u s
  /-- records are made or looked for on a layout that shows no table with fields -/
  | noFields : s.opcode = .newRecordRequest ∨ s.opcode = .performFind ∨ s.opcode = .showAllRecords →
      fieldsShown u.world.db = [] → StopReason ev p scripts u s
  /-- a find has a criterion for something that is not a field of the table shown -/
  | badCriterion (c : Str × Str) : s.opcode = .performFind → c ∈ u.world.criteria →
      (∀ field, (splitCC c.1)[1]? = some field → ∀ f ∈ fieldsShown u.world.db, f.name ≠ field) → StopReason ev p scripts u s
  /-- a field is set that does not exist, or in an occurrence that does not exist or has no current record -/
  | notWritable (name : Str) : s.opcode = .setField → u.world.findMode = false → s.switches[0]? = some name →
      ¬Writable u.world.db name → StopReason ev p scripts u s

end BurnFm.Spec
