import Verif.Spec.Crash

/-! What one step of a test does, whatever the script around it looks like, and what a whole run is. Read this beside
`Props/StepDoes.lean`. -/

namespace BurnFm.Spec

/-- The position in the running script. -/
def place (u : Vm) : Nat :=
  match u.frames with
  | [] => 0
  | (_, ip) :: _ => ip

/-- The steps of the running script. -/
def running (scripts : HMap FScript) (u : Vm) : List ScriptStep :=
  match u.frames with
  | [] => []
  | (name, _) :: below => (u.script scripts name below).instructions

/-- The running script continues at position `i`. -/
def goOn (u : Vm) (i : Nat) : Vm :=
  match u.frames with
  | [] => u
  | (name, _) :: below => { u with frames := (name, i) :: below }

/-- It continues with the next step. -/
def goNext (u : Vm) : Vm := goOn u (place u + 1)

/-- `j` is the first position from `i` on with a step that is one of `ops`. -/
def FirstAt (ops : List Instruction) (code : List ScriptStep) (i j : Nat) : Prop :=
  i ≤ j ∧ (∃ x, code[j]? = some x ∧ x.opcode ∈ ops) ∧ ∀ k x, i ≤ k → k < j → code[k]? = some x → x.opcode ∉ ops

/-- From position `i` on there is no step that is one of `ops`. -/
def NoneAt (ops : List Instruction) (code : List ScriptStep) (i : Nat) : Prop :=
  ∀ k x, i ≤ k → code[k]? = some x → x.opcode ∉ ops

/-- The script continues at the next `else_if`, `else` or `end_if` from position `i` on, or ends. -/
def ToNextBranch (scripts : HMap FScript) (u : Vm) (i : Nat) (v : Vm) : Prop :=
  (∃ j, FirstAt [.endIf, .else, .elseIf] (running scripts u) i j ∧ v = goOn u j) ∨
  NoneAt [.endIf, .else, .elseIf] (running scripts u) i ∧ v = goOn u (running scripts u).length

/-- The script continues after the next `end_loop`. -/
def AfterLoop (scripts : HMap FScript) (u v : Vm) : Prop :=
  ∃ j, FirstAt [.endLoop] (running scripts u) (place u) j ∧ v = goOn u (j + 1)

/-- The occurrence that the current layout shows. -/
def OnScreen (db : Database) (o : DOcc) : Prop := db.occs[db.handle]? = some o

/-- The occurrence that the current layout shows becomes `o`. -/
def showing (db : Database) (o : DOcc) : Database := { db with occs := db.occs.set db.handle o }

/-- The records `ids` are those that match one of the criteria, in ascending order. -/
def Matching (t : DTable) (criteria : List (Str × Str)) (ids : List Nat) : Prop :=
  ids.Pairwise (· < ·) ∧ ∀ n, n ∈ ids ↔ ∃ c ∈ criteria, ∃ field, (splitCC c.1)[1]? = some field ∧ hasValue t field c.2 n

/-- Every criterion is for a field of the table. -/
def GoodCriteria (t : DTable) (criteria : List (Str × Str)) : Prop :=
  ∀ c ∈ criteria, ∃ field, (splitCC c.1)[1]? = some field ∧ ∃ f ∈ t.fields, f.name = field

/-- `j` is the position of the first field called `name`, and this field is `f`. -/
def FieldAt (fields : List DField) (name : Str) (j : Nat) (f : DField) : Prop :=
  fields[j]? = some f ∧ f.name = name ∧ ∀ k g, k < j → fields[k]? = some g → g.name ≠ name

/-- `db'` is `db` with `val` in the field `name` of the current record of the occurrence in `name`. -/
def CellSet (db : Database) (name val : Str) (db' : Database) : Prop :=
  ∃ occ field i o r t j f, (splitCC name)[0]? = some occ ∧ (splitCC name)[1]? = some field ∧ SMap.get db.indices occ = some i ∧
    db.occs[i]? = some o ∧ o.foundSet[o.recordPtr]? = some r ∧ db.tables[o.tablePtr]? = some t ∧ FieldAt t.fields field j f ∧
    r < f.records.length ∧
    db' = { db with tables := (db.tables.set o.tablePtr
      { t with fields := t.fields.set j { f with records := f.records.set r val } }) }

/-- `db'` is `db` with a blank record in the table shown. It is the last and current one in all occurrences of the table. -/
def RecordAdded (db db' : Database) : Prop :=
  ∃ o t f, OnScreen db o ∧ db.tables[o.tablePtr]? = some t ∧ t.fields[0]? = some f ∧
    db' = { db with
      tables := db.tables.set o.tablePtr { t with fields := t.fields.map fun g => { g with records := g.records ++ [[]] } }
      occs := db.occs.map (fun x => if x.tablePtr = o.tablePtr then
          { x with foundSet := x.foundSet ++ [f.records.length], recordPtr := x.foundSet.length } else x) }

/-- What the steps do that only change the data of the test: from the state `u` to the data `w`. A step of which nothing is said does
nothing. -/
def DataDoes (ev : Calculator) (u : Vm) (s : ScriptStep) (w : World) : Prop :=
  match s.opcode with
  | .goToLayout => ∃ t, HasValue ev u s 0 (t!"\"" ++ t ++ t!"\"") ∧
      ((∃ n, u.world.layouts.lookup t = some n ∧ w = { u.world with db := { u.world.db with handle := n % 65536 } }) ∨
        u.world.layouts.lookup t = none ∧ w = u.world)
  | .enterFindMode => w = { u.world with findMode := true }
  | .performFind => ∃ o t f ids, OnScreen u.world.db o ∧ u.world.db.tables[o.tablePtr]? = some t ∧ t.fields[0]? = some f ∧
      GoodCriteria t u.world.criteria ∧ Matching t u.world.criteria ids ∧
      w = { u.world with
        findMode := false
        criteria := []
        db := showing u.world.db (if ids = [] then { o with foundSet := List.range f.records.length }
          else { o with foundSet := ids, recordPtr := 0 }) }
  | .showAllRecords => ∃ o t f, OnScreen u.world.db o ∧ u.world.db.tables[o.tablePtr]? = some t ∧ t.fields[0]? = some f ∧
      w = { u.world with db := showing u.world.db { o with foundSet := List.range f.records.length } }
  | .setVariable => ∃ name val vars, s.switches[0]? = some name ∧ HasValue ev u s 1 val ∧
      u.world.vars[u.frames.length - 1]? = some vars ∧
      w = { u.world with vars := u.world.vars.set (u.frames.length - 1) (vars.insert name val) }
  | .setField => ∃ name val, s.switches[0]? = some name ∧ HasValue ev u s 1 val ∧
      (u.world.findMode = true ∧ w = { u.world with criteria := u.world.criteria ++ [(name, val)] } ∨
        u.world.findMode = false ∧ ∃ db, CellSet u.world.db name val db ∧ w = { u.world with db := db })
  | .newRecordRequest => ∃ db, RecordAdded u.world.db db ∧ w = { u.world with db := db }
  | .showCustomDialog => ∃ val, HasValue ev u s 0 val ∧ w = { u.world with out := u.world.out ++ [.dialog val] }
  | .assert => ∃ c val, s.switches[0]? = some c ∧ HasValue ev u s 0 val ∧
      (val = t!"false" ∧ w = { u.world with failed := true, out := u.world.out ++ [.assertionFailed c] } ∨
        val ≠ t!"false" ∧ w = u.world)
  | _ => w = u.world

/-- `go_to_record`: from `u` to `v`. In find mode it does nothing. With an exit flag, which is the second parameter, the script continues
after the loop if the record stays the same. -/
def RecordGone (ev : Calculator) (p : Profile) (scripts : HMap FScript) (u : Vm) (s : ScriptStep) (v : Vm) : Prop :=
  ∃ val, HasValue ev u s 0 val ∧ (1 < s.switches.length → ∃ x, HasValue ev u s 1 x) ∧
    (u.world.findMode = true ∧ v = goNext u ∨
     u.world.findMode = false ∧ ∃ o, OnScreen u.world.db o ∧ ¬(p = .debug ∧ o.foundSet = [] ∧ countsFromEnd val) ∧
      ∃ u', u' = { u with world := { u.world with db := showing u.world.db { o with recordPtr := positionAfter o val } } } ∧
        (1 < s.switches.length ∧ positionAfter o val = o.recordPtr ∧ AfterLoop scripts u' v ∨
         ¬(1 < s.switches.length ∧ positionAfter o val = o.recordPtr) ∧ v = goNext u'))

/-- `StepDoes … u s v`: in state `u` the step `s` is executed, and then the state is `v`. -/
def StepDoes (ev : Calculator) (p : Profile) (scripts : HMap FScript) (u : Vm) (s : ScriptStep) (v : Vm) : Prop :=
  match s.opcode with
  | .performScript => ∃ t u', HasValue ev u s 0 (t!"\"" ++ t ++ t!"\"") ∧
      u' = { u with world := { u.world with vars := u.world.vars ++ [[]] } } ∧
      ((∃ e ∈ scripts, e.2.name = t) ∧ v = { u' with frames := (t, 0) :: (goNext u).frames } ∨
        (∀ e ∈ scripts, e.2.name ≠ t) ∧ v = u')
  | .if => ∃ val, HasValue ev u s 0 val ∧
      (val = t!"true" ∧ v = goNext { u with branchTaken := true } ∨
        val ≠ t!"true" ∧ ToNextBranch scripts u (place u) v)
  | .elseIf =>
      u.branchTaken = true ∧ (∃ j, FirstAt [.endIf] (running scripts u) (place u) j ∧ v = goOn { u with branchTaken := false } j) ∨
      u.branchTaken = true ∧ NoneAt [.endIf] (running scripts u) (place u) ∧
        (∃ x val, (running scripts u).getLast? = some x ∧ HasValue ev u x 0 val) ∧ v = goOn u ((running scripts u).length + 1) ∨
      u.branchTaken = false ∧ ∃ val, HasValue ev u s 0 val ∧
        (val = t!"true" ∧ v = goNext { u with branchTaken := true } ∨
          val ≠ t!"true" ∧ ToNextBranch scripts u (place u + 1) v)
  | .else =>
      u.branchTaken = true ∧ (∃ j, FirstAt [.endIf] (running scripts u) (place u) j ∧ v = goOn { u with branchTaken := false } j) ∨
      u.branchTaken = true ∧ NoneAt [.endIf] (running scripts u) (place u) ∧ v = goOn u ((running scripts u).length + 1) ∨
      u.branchTaken = false ∧ v = goNext u
  | .endIf => v = goNext { u with branchTaken := false }
  | .loop => v = goNext { u with loops := place u :: u.loops }
  | .endLoop => ∃ i rest, u.loops = i :: rest ∧ v = goOn u (i + 1)
  | .exitLoopIf => ∃ val, HasValue ev u s 0 val ∧
      (val = t!"true" ∧ AfterLoop scripts u v ∨ val ≠ t!"true" ∧ v = goNext u)
  | .goToRecordRequestPage => RecordGone ev p scripts u s v
  | _ => ∃ w, DataDoes ev u s w ∧ v = goNext { u with world := w }

/-- `RunOf … u v`: a run that is in state `u` ends in state `v`. It ends when an assertion has failed or no script is active. -/
inductive RunOf (ev : Calculator) (p : Profile) (scripts : HMap FScript) : Vm → Vm → Prop
  | failed {u : Vm} : u.world.failed = true → RunOf ev p scripts u u
  | finished {u : Vm} : u.frames = [] → RunOf ev p scripts u u
  | step {u u' v : Vm} {s : ScriptStep} : u.world.failed = false → AtStep scripts u s → StepDoes ev p scripts u s u' →
      RunOf ev p scripts u' v → RunOf ev p scripts u v
  | return {u v : Vm} {f : Str × Nat} {below : List (Str × Nat)} : u.world.failed = false → u.frames = f :: below →
      (running scripts u)[place u]? = none → RunOf ev p scripts { u with frames := below } v → RunOf ev p scripts u v

/-- `TestsGive … ts u vs v`: the tests `ts` run one after the other from the state `u`, with the verdicts `vs` (`true` is Success), and
leave the state `v`. Each test starts with no variables of its own. -/
inductive TestsGive (ev : Calculator) (p : Profile) (scripts : HMap FScript) : List FTest → Vm → List Bool → Vm → Prop
  | done {u : Vm} : TestsGive ev p scripts [] u [] u
  | test {t : FTest} {ts : List FTest} {u u' v : Vm} {vs : List Bool} :
      RunOf ev p scripts { u with
        test := t.script
        frames := (t.script.name, 0) :: u.frames
        world := { u.world with vars := u.world.vars ++ [[]] } } u' →
      TestsGive ev p scripts ts u' vs v → TestsGive ev p scripts (t :: ts) u ((!u'.world.failed) :: vs) v

end BurnFm.Spec
