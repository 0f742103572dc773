import Verif.Model.Calc
import Verif.Model.LayoutMgr

/-! Model of the script interpreter of the test runner, `TestEnvironment` in `src/testing/test.rs`. Of the
terminal output, the verdicts of the tests, the texts of dialogs and the failed assertions are modelled. -/

namespace BurnFm

/-- What evaluates a calculation: `eval_calculation`, see `evalCalc`. -/
abbrev Calculator := CalcEnv → Str → Ev Str

/-- What a run prints for its user: the text of a custom dialog (src/testing/test.rs:443) and the calculation of a failed
assertion (line 449). The other lines are in `Verif/Model/Console.lean`. The verdicts (143-145, 160-162) are a result of `Vm.runTests`. -/
inductive Message where
  | dialog (text : Str)
  | assertionFailed (calculation : Str)
  deriving DecidableEq, Repr

/-- src/testing/test.rs:72-97 `TestEnvironment`, the part that steps work on: variables, verdict, mode, find criteria,
database and layouts, and the messages printed so far. Of a `Variable` only the value is ever read. -/
structure World where
  /-- `variables`, one map per script invocation so far -/
  vars : List (SMap Str) := []
  /-- `test_state == Fail` -/
  failed : Bool := false
  /-- `mode` is `Find` -/
  findMode : Bool := false
  criteria : List (Str × Str) := []
  db : Database := {}
  layouts : LayoutMgr := []
  /-- printed so far -/
  out : List Message := []

/-- src/testing/test.rs:72-97 `TestEnvironment`. Simplifications: the two stacks are kept with their top first;
`punc_stack` is left out, it only decides whether a warning is printed. -/
structure Vm where
  /-- `instruction_ptr` -/
  frames : List (Str × Nat) := []
  /-- `loop_scopes` -/
  loops : List Nat := []
  branchTaken : Bool := false
  /-- the script of `current_test` -/
  test : FScript := {}
  world : World := {}

/-- Evaluate a calculation with `depth` active scripts. -/
def World.eval (ev : Calculator) (w : World) (depth : Nat) (text : Str) : Ev Str := ev ⟨w.db, depth, w.vars⟩ text

/-- `s.strip_prefix('"').unwrap().strip_suffix('"').unwrap()`, in either order. -/
def stripQuotes (s : Str) : Res Str :=
  match s with
  | '"' :: r => if r.getLast? = some '"' then .ok r.dropLast else .error .unwrap
  | _ => .error .unwrap

/-- src/testing/test.rs:236-250: the move of `go_to_record`, in browse mode. `usize` has 64 bits. -/
def moveRecord (p : Profile) (db : Database) (val : Str) : Res Database :=
  match parseUnsigned (2 ^ 64) val with
  | some n => db.gotoRecord p n
  | none =>
    if val = t!"\"previous\"" then db.gotoPrevious
    else if val = t!"\"next\"" then db.gotoNext p
    else if val = t!"\"first\"" then db.gotoFirst
    else if val = t!"\"last\"" then db.gotoLast p
    else .ok db

/-- `cur_instruction.switches[i]` -/
def ScriptStep.switch (s : ScriptStep) (i : Nat) : Ev Str := liftR (idx s.switches i)

/-- src/testing/test.rs:196-460: the effect of the steps that always continue with the next step. Here
`go_to_record` is the form without exit flag. Steps without implementation (456-459) do nothing. -/
def effect (ev : Calculator) (p : Profile) (depth : Nat) (s : ScriptStep) (w : World) : Ev World :=
  match s.opcode with
  | .goToLayout => do
    let name ← w.eval ev depth (← s.switch 0)
    let name ← liftR (stripQuotes name)
    match w.layouts.lookup name with
    | some occ => pure { w with db := w.db.setCurrentOccurrence (occ % 65536) }
    | none => pure w
  | .goToRecordRequestPage => do
    let val ← w.eval ev depth (← s.switch 0)
    if w.findMode then pure w
    else do
      let _ ← liftR w.db.currentOcc
      let db ← liftR (moveRecord p w.db val)
      pure { w with db := db }
  | .enterFindMode => pure { w with findMode := true }
  | .performFind => do
    let db ← liftR (w.db.performFind w.criteria)
    pure { w with db := db, findMode := false, criteria := [] }
  | .showAllRecords => do
    let db ← liftR w.db.resetFoundSet
    pure { w with db := db }
  | .setVariable => do
    let name ← s.switch 0
    let val ← w.eval ev depth (← s.switch 1)
    let vars ← liftR (modIdx w.vars (depth - 1) (fun m => m.insert name val))
    pure { w with vars := vars }
  | .setField => do
    let name ← s.switch 0
    let val ← w.eval ev depth (← s.switch 1)
    if w.findMode then pure { w with criteria := w.criteria ++ [(name, val)] }
    else do
      let occ ← liftR (idx (splitCC name) 0)
      let field ← liftR (idx (splitCC name) 1)
      let db ← liftR (w.db.writeCell occ field val)
      let db ← liftR (unwrap db)
      pure { w with db := db }
  | .newRecordRequest => do
    let db ← liftR (w.db.createRecord p)
    pure { w with db := db }
  | .showCustomDialog => do
    let val ← w.eval ev depth (← s.switch 0)
    pure { w with out := w.out ++ [.dialog val] }
  | .assert => do
    let text ← s.switch 0
    let val ← w.eval ev depth text
    if val = t!"false" then pure { w with failed := true, out := w.out ++ [.assertionFailed text] } else pure w
  | _ => pure w

/-- The first position from `i` on whose step satisfies `stop`, or the end of the script. -/
def seek (stop : Instruction → Bool) (code : List ScriptStep) (i : Nat) : Nat :=
  i + ((code.drop i).takeWhile (fun s => !stop s.opcode)).length

/-- `EndIf`, `Else` or `ElseIf`, src/testing/test.rs:343-353. -/
def isBranch : Instruction → Bool
  | .endIf | .else | .elseIf => true
  | _ => false

def isEndIf : Instruction → Bool
  | .endIf => true
  | _ => false

def isEndLoop : Instruction → Bool
  | .endLoop => true
  | _ => false

/-- src/testing/test.rs:252-258, 429-433: the position after the next `EndLoop`; the scan panics at the end of the
script. -/
def afterLoop (code : List ScriptStep) (i : Nat) : Res Nat :=
  if seek isEndLoop code i < code.length then .ok (seek isEndLoop code i + 1) else .error .index

/-- src/testing/test.rs:180-193: the script of the top frame, `below` being the frames under it. -/
def Vm.script (scripts : HMap FScript) (vm : Vm) (name : Str) (below : List (Str × Nat)) : FScript :=
  if below.isEmpty then vm.test
  else ((scripts.find? (fun e => e.2.name == name)).map (·.2)).getD {}

/-- src/testing/test.rs:195-461: execute the step `s` at position `ip` of the script `code`. -/
def Vm.exec (ev : Calculator) (p : Profile) (scripts : HMap FScript) (vm : Vm) (name : Str) (ip : Nat)
    (below : List (Str × Nat)) (code : List ScriptStep) (s : ScriptStep) : Ev Vm :=
  let depth := below.length + 1
  let jump := fun (vm : Vm) (i : Nat) => { vm with frames := (name, i) :: below }
  match s.opcode with
  | .performScript => do
    let callee ← vm.world.eval ev depth (← s.switch 0)
    let callee ← liftR (stripQuotes callee)
    let vm := { vm with world := { vm.world with vars := vm.world.vars ++ [[]] } }
    if scripts.any (fun e => e.2.name == callee) then
      pure { vm with frames := (callee, 0) :: (name, ip + 1) :: below }
    else pure vm
  | .goToRecordRequestPage =>
    if 1 < s.switches.length then do
      let val ← vm.world.eval ev depth (← s.switch 0)
      let _ ← vm.world.eval ev depth (← s.switch 1)
      if vm.world.findMode then pure (jump vm (ip + 1))
      else do
        let before ← liftR vm.world.db.currentOcc
        let db ← liftR (moveRecord p vm.world.db val)
        let after ← liftR db.currentOcc
        let vm := { vm with world := { vm.world with db := db } }
        if after.recordPtr = before.recordPtr then do
          let i ← liftR (afterLoop code ip)
          pure (jump vm i)
        else pure (jump vm (ip + 1))
    else do
      let w ← effect ev p depth s vm.world
      pure (jump { vm with world := w } (ip + 1))
  | .loop => pure (jump { vm with loops := ip :: vm.loops } (ip + 1))
  | .if => do
    let val ← vm.world.eval ev depth (← s.switch 0)
    if val = t!"true" then pure (jump { vm with branchTaken := true } (ip + 1))
    else pure (jump vm (seek isBranch code ip))
  | .elseIf =>
    if vm.branchTaken && decide (seek isEndIf code ip < code.length) then
      pure (jump { vm with branchTaken := false } (seek isEndIf code ip))
    else do
      -- without `EndIf` the scan leaves the pointer behind the script and the last step as the current one
      let (i, cur) := if vm.branchTaken then (code.length, code.getLastD s) else (ip, s)
      let val ← vm.world.eval ev depth (← cur.switch 0)
      if val = t!"true" then pure (jump { vm with branchTaken := true } (i + 1))
      else pure (jump vm (seek isBranch code (i + 1)))
  | .else =>
    if vm.branchTaken then
      if seek isEndIf code ip < code.length then
        pure (jump { vm with branchTaken := false } (seek isEndIf code ip))
      else pure (jump vm (code.length + 1))
    else pure (jump vm (ip + 1))
  | .endIf => pure (jump { vm with branchTaken := false } (ip + 1))
  | .endLoop => do
    let i ← liftR (unwrap vm.loops.head?)
    pure (jump vm (i + 1))
  | .exitLoopIf => do
    let val ← vm.world.eval ev depth (← s.switch 0)
    if val = t!"true" then do
      let i ← liftR (afterLoop code ip)
      pure (jump vm i)
    else pure (jump vm (ip + 1))
  | _ => do
    let w ← effect ev p depth s vm.world
    pure (jump { vm with world := w } (ip + 1))

/-- src/testing/test.rs:176-463 `step`. Without a frame the subtraction in line 179 overflows or the indexing after
it fails. -/
def Vm.step (ev : Calculator) (p : Profile) (scripts : HMap FScript) (vm : Vm) : Ev Vm :=
  match vm.frames with
  | [] => .error (.panic .overflow)
  | (name, ip) :: below =>
    let code := (vm.script scripts name below).instructions
    match code[ip]? with
    | none => pure { vm with frames := below }
    | some s => vm.exec ev p scripts name ip below code s

/-- The condition of the loops at src/testing/test.rs:136, 155. -/
def Vm.running (vm : Vm) : Bool := !vm.world.failed && !vm.frames.isEmpty

/-- src/testing/test.rs:136-138, 155-157: the loop, for at most `n` rounds. -/
def Vm.run (ev : Calculator) (p : Profile) (scripts : HMap FScript) : Nat → Vm → Ev Vm
  | 0, vm => if vm.running then .error .fuel else pure vm
  | n + 1, vm => if vm.running then do (← vm.step ev p scripts).run ev p scripts n else pure vm

/-- src/testing/test.rs:169-174 `load_test`. -/
def Vm.loadTest (vm : Vm) (t : FTest) : Vm :=
  { vm with
    test := t.script
    frames := (t.script.name, 0) :: vm.frames
    world := { vm.world with vars := vm.world.vars ++ [[]] } }

/-- src/testing/test.rs:129-147 `run_tests`: the verdict of each test (`true` is Success), and the state after the
last one. -/
def Vm.runTests (ev : Calculator) (p : Profile) (scripts : HMap FScript) (n : Nat) : List FTest → Vm → Ev (List Bool × Vm)
  | [], vm => pure ([], vm)
  | t :: ts, vm => do
    let vm ← (vm.loadTest t).run ev p scripts n
    let (vs, last) ← vm.runTests ev p scripts n ts
    pure ((!vm.world.failed) :: vs, last)

/-- src/testing/test.rs:148-167 `run_tests_with_cleanup`. -/
def Vm.runTestsWithCleanup (ev : Calculator) (p : Profile) (scripts : HMap FScript) (n : Nat) (ts : List FTest)
    (vm : Vm) : Ev (List Bool × Vm) := do
  let (vs, vm) ← vm.runTests ev p scripts n ts
  pure (vs, { vm with world := { vm.world with db := vm.world.db.clearRecords } })

/-- src/testing/test.rs:99-127 `new` and `generate_test_environment`. -/
def Vm.generate (file : FmpFile) : Ev Vm := do
  let db ← liftR (Database.generate {} file)
  pure { world := { db := db, layouts := generateLayoutMgr [] file.layouts } }

end BurnFm
