import Verif.Model.Vm

/-!
The terminal output of the test runner, `src/testing/test.rs`: everything it prints on the standard output and on the error
output, also what it prints before it crashes. The functions here run those of `Verif/Model/Vm.lean` and collect the lines.
Left out: the message of a panic, and the warnings that are printed inside of calculations (src/testing/test.rs:644, 705, 830-863),
which are in `Verif/Model/CalcNotes.lean`.
-/

namespace BurnFm

/-- A line of output. Simplifications: the two output channels are one list, in the order of writing; no colours. -/
inductive Line where
  /-- "Running test: …", src/testing/test.rs:137, 154 -/
  | running (test : Str)
  /-- "calling …", line 215 -/
  | calling (script : Str)
  /-- "Popping script: …", line 197 -/
  | popping (script : Str)
  /-- the text of a dialog, line 443 -/
  | dialog (text : Str)
  /-- "Assertion failed: …", line 449 -/
  | assertionFailed (calculation : Str)
  /-- "Test … outcome: Success" or "Fail", lines 142-146, 159-163 -/
  | outcome (test : Str) (success : Bool)
  /-- "Unimplemented instruction: …", on the error output, line 458 -/
  | unimplemented (op : Instruction)
  /-- "invalid scope resultion. Please check that loop and if blocks are terminated correctly.", on the error output,
  lines 421-423 -/
  | badScope
  deriving DecidableEq, Repr

/-- The lines printed, and the result. What was printed before a panic is kept. -/
abbrev Shown (α : Type) := List Line × Ev α

/-- The instructions with a branch of their own in src/testing/test.rs:205-455. -/
def Instruction.hasBranch : Instruction → Bool
  | .performScript | .goToLayout | .goToRecordRequestPage | .enterFindMode | .unsortRecords | .performFind | .showAllRecords
  | .setVariable | .setField | .loop | .if | .elseIf | .else | .endIf | .endLoop | .exitLoopIf | .newRecordRequest
  | .showCustomDialog | .assert | .commentedOut | .blankLineComment => true
  | _ => false

/-- The lines that need a value: nothing is printed if its computation panics. -/
def printed {α : Type} (r : Ev α) (f : α → List Line) : List Line :=
  match r with
  | .ok a => f a
  | .error _ => []

/-- src/testing/test.rs:195-461: what `step` prints. `punc` is `punc_stack`. -/
def Vm.stepLines (ev : Calculator) (scripts : HMap FScript) (punc : List Instruction) (vm : Vm) : List Line :=
  match vm.frames with
  | [] => []
  | (name, ip) :: below =>
    match (vm.script scripts name below).instructions[ip]? with
    | none => [.popping name]
    | some s =>
      let value : Ev Str := do vm.world.eval ev (below.length + 1) (← s.switch 0)
      match s.opcode with
      | .performScript =>
        printed (do liftR (stripQuotes (← value))) fun callee =>
          if scripts.any (fun e => e.2.name == callee) then [.calling callee] else []
      | .showCustomDialog => printed value fun v => [.dialog v]
      | .assert =>
        printed value fun v => if v = t!"false" then printed (s.switch 0) fun c => [.assertionFailed c] else []
      | .endLoop => if punc.getLast? ≠ some .loop then [.badScope] else []
      | op => if op.hasBranch then [] else [.unimplemented op]

/-- src/testing/test.rs:337: `punc_stack` after a step; nothing is ever removed from it. -/
def Vm.stepPunc (scripts : HMap FScript) (punc : List Instruction) (vm : Vm) : List Instruction :=
  match vm.frames with
  | [] => punc
  | (name, ip) :: below =>
    match (vm.script scripts name below).instructions[ip]? with
    | none => punc
    | some s => if s.opcode = .loop then punc ++ [.loop] else punc

/-- src/testing/test.rs:139-141, 156-158 with output, see `Vm.run`. The result has `punc_stack` too. -/
def Vm.runShown (ev : Calculator) (p : Profile) (scripts : HMap FScript) : Nat → List Instruction → Vm →
    Shown (List Instruction × Vm)
  | 0, punc, vm => ([], if vm.running then .error .fuel else .ok (punc, vm))
  | n + 1, punc, vm =>
    if vm.running then
      let lines := vm.stepLines ev scripts punc
      match vm.step ev p scripts with
      | .error e => (lines, .error e)
      | .ok vm' =>
        let rest := vm'.runShown ev p scripts n (vm.stepPunc scripts punc)
        (lines ++ rest.1, rest.2)
    else ([], .ok (punc, vm))

/-- src/testing/test.rs:132-148, 149-164 with output, see `Vm.runTests`. -/
def Vm.runTestsShown (ev : Calculator) (p : Profile) (scripts : HMap FScript) (n : Nat) : List FTest → List Instruction → Vm →
    Shown (List Bool × Vm)
  | [], _, vm => ([], .ok ([], vm))
  | t :: ts, punc, vm =>
    let body := (vm.loadTest t).runShown ev p scripts n punc
    match body.2 with
    | .error e => (.running t.name :: body.1, .error e)
    | .ok (punc', vm') =>
      let rest := vm'.runTestsShown ev p scripts n ts punc'
      (.running t.name :: body.1 ++ .outcome t.name (!vm'.world.failed) :: rest.1,
        rest.2.map fun r => ((!vm'.world.failed) :: r.1, r.2))

end BurnFm
