import Verif.Model.Console
import Verif.Spec.Vm

/-! What the terminal output of a test run should tell. -/

namespace BurnFm.Spec

/-- The step that a run in state `u` executes next; `none` if the running script is at its end. -/
def nextStep (scripts : HMap FScript) (u : Vm) : Option ScriptStep :=
  match u.frames with
  | [] => none
  | (name, ip) :: below => (u.script scripts name below).instructions[ip]?

/-- `Executed … u ms v`: a run that is in state `u` executes the steps `ms` and then is in state `v`; where `ms` has no step, a script
ends. -/
inductive Executed (ev : Calculator) (p : Profile) (scripts : HMap FScript) : Vm → List (Option ScriptStep) → Vm → Prop
  | here {u : Vm} : Executed ev p scripts u [] u
  | step {u u' v : Vm} {ms : List (Option ScriptStep)} : u.world.failed = false → u.frames ≠ [] →
      u.step ev p scripts = .ok u' → Executed ev p scripts u' ms v → Executed ev p scripts u (nextStep scripts u :: ms) v

/-- A run in state `v` stops with an error: the next step panics or does not return. -/
def StepCrashes (ev : Calculator) (p : Profile) (scripts : HMap FScript) (v : Vm) (e : Stop) : Prop :=
  v.world.failed = false ∧ v.frames ≠ [] ∧ v.step ev p scripts = .error e

/-- The names of the scripts that are active, the running one first. -/
def active (u : Vm) : List Str := u.frames.map (·.1)

/-- Read the output from top to bottom: a script that is called becomes active, a script that is popped must be the one called
last. Starting from the active scripts `st` this gives those at the end, if nothing is wrong. -/
def openCalls : List Str → List Line → Option (List Str)
  | st, [] => some st
  | st, .calling n :: ls => openCalls (n :: st) ls
  | [], .popping _ :: _ => none
  | n' :: st, .popping n :: ls => if n = n' then openCalls st ls else none
  | st, _ :: ls => openCalls st ls

/-- The dialogs and failed assertions among the lines. -/
def messages : List Line → List Message
  | [] => []
  | .dialog v :: ls => .dialog v :: messages ls
  | .assertionFailed c :: ls => .assertionFailed c :: messages ls
  | _ :: ls => messages ls

/-- The instructions that are reported as not implemented. -/
def reported : List Line → List Instruction
  | [] => []
  | .unimplemented op :: ls => op :: reported ls
  | _ :: ls => reported ls

/-- The instructions the test runner knows. -/
def supported : List Instruction :=
  [.performScript, .goToLayout, .goToRecordRequestPage, .enterFindMode, .performFind, .showAllRecords, .unsortRecords,
   .newRecordRequest, .setField, .setVariable, .showCustomDialog, .assert, .loop, .exitLoopIf, .endLoop, .if, .elseIf, .else,
   .endIf, .commentedOut, .blankLineComment]

/-- The instructions among the executed steps that the test runner does not know. -/
def unknown : List (Option ScriptStep) → List Instruction
  | [] => []
  | some s :: ms => if s.opcode ∈ supported then unknown ms else s.opcode :: unknown ms
  | none :: ms => unknown ms

/-- A line that begins or ends a test. -/
def isHeadline : Line → Bool
  | .running _ | .outcome _ _ => true
  | _ => false

/-- The lines that begin and end the tests, for tests that ended with these verdicts. -/
def report : List FTest → List Bool → List Line
  | t :: ts, v :: vs => .running t.name :: .outcome t.name v :: report ts vs
  | _, _ => []

end BurnFm.Spec
