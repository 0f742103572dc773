import Verif.Model.CalcNotes
import Verif.Model.Vm

/-!
The warnings that the calculations of a test print, see `Verif/Model/CalcNotes.lean`: which calculations a step evaluates, in
`src/testing/test.rs`, and the warnings of a whole run. The other output is in `Verif/Model/Console.lean`.
-/

namespace BurnFm

/-- What evaluates a calculation and prints its warnings, see `evalCalcN`. -/
abbrev NotedCalculator := CalcEnv → Str → Noted Str

/-- The same without the warnings. -/
def NotedCalculator.mute (evN : NotedCalculator) : Calculator := fun env text => (evN env text).result

/-- The warnings of several calculations, one after the other in the same state, up to the first one that panics. -/
def World.notes (evN : NotedCalculator) (w : World) (depth : Nat) : List (Ev Str) → List Note
  | [] => []
  | .error _ :: _ => []
  | .ok text :: rest =>
    match evN ⟨w.db, depth, w.vars⟩ text with
    | ⟨ns, .error _⟩ => ns
    | ⟨ns, .ok _⟩ => ns ++ w.notes evN depth rest

/-- The calculations that a step evaluates, src/testing/test.rs: lines 206, 221, 233 and 236 (`switches[0]` and `[1]` of
`go_to_record`), 309 and 322 (`switches[1]`), 341, 377, 427, 443, 447. Where an argument is missing the step panics. -/
def Vm.stepCalcs (vm : Vm) (code : List ScriptStep) (ip : Nat) (s : ScriptStep) : List (Ev Str) :=
  match s.opcode with
  | .performScript | .goToLayout | .if | .exitLoopIf | .showCustomDialog | .assert => [s.switch 0]
  | .goToRecordRequestPage => if 1 < s.switches.length then [s.switch 0, s.switch 1] else [s.switch 0]
  | .setVariable | .setField => [s.switch 1]
  | .elseIf =>
    if vm.branchTaken && decide (seek isEndIf code ip < code.length) then []
    else [(if vm.branchTaken then code.getLastD s else s).switch 0]
  | _ => []

/-- src/testing/test.rs:176-463: the warnings of the calculations of one step. -/
def Vm.stepNotes (evN : NotedCalculator) (scripts : HMap FScript) (vm : Vm) : List Note :=
  match vm.frames with
  | [] => []
  | (name, ip) :: below =>
    let code := (vm.script scripts name below).instructions
    match code[ip]? with
    | none => []
    | some s => vm.world.notes evN (below.length + 1) (vm.stepCalcs code ip s)

/-- src/testing/test.rs:136-138, 155-157: the warnings of the loop, see `Vm.run`. -/
def Vm.runNotes (evN : NotedCalculator) (p : Profile) (scripts : HMap FScript) : Nat → Vm → List Note
  | 0, _ => []
  | n + 1, vm =>
    if vm.running then
      vm.stepNotes evN scripts ++
        match vm.step evN.mute p scripts with
        | .ok vm' => vm'.runNotes evN p scripts n
        | .error _ => []
    else []

/-- src/testing/test.rs:129-147: the warnings of a list of tests, see `Vm.runTests`. -/
def Vm.testNotes (evN : NotedCalculator) (p : Profile) (scripts : HMap FScript) (n : Nat) : List FTest → Vm → List Note
  | [], _ => []
  | t :: ts, vm =>
    (vm.loadTest t).runNotes evN p scripts n ++
      match (vm.loadTest t).run evN.mute p scripts n with
      | .ok vm' => vm'.testNotes evN p scripts n ts
      | .error _ => []

end BurnFm
