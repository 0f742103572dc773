import Verif.Spec.Endings

/-! Which runs of tests crash, and which never end. -/

namespace BurnFm.Spec

/-- Evaluating parameter `i` of step `s` never ends. -/
def NeverValued (ev : Calculator) (u : Vm) (s : ScriptStep) (i : Nat) : Prop :=
  ∃ c, s.switches[i]? = some c ∧ u.world.eval ev u.frames.length c = .error .fuel

/-- The reasons for which the step `s` never ends. -/
inductive HangReason (ev : Calculator) (scripts : HMap FScript) (u : Vm) (s : ScriptStep) : Prop
  /-- evaluating a parameter never ends, and those evaluated before it have a value -/
  | value (i : Nat) : i ∈ calculations s → NeverValued ev u s i → (∀ j ∈ calculations s, j < i → ∃ v, HasValue ev u s j v) →
      HangReason ev scripts u s
  /-- the condition of an `else_if` that is looked at -/
  | condition : s.opcode = .elseIf → u.branchTaken = false → NeverValued ev u s 0 → HangReason ev scripts u s
  /-- the last step of the script, which an `else_if` without end of the chain looks at instead -/
  | noEndIf (x : ScriptStep) : s.opcode = .elseIf → u.branchTaken = true → NoneLeft scripts u .endIf →
      (stepsLeft scripts u).getLast? = some x → NeverValued ev u x 0 → HangReason ev scripts u s

/-- `Later … u v`: the run from the state `u` comes to the state `v`. -/
inductive Later (ev : Calculator) (p : Profile) (scripts : HMap FScript) : Vm → Vm → Prop
  | here {u : Vm} : Later ev p scripts u u
  | next {u v w : Vm} : NextState ev p scripts u v → Later ev p scripts v w → Later ev p scripts u w

/-- `TestsCome … ts u v`: when the tests are run from the state `u`, one of them comes to the state `v`. -/
inductive TestsCome (ev : Calculator) (p : Profile) (scripts : HMap FScript) : List FTest → Vm → Vm → Prop
  | here {t : FTest} {ts : List FTest} {u v : Vm} : Later ev p scripts (begun t u) v → TestsCome ev p scripts (t :: ts) u v
  | later {t : FTest} {ts : List FTest} {u v w : Vm} : RunOf ev p scripts (begun t u) v → TestsCome ev p scripts ts v w →
      TestsCome ev p scripts (t :: ts) u w

/-- One of the tests comes to a step that crashes. -/
def TestsCrash (ev : Calculator) (p : Profile) (scripts : HMap FScript) (ts : List FTest) (u : Vm) : Prop :=
  ∃ v s, TestsCome ev p scripts ts u v ∧ v.world.failed = false ∧ AtStep scripts v s ∧ StopReason ev p scripts v s ∧
    ¬HangReason ev scripts v s

/-- One of the tests comes to a step that never ends. -/
def TestsHang (ev : Calculator) (p : Profile) (scripts : HMap FScript) (ts : List FTest) (u : Vm) : Prop :=
  ∃ v s, TestsCome ev p scripts ts u v ∧ v.world.failed = false ∧ AtStep scripts v s ∧ HangReason ev scripts v s

end BurnFm.Spec
