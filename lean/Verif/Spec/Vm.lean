import Verif.Model.Vm
import Verif.Spec.Database

/-! Executions of the script interpreter. -/

namespace BurnFm.Spec

/-- The interpreter is about to execute the step `s`. -/
def AtStep (scripts : HMap FScript) (vm : Vm) (s : ScriptStep) : Prop :=
  ∃ name ip below, vm.frames = (name, ip) :: below ∧ (vm.script scripts name below).instructions[ip]? = some s

/-- `Executes … u v`: a run that is in state `u` is in state `v` now or later. -/
inductive Executes (ev : Calculator) (p : Profile) (scripts : HMap FScript) : Vm → Vm → Prop
  | here {u : Vm} : Executes ev p scripts u u
  | step {u u' v : Vm} : u.world.failed = false → u.frames ≠ [] → u.step ev p scripts = .ok u' →
      Executes ev p scripts u' v → Executes ev p scripts u v

/-- In state `u` a run executes an assertion whose calculation gives `false`. -/
def FailsAssertion (ev : Calculator) (scripts : HMap FScript) (u : Vm) : Prop :=
  u.world.failed = false ∧ ∃ s c, AtStep scripts u s ∧ s.opcode = .assert ∧ s.switches[0]? = some c ∧
    u.world.eval ev u.frames.length c = .ok t!"false"

/-- A run from `u` to `v` during which, before `v`, more than `k` scripts are active. -/
inductive ExecutesAbove (ev : Calculator) (p : Profile) (scripts : HMap FScript) (k : Nat) : Vm → Vm → Prop
  | here {u : Vm} : ExecutesAbove ev p scripts k u u
  | step {u u' v : Vm} : u.world.failed = false → k < u.frames.length → u.step ev p scripts = .ok u' →
      ExecutesAbove ev p scripts k u' v → ExecutesAbove ev p scripts k u v

/-- A calculation only sees the variables of the running script: the last active one. -/
def OwnVariables (ev : Calculator) : Prop :=
  ∀ db d vars vars' c, vars[d]? = vars'[d]? → ev ⟨db, d + 1, vars⟩ c = ev ⟨db, d + 1, vars'⟩ c

/-- The database operations a script step can perform. -/
def Does : Instruction → Op → Prop
  | .newRecordRequest, .create => True
  | .setField, .set _ _ _ => True
  | .performFind, .find _ => True
  | .showAllRecords, .showAll => True
  | .goToRecordRequestPage, .goto _ => True
  | .goToRecordRequestPage, .next => True
  | .goToRecordRequestPage, .previous => True
  | .goToRecordRequestPage, .first => True
  | .goToRecordRequestPage, .last => True
  | .goToLayout, .layout _ => True
  | _, _ => False

/-- The states of a run of several tests: `vm` is the state after some of the tests, or during one of them. -/
inductive TestRun (ev : Calculator) (p : Profile) (scripts : HMap FScript) (ts : List FTest) (start : Vm) : Vm → Prop
  | start : TestRun ev p scripts ts start start
  | load {u : Vm} {t : FTest} : TestRun ev p scripts ts start u → t ∈ ts → TestRun ev p scripts ts start (u.loadTest t)
  | step {u v : Vm} : TestRun ev p scripts ts start u → u.world.failed = false → u.frames ≠ [] →
      u.step ev p scripts = .ok v → TestRun ev p scripts ts start v

end BurnFm.Spec
