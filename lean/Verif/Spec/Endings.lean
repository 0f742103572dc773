import Verif.Spec.Verdicts
import Verif.Spec.Crash

/-! The three ways in which a run of tests can end, or not. -/

namespace BurnFm.Spec

/-- `NextState … u v`: in the state `u` something is left to do, and after its next step the state is `v`. -/
inductive NextState (ev : Calculator) (p : Profile) (scripts : HMap FScript) (u : Vm) : Vm → Prop
  | step {v : Vm} {s : ScriptStep} : u.world.failed = false → AtStep scripts u s → StepDoes ev p scripts u s v →
      NextState ev p scripts u v
  | return {f : Str × Nat} {below : List (Str × Nat)} : u.world.failed = false → u.frames = f :: below →
      (running scripts u)[place u]? = none → NextState ev p scripts u { u with frames := below }

/-- The run from the state `u` comes to a step with a reason to stop. -/
inductive Breaks (ev : Calculator) (p : Profile) (scripts : HMap FScript) : Vm → Prop
  | here {u : Vm} {s : ScriptStep} : u.world.failed = false → AtStep scripts u s → StopReason ev p scripts u s →
      Breaks ev p scripts u
  | later {u v : Vm} : NextState ev p scripts u v → Breaks ev p scripts v → Breaks ev p scripts u

/-- The run from the state `u` is an infinite sequence of steps. -/
def RunsOn (ev : Calculator) (p : Profile) (scripts : HMap FScript) (u : Vm) : Prop :=
  ∃ f : Nat → Vm, f 0 = u ∧ ∀ i, NextState ev p scripts (f i) (f (i + 1))

/-- The state in which the test `t` begins after the state `u`. -/
def begun (t : FTest) (u : Vm) : Vm :=
  { u with
    test := t.script
    frames := (t.script.name, 0) :: u.frames
    world := { u.world with vars := u.world.vars ++ [[]] } }

/-- One of the tests comes to a step with a reason to stop; those before it end. -/
inductive TestsBreak (ev : Calculator) (p : Profile) (scripts : HMap FScript) : List FTest → Vm → Prop
  | here {t : FTest} {ts : List FTest} {u : Vm} : Breaks ev p scripts (begun t u) → TestsBreak ev p scripts (t :: ts) u
  | later {t : FTest} {ts : List FTest} {u v : Vm} : RunOf ev p scripts (begun t u) v → TestsBreak ev p scripts ts v →
      TestsBreak ev p scripts (t :: ts) u

/-- One of the tests never ends; those before it end. -/
inductive TestsRunOn (ev : Calculator) (p : Profile) (scripts : HMap FScript) : List FTest → Vm → Prop
  | here {t : FTest} {ts : List FTest} {u : Vm} : RunsOn ev p scripts (begun t u) → TestsRunOn ev p scripts (t :: ts) u
  | later {t : FTest} {ts : List FTest} {u v : Vm} : RunOf ev p scripts (begun t u) v → TestsRunOn ev p scripts ts v →
      TestsRunOn ev p scripts (t :: ts) u

end BurnFm.Spec
