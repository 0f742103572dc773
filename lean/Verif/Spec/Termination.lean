import Verif.Spec.Script

/-! Scripts without loops and without recursion. -/

namespace BurnFm.Spec

/-- The run ends: with a verdict or with a panic. -/
def Ends (ev : Calculator) (p : Profile) (scripts : HMap FScript) (ts : List FTest) (vm : Vm) : Prop :=
  ∃ n, vm.runTests ev p scripts n ts ≠ .error .fuel

/-- The calculations that are arguments of the step end, whatever the data and variables are. -/
def StepEnds (ev : Calculator) (s : ScriptStep) : Prop := ∀ c ∈ s.switches, ∀ env, ev env c ≠ .error .fuel

/-- A list of steps without loops, calling only scripts of the file that satisfy `ok`. -/
def Loopless (ev : Calculator) (scripts : HMap FScript) (ok : Str → Prop) (code : List ScriptStep) : Prop :=
  ∀ s ∈ code, s.opcode ≠ .endLoop ∧ StepEnds ev s ∧ ∀ name, Calls ev s name → ok name ∧ ∃ e ∈ scripts, e.2.name = name

end BurnFm.Spec
