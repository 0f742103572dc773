import Verif.Model.VmNotes
import Verif.Spec.CalcNotes

/-! Tests that do not depend on variables left behind by earlier tests. -/

namespace BurnFm.Spec

/-- What C126 says of a calculator: it reports only names without a value, and only values and names reported matter. -/
structure ReportsUnknown (evN : NotedCalculator) : Prop where
  undefined : ∀ env text x, Note.unknownVariable x ∈ (evN env text).notes → varValue env x = none
  enough : ∀ env env' text, MoreVariables env env' →
    (∀ x, Note.unknownVariable x ∈ (evN env text).notes → varValue env' x = none) → evN env' text = evN env text

/-- Two states between tests that differ only in variables, in entries of loops that were left, and in what is on the terminal. -/
structure SameButVariables (a b : Vm) : Prop where
  frames : b.frames = a.frames
  branchTaken : b.branchTaken = a.branchTaken
  failed : b.world.failed = a.world.failed
  findMode : b.world.findMode = a.world.findMode
  criteria : b.world.criteria = a.world.criteria
  db : b.world.db = a.world.db
  layouts : b.world.layouts = a.world.layouts

/-- The state has not run anything yet: no active scripts, no variables, no open loops. -/
structure Fresh (vm : Vm) : Prop where
  frames : vm.frames = []
  vars : vm.world.vars = []
  loops : vm.loops = []

/-- The names that the test, run in the given state, reports as unknown. -/
def ReportedBy (evN : NotedCalculator) (p : Profile) (scripts : HMap FScript) (n : Nat) (vm : Vm) (t : FTest) (x : Str) : Prop :=
  Note.unknownVariable x ∈ vm.testNotes evN p scripts n [t]

/-- No script has a variable of this name. -/
def NoVariable (vm : Vm) (x : Str) : Prop := ∀ m ∈ vm.world.vars, SMap.get m x = none

/-- The steps that change data, found sets, the current record, the layout or the mode. -/
def changesState : List Instruction :=
  [.goToLayout, .goToRecordRequestPage, .enterFindMode, .performFind, .showAllRecords, .setField, .newRecordRequest]

end BurnFm.Spec
