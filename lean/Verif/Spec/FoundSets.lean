import Verif.Spec.Vm

/-! Runs that do not search or navigate in a given table occurrence. -/

namespace BurnFm.Spec

/-- The steps that search or navigate in the occurrence of the current layout. -/
def movesOrFinds : Instruction → Bool
  | .goToRecordRequestPage | .performFind | .showAllRecords => true
  | _ => false

/-- The states of a run of several tests in which, from `start` on, no step searches or navigates on a layout of occurrence
`k`. On the layouts of other occurrences everything is allowed, and on those of `k` everything else. -/
inductive Undisturbed (ev : Calculator) (p : Profile) (scripts : HMap FScript) (ts : List FTest) (k : Nat) (start : Vm) :
    Vm → Prop
  | start : Undisturbed ev p scripts ts k start start
  | load {u : Vm} {t : FTest} : Undisturbed ev p scripts ts k start u → t ∈ ts →
      Undisturbed ev p scripts ts k start (u.loadTest t)
  | step {u v : Vm} : Undisturbed ev p scripts ts k start u → u.world.failed = false → u.frames ≠ [] →
      (u.world.db.handle = k → ∀ s, AtStep scripts u s → movesOrFinds s.opcode = false) →
      u.step ev p scripts = .ok v → Undisturbed ev p scripts ts k start v

/-- The number of records of table `t`: all its fields have the same number in a valid database. -/
def recordCount (db : Database) (t : Nat) : Nat :=
  match db.tables[t]? with
  | some { fields := f :: _, .. } => f.records.length
  | _ => 0

end BurnFm.Spec
