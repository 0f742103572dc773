import Verif.Spec.FileContents
import Verif.Spec.Script

/-! What the scripts stored in a file mean when tests call them. -/

namespace BurnFm.Spec

/-- What a stored step means, as a step of a script in the language of tests: there the name of a called script is a text in
quotes. The number of the step does not matter. -/
def StepDef.meaning (ss : List StoredScript) (t : StepDef) : ScriptStep :=
  instr t.op ((if t.op = .performScript then ['"' :: nameOf ss t.callee ++ ['"']] else []) ++ t.params.map (·.text))

/-- `env` are scripts of the file: of several with the same name the first one counts. -/
def MeantBy (d : FileDef) (env : Str → Option Prog) : Prop :=
  ∀ name q, env name = some q → ∃ s, d.scripts.find? (fun s => s.name == name) = some s ∧
    s.steps.map (StepDef.meaning d.scripts) = q.code

/-- These scripts call no others. -/
def NoCalls (env : Str → Option Prog) : Prop := ∀ name q, env name = some q → ∀ s ∈ q.code, s.opcode ≠ .performScript

end BurnFm.Spec
