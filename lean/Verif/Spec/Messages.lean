import Verif.Spec.Vm

/-! What a run prints for its user. -/

namespace BurnFm.Spec

/-- What a run in state `u` prints next: the value of a dialog, the calculation of an assertion that gives `false`, and
otherwise nothing. -/
inductive Says (ev : Calculator) (scripts : HMap FScript) (u : Vm) : List Message → Prop
  | dialog {s : ScriptStep} {c v : Str} : AtStep scripts u s → s.opcode = .showCustomDialog → s.switches[0]? = some c →
      u.world.eval ev u.frames.length c = .ok v → Says ev scripts u [.dialog v]
  | failure {s : ScriptStep} {c : Str} : AtStep scripts u s → s.opcode = .assert → s.switches[0]? = some c →
      u.world.eval ev u.frames.length c = .ok t!"false" → Says ev scripts u [.assertionFailed c]
  | silent : (∀ s, AtStep scripts u s → s.opcode ≠ .showCustomDialog) →
      (∀ s c, AtStep scripts u s → s.opcode = .assert → s.switches[0]? = some c →
        u.world.eval ev u.frames.length c ≠ .ok t!"false") → Says ev scripts u []

/-- `Transcript … u ms v`: a run that is in state `u` is in state `v` now or later, and its steps until then print `ms`. -/
inductive Transcript (ev : Calculator) (p : Profile) (scripts : HMap FScript) : Vm → List Message → Vm → Prop
  | here {u : Vm} : Transcript ev p scripts u [] u
  | step {u u' v : Vm} {m ms : List Message} : u.world.failed = false → u.frames ≠ [] → Says ev scripts u m →
      u.step ev p scripts = .ok u' → Transcript ev p scripts u' ms v → Transcript ev p scripts u (m ++ ms) v

end BurnFm.Spec
