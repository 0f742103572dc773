import Verif.Spec.Script
import Verif.Spec.CalcText
import Verif.Spec.CalcValue

/-! What a loop that counts should do. -/

namespace BurnFm.Spec

/-- A text that can be used as the name of a variable in calculations. -/
def IsName (i : Str) : Prop :=
  (∀ c ∈ i, WordChar c) ∧ isFloatText i = false ∧ ∃ c s, i = c :: s ∧ isDigit c = false

/-- `w`, with the value `v` for the variable `i` of the `d`-th active script. -/
def withVar (w : World) (d : Nat) (i v : Str) : World := { w with vars := w.vars.modify (d - 1) (fun m => m.insert i v) }

/-- A step that does not set the variable `i`. -/
def Keeps (i : Str) (s : ScriptStep) : Prop := s.opcode = .setVariable → s.switches[0]? ≠ some i

instance (i : Str) (s : ScriptStep) : Decidable (Keeps i s) := inferInstanceAs (Decidable (_ → _))

/-- `Rounds ev p d i b k n w w'`: the steps `b` are executed with `i = k`, `i = k + 1`, … up to `i = n - 1`, and this turns
`w` into `w'`. No assertion fails. -/
inductive Rounds (ev : Calculator) (p : Profile) (d : Nat) (i : Str) (b : List ScriptStep) (n : Nat) :
    Nat → World → World → Prop
  | stop {w : World} : Rounds ev p d i b n n w w
  | round {k : Nat} {w w1 w' : World} : k < n → runBody ev p d b (withVar w d i (Nat.toDigits 10 k)) = .ok w1 →
      w1.failed = false → Rounds ev p d i b n (k + 1) w1 w' → Rounds ev p d i b n k w w'

/-- `set_variable(i, 0) loop { exit_loop_if(c) b set_variable(i, i + 1) }` -/
def countingCode (i c : Str) (b : List ScriptStep) : List ScriptStep :=
  instr .setVariable [i, t!"0"] :: loopCode [] c (b ++ [instr .setVariable [i, i ++ t!" + 1"]])

end BurnFm.Spec
