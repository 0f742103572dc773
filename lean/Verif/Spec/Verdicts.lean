import Verif.Spec.StepDoes
import Verif.Spec.CalcWords
import Verif.Spec.CalcReading
import Verif.Spec.Means

/-! The verdicts of tests, with the values of calculations as the calculation language gives them. -/

namespace BurnFm.Spec
variable [Rt]

/-- The text `s` is a calculation with the value `v`: it is cut into words, they are an expression, and its value is `v`. -/
def TextMeans (env : CalcEnv) (s v : Str) : Prop := ∃ ts e, CutInto s ts ∧ Calculation ts e ∧ Means env e v

/-- Evaluating the text `s` crashes: something in it is no word, or its words cannot be read, or the expression crashes. -/
def TextCrashes (env : CalcEnv) (s : Str) : Prop :=
  Uncut s ∨ ∃ ts, CutInto s ts ∧
    ((¬ ∃ e, Calculation ts e) ∧ ¬ Comes (some .cmp) ts ∨ ∃ e, Calculation ts e ∧ Fails env .crash e)

open Classical in
/-- The calculator that gives every calculation its value, if it has one, crashes if that is what evaluating it does, and else never
ends. -/
noncomputable def trueCalc : Calculator := fun env s =>
  if h : ∃ v, TextMeans env s v then .ok h.choose
  else if TextCrashes env s then .error (.panic .unwrap) else .error .fuel

end BurnFm.Spec
