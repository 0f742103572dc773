import Verif.Model.Main

/-! How an invocation of the program ends. -/

namespace BurnFm.Spec
variable [Rt]

/-- What the program has done when every calculation may take `fuel` rounds, and every test and every file `n`. -/
def upTo (p : Profile) (args : Args) (fuel n : Nat) : Trace FmpFile := mainProgram (fun env => evalCalc env fuel) p n args

/-- The program ends, having done `actions`, with the result `r`, which may be a panic. -/
def EndsAs (p : Profile) (args : Args) (actions : List Action) (r : Res FmpFile) : Prop :=
  ∃ fuel n, upTo p args fuel n = (actions, liftR r)

/-- The program never ends. -/
def Diverges (p : Profile) (args : Args) : Prop := ∀ fuel n, (upTo p args fuel n).2 = .error .fuel

end BurnFm.Spec
