import Verif.Model.Main
import Mathlib.Data.List.Forall2

/-! What can be seen of a run of the whole program. -/

namespace BurnFm.Spec

/-- The verdicts shown, run by run. -/
def runsOf (as : List Action) : List (List Bool) := as.filterMap fun a => match a with
  | .tested vs => some vs
  | .wrote .. => none

/-- The files written, with their contents. -/
def outputsOf (as : List Action) : List (Str × Bytes) := as.filterMap fun a => match a with
  | .tested _ => none
  | .wrote f b => some (f, b)

/-- `t + k₀, t + k₀ + k₁, …` -/
def totals : Nat → List Nat → List Nat
  | _, [] => []
  | t, k :: ks => (t + k) :: totals (t + k) ks

/-- `Compiled p texts files`: each text compiles, to these files in order. -/
def Compiled [Rt] (p : Profile) : List Str → List FmpFile → Prop := List.Forall₂ fun s f => compileBurn p s = .ok f

/-- `Decompiled p n bufs files`: each file of bytes decompiles, to these files in order. -/
def Decompiled (p : Profile) (n : Nat) : List Bytes → List FmpFile → Prop :=
  List.Forall₂ fun b f => decompile p b n = .ok (some f)

/-- The verdicts of the tests of a file in a fresh environment. -/
def Verdicts (ev : Calculator) (p : Profile) (n : Nat) (f : FmpFile) (vs : List Bool) : Prop :=
  ∃ vm last, Vm.generate f = .ok vm ∧ vm.runTests ev p f.scripts n f.tests = .ok (vs, last)

/-- What the `i`-th input file is tested and assembled with: the components of the input files so far, where the last one
wins, and all tests so far, those given with `-t` first. -/
def combined (given files : List FmpFile) (i : Nat) (base : Str) : FmpFile :=
  { mergeFiles (files.take (i + 1)) with
    name := base
    tests := given.flatMap (·.tests) ++ (files.take (i + 1)).flatMap (·.tests) }

/-- The combined files, in order. -/
def snapshots (given files : List FmpFile) (bases : List Str) : List FmpFile :=
  bases.zipIdx.map fun e => combined given files e.2 e.1

end BurnFm.Spec
