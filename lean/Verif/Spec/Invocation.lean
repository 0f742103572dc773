import Verif.Spec.Verdicts
import Verif.Spec.Main

/-! What an invocation of the program does, from the meaning of its input files. -/

namespace BurnFm.Spec
variable [Rt]

/-- What is shown when `file` is tested: nothing if tests are switched off or there are none, else the verdicts of all its tests, which
begin in the environment made for the file. -/
def FileTested (p : Profile) (noTesting : Bool) (file : FmpFile) (as : List Action) : Prop :=
  (noTesting = true ∨ file.tests = []) ∧ as = [] ∨
  noTesting = false ∧ file.tests ≠ [] ∧ ∃ start v vs, Vm.generate file = .ok start ∧
    TestsGive trueCalc p file.scripts file.tests start vs v ∧ as = [.tested vs]

/-- `CompilesTo … file inputs as last`: with the components in `file` so far, the input files (name and text) are compiled, which does
the actions `as` and leaves the components in `last`. For each input file named `….burn` its components are added, all components are
tested, and a file named `….fmp12` is written with them. -/
inductive CompilesTo (p : Profile) (noTesting : Bool) : FmpFile → List (Str × Str) → List Action → FmpFile → Prop
  | nil {file : FmpFile} : CompilesTo p noTesting file [] [] file
  | input {file tmp file' last : FmpFile} {base text : Str} {rest : List (Str × Str)} {shown as : List Action} {content : Bytes} :
      compileBurn p text = .ok tmp → file' = { file.merge tmp with name := base } → FileTested p noTesting file' shown →
      assemble p file' = .ok content → CompilesTo p noTesting file' rest as last →
      CompilesTo p noTesting file ((base ++ t!".burn", text) :: rest) (shown ++ .wrote (base ++ t!".fmp12") content :: as) last

/-- The same for the decompiler, whose input files are bytes: the components of each are added and tested, and nothing is written. -/
inductive DecompilesTo (p : Profile) (noTesting : Bool) : FmpFile → List Bytes → List Action → FmpFile → Prop
  | nil {file : FmpFile} : DecompilesTo p noTesting file [] [] file
  | input {file tmp file' last : FmpFile} {buf : Bytes} {rest : List Bytes} {shown as : List Action} :
      (∃ n, decompile p buf n = .ok (some tmp)) → file' = file.merge tmp → FileTested p noTesting file' shown →
      DecompilesTo p noTesting file' rest as last → DecompilesTo p noTesting file (buf :: rest) (shown ++ as) last

/-- `InvocationDoes p args as last`: the invocation does the actions `as` and ends, with the components in `last`. The tests given with `-t` come
first. -/
def InvocationDoes (p : Profile) (args : Args) (as : List Action) (last : FmpFile) : Prop :=
  ∃ given, Compiled p args.test given ∧
    match args.op with
    | .compile inputs => CompilesTo p args.noTesting { tests := given.flatMap (·.tests) } inputs as last
    | .decompile inputs => DecompilesTo p args.noTesting { tests := given.flatMap (·.tests) } inputs as last

end BurnFm.Spec
