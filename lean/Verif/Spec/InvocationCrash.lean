import Verif.Spec.Invocation
import Verif.Spec.Crashes

/-! When an invocation of the program crashes, and what it has done before. -/

namespace BurnFm.Spec
variable [Rt]

/-- Testing `file` crashes: no environment can be made for it, or its tests crash. -/
def TestingCrashes (p : Profile) (noTesting : Bool) (file : FmpFile) : Prop :=
  noTesting = false ∧ file.tests ≠ [] ∧ ((∀ start, Vm.generate file ≠ .ok start) ∨
    ∃ start, Vm.generate file = .ok start ∧ TestsCrash trueCalc p file.scripts file.tests start)

/-- `CompilingCrashes … file inputs as`: with the components in `file` so far, compiling the input files crashes after the actions
`as`. -/
inductive CompilingCrashes (p : Profile) (noTesting : Bool) : FmpFile → List (Str × Str) → List Action → Prop
  /-- the text cannot be compiled -/
  | text {file : FmpFile} {name text : Str} {rest : List (Str × Str)} : (∀ tmp, compileBurn p text ≠ .ok tmp) →
      CompilingCrashes p noTesting file ((name, text) :: rest) []
  /-- the input file is not named `….burn` -/
  | name {file : FmpFile} {name text : Str} {rest : List (Str × Str)} : (∀ base, name ≠ base ++ t!".burn") →
      CompilingCrashes p noTesting file ((name, text) :: rest) []
  /-- testing crashes -/
  | testing {file tmp file' : FmpFile} {base text : Str} {rest : List (Str × Str)} :
      compileBurn p text = .ok tmp → file' = { file.merge tmp with name := base } → TestingCrashes p noTesting file' →
      CompilingCrashes p noTesting file ((base ++ t!".burn", text) :: rest) []
  /-- the file cannot be assembled; the verdicts have been shown by then -/
  | assembling {file tmp file' : FmpFile} {base text : Str} {rest : List (Str × Str)} {shown : List Action} :
      compileBurn p text = .ok tmp → file' = { file.merge tmp with name := base } → FileTested p noTesting file' shown →
      (∀ content, assemble p file' ≠ .ok content) → CompilingCrashes p noTesting file ((base ++ t!".burn", text) :: rest) shown
  /-- a later input file is the reason; this one has been written by then -/
  | later {file tmp file' : FmpFile} {base text : Str} {rest : List (Str × Str)} {shown as : List Action} {content : Bytes} :
      compileBurn p text = .ok tmp → file' = { file.merge tmp with name := base } → FileTested p noTesting file' shown →
      assemble p file' = .ok content → CompilingCrashes p noTesting file' rest as →
      CompilingCrashes p noTesting file ((base ++ t!".burn", text) :: rest) (shown ++ .wrote (base ++ t!".fmp12") content :: as)

/-- The same for the decompiler. -/
inductive DecompilingCrashes (p : Profile) (noTesting : Bool) : FmpFile → List Bytes → List Action → Prop
  /-- the bytes cannot be decompiled -/
  | bytes {file : FmpFile} {buf : Bytes} {rest : List Bytes} : (∃ n c, decompile p buf n = .error c) →
      DecompilingCrashes p noTesting file (buf :: rest) []
  /-- testing crashes -/
  | testing {file tmp : FmpFile} {buf : Bytes} {rest : List Bytes} : (∃ n, decompile p buf n = .ok (some tmp)) →
      TestingCrashes p noTesting (file.merge tmp) → DecompilingCrashes p noTesting file (buf :: rest) []
  /-- a later input file is the reason -/
  | later {file tmp : FmpFile} {buf : Bytes} {rest : List Bytes} {shown as : List Action} :
      (∃ n, decompile p buf n = .ok (some tmp)) → FileTested p noTesting (file.merge tmp) shown →
      DecompilingCrashes p noTesting (file.merge tmp) rest as → DecompilingCrashes p noTesting file (buf :: rest) (shown ++ as)

/-- `InvocationCrashes p args as`: the invocation crashes after the actions `as`: a file given with `-t` cannot be compiled, or
compiling or decompiling the input files crashes. -/
def InvocationCrashes (p : Profile) (args : Args) (as : List Action) : Prop :=
  (∀ given, ¬Compiled p args.test given) ∧ as = [] ∨
  ∃ given, Compiled p args.test given ∧
    match args.op with
    | .compile inputs => CompilingCrashes p args.noTesting { tests := given.flatMap (·.tests) } inputs as
    | .decompile inputs => DecompilingCrashes p args.noTesting { tests := given.flatMap (·.tests) } inputs as

/-- Testing `file` never ends. -/
def TestingHangs (p : Profile) (noTesting : Bool) (file : FmpFile) : Prop :=
  noTesting = false ∧ file.tests ≠ [] ∧ ∃ start, Vm.generate file = .ok start ∧
    (TestsRunOn trueCalc p file.scripts file.tests start ∨ TestsHang trueCalc p file.scripts file.tests start)

/-- `CompilingHangs … file inputs as`: with the components in `file` so far, compiling the input files does the actions `as` and then
goes on forever, because testing one of them does. -/
inductive CompilingHangs (p : Profile) (noTesting : Bool) : FmpFile → List (Str × Str) → List Action → Prop
  | testing {file tmp file' : FmpFile} {base text : Str} {rest : List (Str × Str)} :
      compileBurn p text = .ok tmp → file' = { file.merge tmp with name := base } → TestingHangs p noTesting file' →
      CompilingHangs p noTesting file ((base ++ t!".burn", text) :: rest) []
  | later {file tmp file' : FmpFile} {base text : Str} {rest : List (Str × Str)} {shown as : List Action} {content : Bytes} :
      compileBurn p text = .ok tmp → file' = { file.merge tmp with name := base } → FileTested p noTesting file' shown →
      assemble p file' = .ok content → CompilingHangs p noTesting file' rest as →
      CompilingHangs p noTesting file ((base ++ t!".burn", text) :: rest) (shown ++ .wrote (base ++ t!".fmp12") content :: as)

/-- The same for the decompiler, where reading an input file can also go on forever. -/
inductive DecompilingHangs (p : Profile) (noTesting : Bool) : FmpFile → List Bytes → List Action → Prop
  | bytes {file : FmpFile} {buf : Bytes} {rest : List Bytes} : (∀ n, decompile p buf n = .ok none) →
      DecompilingHangs p noTesting file (buf :: rest) []
  | testing {file tmp : FmpFile} {buf : Bytes} {rest : List Bytes} : (∃ n, decompile p buf n = .ok (some tmp)) →
      TestingHangs p noTesting (file.merge tmp) → DecompilingHangs p noTesting file (buf :: rest) []
  | later {file tmp : FmpFile} {buf : Bytes} {rest : List Bytes} {shown as : List Action} :
      (∃ n, decompile p buf n = .ok (some tmp)) → FileTested p noTesting (file.merge tmp) shown →
      DecompilingHangs p noTesting (file.merge tmp) rest as → DecompilingHangs p noTesting file (buf :: rest) (shown ++ as)

/-- `InvocationHangs p args as`: the invocation does the actions `as` and then goes on forever. -/
def InvocationHangs (p : Profile) (args : Args) (as : List Action) : Prop :=
  ∃ given, Compiled p args.test given ∧
    match args.op with
    | .compile inputs => CompilingHangs p args.noTesting { tests := given.flatMap (·.tests) } inputs as
    | .decompile inputs => DecompilingHangs p args.noTesting { tests := given.flatMap (·.tests) } inputs as

end BurnFm.Spec
