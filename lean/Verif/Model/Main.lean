import Verif.Model.Burn
import Verif.Model.Assembler
import Verif.Model.Decompiler
import Verif.Model.Vm

/-! Model of `src/main.rs`: what the program does with its input files. -/

namespace BurnFm

/-- What the program does that can be seen from outside: it shows the verdicts of a run of the tests, or writes a file.
Simplifications: the verdicts of one run are shown together, when it ends; the two JSON files in `inspect_output` are
left out. -/
inductive Action where
  | tested (verdicts : List Bool)
  | wrote (file : Str) (content : Bytes)
  deriving DecidableEq, Repr

/-- The actions up to the end, and how it ends. -/
abbrev Trace (α : Type) := List Action × Ev α

/-- Go on after the actions so far, unless the program has stopped. -/
def Trace.andThen {α β : Type} (t : Trace α) (f : α → Trace β) : Trace β :=
  match t.2 with
  | .ok a => (t.1 ++ (f a).1, (f a).2)
  | .error e => (t.1, .error e)

/-- A computation without actions. -/
def Trace.quiet {α : Type} (r : Ev α) : Trace α := ([], r)

/-- src/main.rs:58-60, 88-90: a new test environment for the file, and its tests; `n` bounds the steps of each test. -/
def testFile (ev : Calculator) (p : Profile) (n : Nat) (file : FmpFile) : Ev (List Bool) := do
  let vm ← Vm.generate file
  let (vs, _) ← vm.runTestsWithCleanup ev p file.scripts n file.tests
  pure vs

/-- src/main.rs:57-61, 87-91. -/
def maybeTest (ev : Calculator) (p : Profile) (n : Nat) (noTesting : Bool) (file : FmpFile) : Trace Unit :=
  if !noTesting && !file.tests.isEmpty then
    match testFile ev p n file with
    | .ok vs => ([.tested vs], .ok ())
    | .error e => ([], .error e)
  else ([], .ok ())

/-- `name.strip_suffix(".burn")` -/
def stripBurn (name : Str) : Option Str :=
  if t!".burn".isSuffixOf name then some (name.take (name.length - 5)) else none

/-- src/main.rs:39-65: one input file of the compiler, given by its name and its text. Opening, reading and writing files
is taken to succeed, and the path to have a file name. -/
def compileInput [Rt] (ev : Calculator) (p : Profile) (n : Nat) (noTesting : Bool) (file : FmpFile) (name text : Str) :
    Trace FmpFile :=
  (Trace.quiet (liftR (do
    let tmp ← compileBurn p text
    let base ← unwrap (stripBurn name)
    pure { file.merge tmp with name := base }))).andThen fun file =>
  (maybeTest ev p n noTesting file).andThen fun _ =>
  (Trace.quiet (liftR (assemble p file))).andThen fun content =>
  ([.wrote (file.name ++ t!".fmp12") content], .ok file)

/-- src/main.rs:37-66. -/
def compileInputs [Rt] (ev : Calculator) (p : Profile) (n : Nat) (noTesting : Bool) : List (Str × Str) → FmpFile → Trace FmpFile
  | [], file => ([], .ok file)
  | (name, text) :: rest, file =>
    (compileInput ev p n noTesting file name text).andThen fun file => compileInputs ev p n noTesting rest file

/-- src/main.rs:69-91: one input file of the decompiler, given by its bytes. Printing the header is left out. `n` also
bounds the rounds of the decompiler. -/
def decompileInput (ev : Calculator) (p : Profile) (n : Nat) (noTesting : Bool) (file : FmpFile) (buf : Bytes) : Trace FmpFile :=
  (Trace.quiet (match decompile p buf n with
    | .ok (some tmp) => .ok (file.merge tmp)
    | .ok none => .error .fuel
    | .error e => .error (.panic e))).andThen fun file =>
  (maybeTest ev p n noTesting file).andThen fun _ => ([], .ok file)

/-- src/main.rs:67-93. -/
def decompileInputs (ev : Calculator) (p : Profile) (n : Nat) (noTesting : Bool) : List Bytes → FmpFile → Trace FmpFile
  | [], file => ([], .ok file)
  | buf :: rest, file => (decompileInput ev p n noTesting file buf).andThen fun file => decompileInputs ev p n noTesting rest file

/-- src/main.rs:27-35: the tests of the files given with `-t`. -/
def givenTests [Rt] (p : Profile) : List Str → FmpFile → Res FmpFile
  | [], file => pure file
  | text :: rest, file => do
    let tmp ← compileBurn p text
    givenTests p rest { file with tests := file.tests ++ tmp.tests }

/-- src/cli.rs:16-23: one of `-c` and `-d` is required, both together are rejected. -/
inductive Operation where
  | compile (inputs : List (Str × Str))
  | decompile (inputs : List Bytes)

/-- src/cli.rs:3-14 `CLI`, with the contents of the files; without `print_header`. -/
structure Args where
  op : Operation
  test : List Str := []
  noTesting : Bool := false

/-- src/main.rs:21-96 `main`. -/
def mainProgram [Rt] (ev : Calculator) (p : Profile) (n : Nat) (args : Args) : Trace FmpFile :=
  (Trace.quiet (liftR (givenTests p args.test {}))).andThen fun file =>
  match args.op with
  | .compile inputs => compileInputs ev p n args.noTesting inputs file
  | .decompile inputs => decompileInputs ev p n args.noTesting inputs file

end BurnFm
