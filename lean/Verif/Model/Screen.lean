import Verif.Model.Inspect
import Verif.Model.Console
import Verif.Model.ScriptWarnings

/-!
Model of `src/main.rs` with everything it shows and writes, in the order in which it does: the warnings of the compiler, the
lines of the test runner, the JSON files, `header.log` and the database files. Here the verdicts of a run of the tests are shown one by
one, also if it crashes later. Left out: the debugging output of the assembler (see `Model/AssemblerOutput`) and the decompiler (src/compile/assembler.rs:80, 109,
133, 181, src/decompile/decompiler.rs:60, 144-205, 297, src/chunk.rs:282), the messages of panics, and the warnings that
`Model/Console.lean` leaves out.
-/

namespace BurnFm

/-- What the program shows or writes. -/
inductive Output where
  | warned (w : Warning)
  | line (l : Line)
  | inspected (path text : Str)
  | header (content : Bytes)
  | wrote (file : Str) (content : Bytes)
  deriving DecidableEq, Repr

/-- The output up to the end, and how it ends. -/
abbrev Screen (α : Type) := List Output × Ev α

/-- Go on after the output so far, unless the program has stopped. -/
def Screen.andThen {α β : Type} (t : Screen α) (f : α → Screen β) : Screen β :=
  match t.2 with
  | .ok a => (t.1 ++ (f a).1, (f a).2)
  | .error e => (t.1, .error e)

/-- A computation without output. -/
def Screen.quiet {α : Type} (r : Ev α) : Screen α := ([], r)

/-- A computation that writes warnings. -/
def Screen.warned {α : Type} (r : Warned (Res α)) : Screen α := (r.1.map .warned, liftR r.2)

/-- src/main.rs:57-61, 87-91, as `maybeTest`. A new test environment has an empty `punc_stack`. -/
def maybeTestShown (ev : Calculator) (p : Profile) (n : Nat) (noTesting : Bool) (file : FmpFile) : Screen Unit :=
  if !noTesting && !file.tests.isEmpty then
    (Screen.quiet (Vm.generate file)).andThen fun vm =>
      let r := vm.runTestsShown ev p file.scripts n file.tests []
      (r.1.map .line, r.2.map fun _ => ())
  else ([], .ok ())

/-- src/main.rs:55-56, 78-79, as `writeInspect`. -/
def writeInspectShown (s : Surroundings) (i : Nat) (path : Str) (f : FmpFile) : Screen Unit :=
  if s.inspectDir then ([.inspected path (inspectText (s.order i f))], .ok ()) else ([], .error (.panic .unwrap))

/-- src/main.rs:39-65, as `compileFile`. -/
def compileShown [Rt] (ev : Calculator) (p : Profile) (n : Nat) (s : Surroundings) (i : Nat) (noTesting : Bool) (file : FmpFile)
    (name text : Str) : Screen FmpFile :=
  (Screen.warned (compileBurnW p text)).andThen fun tmp =>
  (Screen.quiet (liftR (unwrap (stripBurn name)))).andThen fun base =>
  let file : FmpFile := { file.merge tmp with name := base }
  (writeInspectShown s i t!"inspect_output/test_compile" file).andThen fun _ =>
  (maybeTestShown ev p n noTesting file).andThen fun _ =>
  (Screen.quiet (liftR (assemble p file))).andThen fun content =>
  ([.wrote (file.name ++ t!".fmp12") content], .ok file)

/-- src/main.rs:37-66. -/
def compileAllShown [Rt] (ev : Calculator) (p : Profile) (n : Nat) (s : Surroundings) (noTesting : Bool) :
    List (Str × Str) → FmpFile → Screen FmpFile
  | [], file => ([], .ok file)
  | (name, text) :: rest, file =>
    (compileShown ev p n s rest.length noTesting file name text).andThen fun file => compileAllShown ev p n s noTesting rest file

/-- src/main.rs:69-91, as `decompileFile`. -/
def decompileShown (ev : Calculator) (p : Profile) (n : Nat) (s : Surroundings) (i : Nat) (noTesting printHeader : Bool) (file : FmpFile)
    (buf : Bytes) : Screen FmpFile :=
  Screen.andThen (if printHeader then [.header buf] else [], .ok ()) fun _ =>
  (Screen.quiet (match decompile p buf n with
    | .ok (some tmp) => .ok tmp
    | .ok none => .error .fuel
    | .error e => .error (.panic e))).andThen fun tmp =>
  (writeInspectShown s i t!"inspect_output/test_decompile" tmp).andThen fun _ =>
  (maybeTestShown ev p n noTesting (file.merge tmp)).andThen fun _ => ([], .ok (file.merge tmp))

/-- src/main.rs:67-93. -/
def decompileAllShown (ev : Calculator) (p : Profile) (n : Nat) (s : Surroundings) (noTesting printHeader : Bool) :
    List Bytes → FmpFile → Screen FmpFile
  | [], file => ([], .ok file)
  | buf :: rest, file =>
    (decompileShown ev p n s rest.length noTesting printHeader file buf).andThen fun file =>
      decompileAllShown ev p n s noTesting printHeader rest file

/-- src/main.rs:27-35, as `givenTests`. -/
def givenTestsShown [Rt] (p : Profile) : List Str → FmpFile → Screen FmpFile
  | [], file => ([], .ok file)
  | text :: rest, file =>
    (Screen.warned (compileBurnW p text)).andThen fun tmp => givenTestsShown p rest { file with tests := file.tests ++ tmp.tests }

/-- src/main.rs:21-96 `main`. -/
def programShown [Rt] (ev : Calculator) (p : Profile) (n : Nat) (s : Surroundings) (args : Args) (printHeader : Bool) : Screen FmpFile :=
  (givenTestsShown p args.test {}).andThen fun file =>
  match args.op with
  | .compile inputs => compileAllShown ev p n s args.noTesting inputs file
  | .decompile inputs => decompileAllShown ev p n s args.noTesting printHeader inputs file

end BurnFm
