import Verif.Model.Main
import Verif.Model.Json

/-!
Model of `src/main.rs` with everything it writes: the two JSON files in the directory `inspect_output`, which `Model/Main.lean`
leaves out, and `header.log`.
-/

namespace BurnFm

/-- What can be seen of a run from outside: what `Action` describes, the text written to a file of `inspect_output`, and the bytes
written to `header.log`. -/
inductive Event where
  | acted (a : Action)
  | inspected (path text : Str)
  | header (content : Bytes)
  deriving DecidableEq, Repr

/-- The events up to the end, and how it ends. -/
abbrev Log (α : Type) := List Event × Ev α

/-- Go on after the events so far, unless the program has stopped. -/
def Log.andThen {α β : Type} (t : Log α) (f : α → Log β) : Log β :=
  match t.2 with
  | .ok a => (t.1 ++ (f a).1, (f a).2)
  | .error e => (t.1, .error e)

/-- A computation without events. -/
def Log.quiet {α : Type} (r : Ev α) : Log α := ([], r)

/-- A computation with actions only. -/
def Log.of {α : Type} (t : Trace α) : Log α := (t.1.map .acted, t.2)

/-- What a run depends on besides its arguments: whether the directory `inspect_output` exists where the program is run, and in which
order the maps of a file are iterated when it is written with `i` input files still to come. `HashMap` iterates in an order that
differs from run to run. -/
structure Surroundings where
  inspectDir : Bool
  order : Nat → FmpFile → FmpFile

/-- src/main.rs:55-56, 78-79: writing fails if the directory does not exist; the program does not create it. -/
def writeInspect (s : Surroundings) (i : Nat) (path : Str) (f : FmpFile) : Log Unit :=
  if s.inspectDir then ([.inspected path (inspectText (s.order i f))], .ok ()) else ([], .error (.panic .unwrap))

/-- src/main.rs:39-65, as `compileInput`. -/
def compileFile [Rt] (ev : Calculator) (p : Profile) (n : Nat) (s : Surroundings) (i : Nat) (noTesting : Bool) (file : FmpFile)
    (name text : Str) : Log FmpFile :=
  (Log.quiet (liftR (do
    let tmp ← compileBurn p text
    let base ← unwrap (stripBurn name)
    pure { file.merge tmp with name := base }))).andThen fun file =>
  (writeInspect s i t!"inspect_output/test_compile" file).andThen fun _ =>
  (Log.of (maybeTest ev p n noTesting file)).andThen fun _ =>
  (Log.quiet (liftR (assemble p file))).andThen fun content =>
  ([.acted (.wrote (file.name ++ t!".fmp12") content)], .ok file)

/-- src/main.rs:37-66. -/
def compileFiles [Rt] (ev : Calculator) (p : Profile) (n : Nat) (s : Surroundings) (noTesting : Bool) :
    List (Str × Str) → FmpFile → Log FmpFile
  | [], file => ([], .ok file)
  | (name, text) :: rest, file =>
    (compileFile ev p n s rest.length noTesting file name text).andThen fun file => compileFiles ev p n s noTesting rest file

/-- src/decompile/decompiler.rs:214-221: with `--print-header` the whole input file is first copied to `header.log`. Whether that
succeeds is not looked at; it is taken to succeed. -/
def writeHeader (printHeader : Bool) (buf : Bytes) : Log Unit := (if printHeader then [.header buf] else [], .ok ())

/-- src/main.rs:69-91, as `decompileInput`. The JSON is that of this input file alone. -/
def decompileFile (ev : Calculator) (p : Profile) (n : Nat) (s : Surroundings) (i : Nat) (noTesting printHeader : Bool) (file : FmpFile)
    (buf : Bytes) : Log FmpFile :=
  (writeHeader printHeader buf).andThen fun _ =>
  (Log.quiet (match decompile p buf n with
    | .ok (some tmp) => .ok tmp
    | .ok none => .error .fuel
    | .error e => .error (.panic e))).andThen fun tmp =>
  (writeInspect s i t!"inspect_output/test_decompile" tmp).andThen fun _ =>
  (Log.of (maybeTest ev p n noTesting (file.merge tmp))).andThen fun _ => ([], .ok (file.merge tmp))

/-- src/main.rs:67-93. -/
def decompileFiles (ev : Calculator) (p : Profile) (n : Nat) (s : Surroundings) (noTesting printHeader : Bool) :
    List Bytes → FmpFile → Log FmpFile
  | [], file => ([], .ok file)
  | buf :: rest, file =>
    (decompileFile ev p n s rest.length noTesting printHeader file buf).andThen fun file =>
      decompileFiles ev p n s noTesting printHeader rest file

/-- src/main.rs:21-96 `main`; `printHeader` is src/cli.rs:10-11. -/
def wholeProgram [Rt] (ev : Calculator) (p : Profile) (n : Nat) (s : Surroundings) (args : Args) (printHeader : Bool) : Log FmpFile :=
  (Log.quiet (liftR (givenTests p args.test {}))).andThen fun file =>
  match args.op with
  | .compile inputs => compileFiles ev p n s args.noTesting inputs file
  | .decompile inputs => decompileFiles ev p n s args.noTesting printHeader inputs file

end BurnFm
