import Verif.Model.Screen
import Verif.Spec.Console
import Verif.Spec.Inspect

/-! What should be seen of a run of the whole program. -/

namespace BurnFm.Spec

/-- What is written to files, in order. -/
def savedOf (es : List Output) : List Output := es.filter fun e => match e with
  | .warned _ | .line _ => false
  | _ => true

/-- The same, for the events of `wholeProgram`. -/
def savedEvents (es : List Event) : List Output := es.filterMap fun e => match e with
  | .acted (.tested _) => none
  | .acted (.wrote f b) => some (.wrote f b)
  | .inspected path text => some (.inspected path text)
  | .header b => some (.header b)

/-- The verdicts shown, in order. -/
def verdictsShown (es : List Output) : List Bool := es.filterMap fun e => match e with
  | .line (.outcome _ v) => some v
  | _ => none

/-- The warnings of the compiler about a text. -/
def warningsOf [Rt] (p : Profile) (text : Str) : List Output := (compileBurnW p text).1.map .warned

/-- The lines `ls` are what is shown of all tests of `f`, or there are none because testing is off. -/
def AllTested (ev : Calculator) (p : Profile) (n : Nat) (noTesting : Bool) (f : FmpFile) (ls : List Line) : Prop :=
  (noTesting = true ∨ f.tests = []) ∧ ls = [] ∨
  noTesting = false ∧ ∃ vs, Verdicts ev p n f vs ∧ ls.filter isHeadline = report f.tests vs

/-- The lines `ls` are what is shown of the tests of `f` up to a crash in one of them. -/
def TestCrash (ev : Calculator) (p : Profile) (n : Nat) (noTesting : Bool) (f : FmpFile) (e : Stop) (ls : List Line) : Prop :=
  noTesting = false ∧ ∃ ended t rest vs vm last, f.tests = ended ++ t :: rest ∧ Vm.generate f = .ok vm ∧
    vm.runTests ev p f.scripts n ended = .ok (vs, last) ∧ (last.loadTest t).run ev p f.scripts n = .error e ∧
    ls.filter isHeadline = report ended vs ++ [.running t.name]

/-- What is seen of an input file of the compiler that makes the combined file `f`: the warnings, the JSON file, the tests with their
verdicts, the database file. -/
def SeenWhole [Rt] (ev : Calculator) (p : Profile) (n : Nat) (noTesting : Bool) (text : Str) (f : FmpFile) (es : List Output) : Prop :=
  ∃ json ls content, Shows json f ∧ AllTested ev p n noTesting f ls ∧ assemble p f = .ok content ∧
    es = warningsOf p text ++ .inspected t!"inspect_output/test_compile" json :: ls.map .line ++ [.wrote (f.name ++ t!".fmp12") content]

/-- What is seen of an input file at which the program stops with `e`; `combine` makes the combined file. It stops while compiling; at
the name of the input file or the missing directory; when the test database is set up; in a test; or when the database file is
assembled. -/
inductive SeenUpTo [Rt] (ev : Calculator) (p : Profile) (n : Nat) (inspectDir noTesting : Bool) (name text : Str)
    (combine : FmpFile → Str → FmpFile) (e : Stop) : List Output → Prop
  | compiling {r : Panic} : compileBurn p text = .error r → e = .panic r →
      SeenUpTo ev p n inspectDir noTesting name text combine e (warningsOf p text)
  | naming {g : FmpFile} : compileBurn p text = .ok g → (∀ base, name ≠ base ++ t!".burn") →
      SeenUpTo ev p n inspectDir noTesting name text combine e (warningsOf p text)
  | saving {g : FmpFile} {base : Str} : compileBurn p text = .ok g → name = base ++ t!".burn" → inspectDir = false →
      SeenUpTo ev p n inspectDir noTesting name text combine e (warningsOf p text)
  | generating {g : FmpFile} {base json : Str} : compileBurn p text = .ok g → name = base ++ t!".burn" →
      Shows json (combine g base) → noTesting = false → (combine g base).tests ≠ [] → Vm.generate (combine g base) = .error e →
      SeenUpTo ev p n inspectDir noTesting name text combine e
        (warningsOf p text ++ [.inspected t!"inspect_output/test_compile" json])
  | testing {g : FmpFile} {base json : Str} {ls : List Line} : compileBurn p text = .ok g → name = base ++ t!".burn" →
      Shows json (combine g base) → TestCrash ev p n noTesting (combine g base) e ls →
      SeenUpTo ev p n inspectDir noTesting name text combine e
        (warningsOf p text ++ .inspected t!"inspect_output/test_compile" json :: ls.map .line)
  | assembling {g : FmpFile} {base json : Str} {ls : List Line} {r : Panic} : compileBurn p text = .ok g →
      name = base ++ t!".burn" → Shows json (combine g base) → AllTested ev p n noTesting (combine g base) ls →
      assemble p (combine g base) = .error r → e = .panic r →
      SeenUpTo ev p n inspectDir noTesting name text combine e
        (warningsOf p text ++ .inspected t!"inspect_output/test_compile" json :: ls.map .line)

/-- What an input file of the decompiler is tested with: the components of the input files so far, and the tests given with `-t`. -/
def testedWith (given files : List FmpFile) : FmpFile := { mergeFiles files with tests := given.flatMap (·.tests) }

/-- The files `[g₀], [g₀, g₁], …` of the input files so far. -/
def sofar (given files : List FmpFile) : List FmpFile := (List.range files.length).map fun i => testedWith given (files.take (i + 1))

/-- `header.log`, if wanted. -/
def headerSeen (printHeader : Bool) (buf : Bytes) : List Output := if printHeader then [.header buf] else []

/-- What is seen of an input file of the decompiler that contains `g` and is tested as `f`: the header, the JSON file, the tests with
their verdicts. -/
def SeenFile (ev : Calculator) (p : Profile) (n : Nat) (noTesting printHeader : Bool) (buf : Bytes) (g f : FmpFile) (es : List Output) :
    Prop :=
  ∃ json ls, Shows json g ∧ AllTested ev p n noTesting f ls ∧
    es = headerSeen printHeader buf ++ .inspected t!"inspect_output/test_decompile" json :: ls.map .line

/-- What is seen of an input file of the decompiler at which the program stops with `e`. -/
inductive SeenFileUpTo (ev : Calculator) (p : Profile) (n : Nat) (inspectDir noTesting printHeader : Bool) (buf : Bytes)
    (combine : FmpFile → FmpFile) (e : Stop) : List Output → Prop
  | reading : (∀ g, decompile p buf n ≠ .ok (some g)) →
      SeenFileUpTo ev p n inspectDir noTesting printHeader buf combine e (headerSeen printHeader buf)
  | saving {g : FmpFile} : decompile p buf n = .ok (some g) → inspectDir = false →
      SeenFileUpTo ev p n inspectDir noTesting printHeader buf combine e (headerSeen printHeader buf)
  | generating {g : FmpFile} {json : Str} : decompile p buf n = .ok (some g) → Shows json g → noTesting = false →
      (combine g).tests ≠ [] → Vm.generate (combine g) = .error e →
      SeenFileUpTo ev p n inspectDir noTesting printHeader buf combine e
        (headerSeen printHeader buf ++ [.inspected t!"inspect_output/test_decompile" json])
  | testing {g : FmpFile} {json : Str} {ls : List Line} : decompile p buf n = .ok (some g) → Shows json g →
      TestCrash ev p n noTesting (combine g) e ls →
      SeenFileUpTo ev p n inspectDir noTesting printHeader buf combine e
        (headerSeen printHeader buf ++ .inspected t!"inspect_output/test_decompile" json :: ls.map .line)

end BurnFm.Spec
