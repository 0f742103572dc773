import Verif.Model.Main

/-! What is needed to run the unit tests of the repository in the model by the kernel. They are checks of the transcription, not
proofs of properties: where the original test asserts something, the model must give the same answer. -/

namespace BurnFm.Checks

/-- Exact decimal arithmetic, which agrees with `f64` on the numbers of the tests. -/
def ratOfText (s : Str) : Rat :=
  let neg := s.head? = some '-'
  let t := if neg then s.tail else s
  let whole := t.takeWhile (· != '.')
  let frac := (t.dropWhile (· != '.')).tail
  let v : Rat := mkRat (digitsVal (whole ++ frac)) (10 ^ frac.length)
  if neg then -v else v

/-- With up to two digits after the point. -/
def ratText (x : Rat) : Str :=
  let n := (x * 100).num.natAbs
  let sign := if x.num < 0 then ['-'] else []
  let w := Nat.toDigits 10 (n / 100)
  sign ++ if n % 100 = 0 then w else if n % 10 = 0 then w ++ '.' :: Nat.toDigits 10 (n % 100 / 10) else w ++ '.' :: Nat.toDigits 10 (n % 100)

@[reducible] def ratRt : Rt where
  F := Rat
  ofText := ratOfText
  toText := ratText
  add := (· + ·)
  sub := (· - ·)
  mul := (· * ·)
  div := (· / ·)
  cmp := fun x y => some (if x < y then .lt else if x = y then .eq else .gt)
  absText := id
  acosText := id
  alnumHigh := fun _ => false

attribute [scoped instance] ratRt

def calculator : Calculator := fun env t => evalCalc env 100 t

/-- What the tests of `src/testing/test.rs` do: compile a text, take its tests into a file, run them, and look at the state. -/
def runBurn (file : FmpFile) (code : Str) (n : Nat) : Ev (List Bool × Vm) := do
  let t ← liftR (compileBurn .debug code)
  let vm ← Vm.generate file
  vm.runTests calculator .debug file.scripts n t.tests

def verdicts (r : Ev (List Bool × Vm)) : Option (List Bool) := match r with
  | .ok (vs, _) => some vs
  | .error _ => none

/-- The part of blank.fmp12 that the test uses, with links that agree with the numbers of the occurrences. -/
def blankFile : FmpFile :=
  { tables := [(1, { name := t!"blank", fields := [(1, { name := t!"PrimaryKey" })] }),
                (2, { name := t!"second_table", fields := [(1, { name := t!"PrimaryKey" }), (2, { name := t!"add" })] })],
     tableOccurrences := [(1, { name := t!"blank", tableActual := 1 }), (2, { name := t!"blank 2", tableActual := 1 }),
                          (3, { name := t!"second_table", tableActual := 2 })],
     relationships := [(1, { table1 := 1, table2 := 2, field1 := 1, field2 := 1 }), (2, { table1 := 2, table2 := 3, field1 := 1, field2 := 1 })],
     layouts := [(1, { name := t!"testing", tableOccurrence := 1 }), (2, { name := t!"second_table", tableOccurrence := 3 })] }

end BurnFm.Checks
