import Verif.Model.Vm

/-! Structured scripts: what they mean, and the instruction lists they stand for. -/

namespace BurnFm.Spec

mutual

/-- A structured script: a sequence of steps, if-chains, loops and loop exits. -/
inductive Prog where
  | nil
  /-- a step without control flow, then the rest -/
  | step (s : ScriptStep) (rest : Prog)
  /-- `if cond { body } …`, then the rest -/
  | cond (cond : Str) (body : Prog) (alt : Alt) (rest : Prog)
  /-- `loop { body }`, then the rest -/
  | loop (body : Prog) (rest : Prog)
  /-- `exit_loop_if(cond)`, then the rest -/
  | exitIf (cond : Str) (rest : Prog)

/-- What follows the body of an `if` or `elif`. -/
inductive Alt where
  | none
  | else (body : Prog)
  | elif (cond : Str) (body : Prog) (alt : Alt)

end

/-- How the execution of a part of a script ends. -/
inductive Outcome where
  /-- at its end -/
  | done
  /-- by leaving the innermost loop -/
  | exited
  /-- by a failed assertion -/
  | failed
  deriving DecidableEq

/-- Steps without control flow: not a call, not part of a block, and not a `go_to_record` with exit flag. -/
def Straight (s : ScriptStep) : Prop :=
  s.opcode ∉ [Instruction.performScript, .loop, .if, .elseIf, .else, .endIf, .endLoop, .exitLoopIf] ∧
    (s.opcode = .goToRecordRequestPage → s.switches.length ≤ 1)

instance (s : ScriptStep) : Decidable (Straight s) := inferInstanceAs (Decidable (_ ∧ (_ → _)))

/-- A `go_to_record` with exit flag. -/
def Leaves (s : ScriptStep) : Prop := s.opcode = .goToRecordRequestPage ∧ 1 < s.switches.length

instance (s : ScriptStep) : Decidable (Leaves s) := inferInstanceAs (Decidable (_ ∧ _))

/-- The values of an exit flag that mean no. -/
def flagOff : List Str := [t!"false", t!"", t!"0"]

/-- `go_to_record(target, flag)`: go to the record, and say whether to leave the loop: this is so if there was nowhere to
go and the flag is on. In find mode nothing happens. -/
def goOrLeave (ev : Calculator) (p : Profile) (d : Nat) (s : ScriptStep) (w : World) : Ev (World × Bool) := do
  let target ← w.eval ev d (← s.switch 0)
  let flag ← w.eval ev d (← s.switch 1)
  if w.findMode then pure (w, false)
  else do
    let before ← liftR w.db.currentOcc
    let db ← liftR (moveRecord p w.db target)
    let after ← liftR db.currentOcc
    pure ({ w with db := db }, decide (flag ∉ flagOff ∧ after.recordPtr = before.recordPtr))

/-- `CallsIn ev d s w name`: executed in `w`, the step `s` calls the script `name`. -/
def CallsIn (ev : Calculator) (d : Nat) (s : ScriptStep) (w : World) (name : Str) : Prop :=
  s.opcode = .performScript ∧ ∃ c v, s.switch 0 = .ok c ∧ w.eval ev d c = .ok v ∧ stripQuotes v = .ok name

mutual

/-- `Runs ev p env d prog w o w'`: executing `prog` as written, as the `d`-th active script, turns `w` into `w'` and
ends with outcome `o`. `env` are the scripts that can be called. The variables of a called script are those with number
`d + 1`: what C49 says about them is not repeated here. -/
inductive Runs (ev : Calculator) (p : Profile) (env : Str → Option Prog) : Nat → Prog → World → Outcome → World → Prop
  | nil {d : Nat} {w : World} : Runs ev p env d .nil w .done w
  | step {d : Nat} {s : ScriptStep} {rest : Prog} {w w' w'' : World} {o : Outcome} : Straight s →
      effect ev p d s w = .ok w' → w'.failed = false → Runs ev p env d rest w' o w'' →
      Runs ev p env d (.step s rest) w o w''
  | stepFail {d : Nat} {s : ScriptStep} {rest : Prog} {w w' : World} : Straight s → effect ev p d s w = .ok w' →
      w'.failed = true → Runs ev p env d (.step s rest) w .failed w'
  | call {d : Nat} {s : ScriptStep} {name : Str} {q rest : Prog} {w w' w'' : World} {o : Outcome} :
      CallsIn ev d s w name → env name = some q →
      Runs ev p env (d + 1) q { w with vars := w.vars ++ [[]] } .done w' → Runs ev p env d rest w' o w'' →
      Runs ev p env d (.step s rest) w o w''
  | callFail {d : Nat} {s : ScriptStep} {name : Str} {q rest : Prog} {w w' : World} :
      CallsIn ev d s w name → env name = some q →
      Runs ev p env (d + 1) q { w with vars := w.vars ++ [[]] } .failed w' → Runs ev p env d (.step s rest) w .failed w'
  | go {d : Nat} {s : ScriptStep} {rest : Prog} {w w' w'' : World} {o : Outcome} : Leaves s →
      goOrLeave ev p d s w = .ok (w', false) → Runs ev p env d rest w' o w'' → Runs ev p env d (.step s rest) w o w''
  | leave {d : Nat} {s : ScriptStep} {rest : Prog} {w w' : World} : Leaves s →
      goOrLeave ev p d s w = .ok (w', true) → Runs ev p env d (.step s rest) w .exited w'
  | cond {d : Nat} {c : Str} {body rest : Prog} {alt : Alt} {w w' w'' : World} {o : Outcome} :
      RunsAlt ev p env d (.elif c body alt) w .done w' → Runs ev p env d rest w' o w'' →
      Runs ev p env d (.cond c body alt rest) w o w''
  | condStop {d : Nat} {c : Str} {body rest : Prog} {alt : Alt} {w w' : World} {o : Outcome} :
      RunsAlt ev p env d (.elif c body alt) w o w' → o ≠ .done → Runs ev p env d (.cond c body alt rest) w o w'
  | loopAgain {d : Nat} {body rest : Prog} {w w' w'' : World} {o : Outcome} : Runs ev p env d body w .done w' →
      Runs ev p env d (.loop body rest) w' o w'' → Runs ev p env d (.loop body rest) w o w''
  | loopExit {d : Nat} {body rest : Prog} {w w' w'' : World} {o : Outcome} : Runs ev p env d body w .exited w' →
      Runs ev p env d rest w' o w'' → Runs ev p env d (.loop body rest) w o w''
  | loopFail {d : Nat} {body rest : Prog} {w w' : World} : Runs ev p env d body w .failed w' →
      Runs ev p env d (.loop body rest) w .failed w'
  | exitTrue {d : Nat} {c : Str} {rest : Prog} {w : World} : w.eval ev d c = .ok t!"true" →
      Runs ev p env d (.exitIf c rest) w .exited w
  | exitFalse {d : Nat} {c v : Str} {rest : Prog} {w w' : World} {o : Outcome} : w.eval ev d c = .ok v → v ≠ t!"true" →
      Runs ev p env d rest w o w' → Runs ev p env d (.exitIf c rest) w o w'

/-- `RunsAlt ev p env d alt w o w'`: executing the first branch of `alt` whose condition holds, or its `else` branch. -/
inductive RunsAlt (ev : Calculator) (p : Profile) (env : Str → Option Prog) : Nat → Alt → World → Outcome → World → Prop
  | none {d : Nat} {w : World} : RunsAlt ev p env d .none w .done w
  | else {d : Nat} {body : Prog} {w w' : World} {o : Outcome} : Runs ev p env d body w o w' →
      RunsAlt ev p env d (.else body) w o w'
  | true {d : Nat} {c : Str} {body : Prog} {alt : Alt} {w w' : World} {o : Outcome} : w.eval ev d c = .ok t!"true" →
      Runs ev p env d body w o w' → RunsAlt ev p env d (.elif c body alt) w o w'
  | false {d : Nat} {c v : Str} {body : Prog} {alt : Alt} {w w' : World} {o : Outcome} : w.eval ev d c = .ok v →
      v ≠ t!"true" → RunsAlt ev p env d alt w o w' → RunsAlt ev p env d (.elif c body alt) w o w'

end

/-- `RunsTests ev p env qs w vs`: executing the scripts of the tests as written, one after the other, each with its own
variables, starting in `w`, gives the verdicts `vs`. After a test has failed the rest are reported as failed: what C48 says
about this is not repeated here. -/
inductive RunsTests (ev : Calculator) (p : Profile) (env : Str → Option Prog) : List Prog → World → List Bool → Prop
  | nil {w : World} : RunsTests ev p env [] w []
  | pass {q : Prog} {qs : List Prog} {w w' : World} {vs : List Bool} :
      Runs ev p env 1 q { w with vars := w.vars ++ [[]] } .done w' → RunsTests ev p env qs w' vs →
      RunsTests ev p env (q :: qs) w (true :: vs)
  | fail {q : Prog} {qs : List Prog} {w w' : World} : Runs ev p env 1 q { w with vars := w.vars ++ [[]] } .failed w' →
      RunsTests ev p env (q :: qs) w (false :: qs.map (fun _ => false))

/-- An instruction with its arguments, at index 0: the interpreter does not look at the index. -/
def instr (o : Instruction) (args : List Str) : ScriptStep := ⟨o, 0, args⟩

mutual

/-- The instruction list of a structured script. -/
def Prog.code : Prog → List ScriptStep
  | .nil => []
  | .step s rest => s :: rest.code
  | .cond c body alt rest => instr .if [c] :: body.code ++ alt.code ++ instr .endIf [] :: rest.code
  | .loop body rest => instr .loop [] :: body.code ++ instr .endLoop [] :: rest.code
  | .exitIf c rest => instr .exitLoopIf [c] :: rest.code

/-- The instruction list of the branches after the first. -/
def Alt.code : Alt → List ScriptStep
  | .none => []
  | .else body => instr .else [] :: body.code
  | .elif c body alt => instr .elseIf [c] :: body.code ++ alt.code

end

mutual

/-- The structured scripts as a user may write them: made of steps without control flow and calls, with every
`exit_loop_if` and `go_to_record` with exit flag inside a loop. -/
def Prog.WellFormed (inLoop : Bool) : Prog → Prop
  | .nil => True
  | .step s rest =>
    (Straight s ∨ s.opcode = .performScript ∨ inLoop = true ∧ Leaves s) ∧ rest.WellFormed inLoop
  | .cond _ body alt rest => body.WellFormed inLoop ∧ alt.WellFormed inLoop ∧ rest.WellFormed inLoop
  | .loop body rest => body.WellFormed true ∧ rest.WellFormed inLoop
  | .exitIf _ rest => inLoop = true ∧ rest.WellFormed inLoop

def Alt.WellFormed (inLoop : Bool) : Alt → Prop
  | .none => True
  | .else body => body.WellFormed inLoop
  | .elif _ body alt => body.WellFormed inLoop ∧ alt.WellFormed inLoop

end

/-! ### The scripts that are executed as written

The interpreter has one flag that says whether a branch has been taken, one list of loop starts that is never
shortened, and finds the end of a block by looking for the next one. The following describes the scripts for which this is
enough. -/

/-- What is known about the flag "a branch has been taken": its value, or nothing. -/
abbrev Taken := Option Bool

/-- The flag may have the value `b`. -/
def Taken.Has (a : Taken) (b : Bool) : Prop := ∀ x, a = some x → b = x

/-- Whatever `a` allows is allowed by `a'`. -/
def Taken.Le (a a' : Taken) : Prop := a' = none ∨ a = a'

instance (a a' : Taken) : Decidable (Taken.Le a a') := inferInstanceAs (Decidable (_ ∨ _))

/-- Where a part of a script stands. -/
inductive Place where
  /-- at the top or directly in a loop at the top: if-chains are allowed -/
  | free
  /-- in an `else` branch: an if-chain is allowed as the last thing -/
  | inElse
  /-- in the last branch of a chain without `else`: an `if` without other branches is allowed as the last thing -/
  | inLast
  /-- in a branch that is followed by another one: no if-chain is allowed -/
  | inBranch
  deriving DecidableEq

/-- The place of the body of a loop. -/
def Place.body : Place → Place
  | .free => .free
  | _ => .inBranch

/-- Whether an if-chain with the branches `alt` after the first, and followed by `rest`, is allowed. -/
def Place.Allows (pl : Place) (alt : Alt) (rest : Prog) : Prop :=
  match pl with
  | .free => True
  | .inElse => rest = .nil
  | .inLast => rest = .nil ∧ alt = .none
  | .inBranch => False

/-- The scripts that the step `s` can call. -/
def Calls (ev : Calculator) (s : ScriptStep) (name : Str) : Prop := ∃ d w, CallsIn ev d s w name

/-- The exit flag of the step `s` is always on. -/
def FlagOn (ev : Calculator) (s : ScriptStep) : Prop :=
  ∀ d c v, ∀ w : World, s.switch 1 = .ok c → w.eval ev d c = .ok v → v ∉ flagOff

mutual

/-- `Orderly ev ok loops exit pl a prog a'`: the part `prog` of a script is executed as written if before it the flag is
as `a` says, and then it is as `a'` says afterwards. `loops` says whether loops are allowed, `exit` whether the part is in
a loop, and then what is known about the flag after the loop has been left. `ok loops a a' name` says the same about
scripts that are called.

* An if-chain with more than one branch needs the flag to be off.
* A branch that is followed by another one must leave the flag on.
* Loops are not nested, and a script called in a loop has no loop. -/
inductive Orderly (ev : Calculator) (ok : Bool → Taken → Taken → Str → Prop) :
    Bool → Option Taken → Place → Taken → Prog → Taken → Prop
  | nil {l : Bool} {e : Option Taken} {pl : Place} {a a' : Taken} : a.Le a' → Orderly ev ok l e pl a .nil a'
  | step {l : Bool} {e : Option Taken} {pl : Place} {a a' : Taken} {s : ScriptStep} {rest : Prog} : Straight s →
      Orderly ev ok l e pl a rest a' → Orderly ev ok l e pl a (.step s rest) a'
  | call {l : Bool} {e : Option Taken} {pl : Place} {a m a' : Taken} {s : ScriptStep} {rest : Prog} :
      s.opcode = .performScript → (∀ name, Calls ev s name → ok l a m name) → Orderly ev ok l e pl m rest a' →
      Orderly ev ok l e pl a (.step s rest) a'
  | leave {l : Bool} {x : Taken} {pl : Place} {a a' : Taken} {s : ScriptStep} {rest : Prog} : Leaves s → FlagOn ev s →
      a.Le x → Orderly ev ok l (some x) pl a rest a' → Orderly ev ok l (some x) pl a (.step s rest) a'
  | exitIf {l : Bool} {x : Taken} {pl : Place} {a a' : Taken} {c : Str} {rest : Prog} : a.Le x →
      Orderly ev ok l (some x) pl a rest a' → Orderly ev ok l (some x) pl a (.exitIf c rest) a'
  | loop {e : Option Taken} {pl : Place} {a x y a' : Taken} {body rest : Prog} : a.Le x →
      Orderly ev ok false (some y) pl.body x body x → Orderly ev ok true e pl y rest a' →
      Orderly ev ok true e pl a (.loop body rest) a'
  | cond {l : Bool} {e : Option Taken} {pl : Place} {a a' : Taken} {c : Str} {body rest : Prog} {alt : Alt} :
      pl.Allows alt rest → (alt ≠ .none → a = some false) → OrderlyAlt ev ok l e (.elif c body alt) →
      Orderly ev ok l e pl (some false) rest a' → Orderly ev ok l e pl a (.cond c body alt rest) a'

/-- The same for the branches of an if-chain. -/
inductive OrderlyAlt (ev : Calculator) (ok : Bool → Taken → Taken → Str → Prop) : Bool → Option Taken → Alt → Prop
  | none {l : Bool} {e : Option Taken} : OrderlyAlt ev ok l e .none
  | else {l : Bool} {e : Option Taken} {body : Prog} {t : Taken} : Orderly ev ok l e .inElse (some false) body t →
      OrderlyAlt ev ok l e (.else body)
  | last {l : Bool} {e : Option Taken} {c : Str} {body : Prog} {t : Taken} :
      Orderly ev ok l e .inLast (some true) body t → OrderlyAlt ev ok l e (.elif c body .none)
  | elif {l : Bool} {e : Option Taken} {c : Str} {body : Prog} {alt : Alt} : alt ≠ .none →
      Orderly ev ok l e .inBranch (some true) body (some true) → OrderlyAlt ev ok l e alt →
      OrderlyAlt ev ok l e (.elif c body alt)

end

/-- What `Orderly` assumes about the scripts that are called: they exist and are orderly themselves. -/
def OrderlyScripts (ev : Calculator) (env : Str → Option Prog) (ok : Bool → Taken → Taken → Str → Prop) : Prop :=
  ∀ l a a' name, ok l a a' name → ∃ q, env name = some q ∧ Orderly ev ok l none .free a q a'

/-- The scripts of a file are those of `env`: of several with the same name the first one counts. -/
def Linked (scripts : HMap FScript) (env : Str → Option Prog) : Prop :=
  ∀ name q, env name = some q → ∃ e, scripts.find? (fun e => e.2.name == name) = some e ∧ e.2.instructions = q.code

/-- Execute the steps of a body in order, up to a failed assertion. -/
def runBody (ev : Calculator) (p : Profile) (d : Nat) : List ScriptStep → World → Ev World
  | [], w => .ok w
  | s :: ss, w => do
    let w' ← effect ev p d s w
    if w'.failed then .ok w' else runBody ev p d ss w'

/-- The instructions of `if c1 { b1 } elif c2 { b2 } … else { e }`. -/
def chainCode (c : Str) (b : List ScriptStep) (more : List (Str × List ScriptStep)) (els : Option (List ScriptStep)) :
    List ScriptStep :=
  instr .if [c] :: b ++ more.flatMap (fun x => instr .elseIf [x.1] :: x.2) ++
    (match els with | some e => instr .else [] :: e | none => []) ++ [instr .endIf []]

/-- `Chosen ev w d bs els b`: of the branches `bs` and the `else` branch, `b` is the first one whose condition holds. -/
inductive Chosen (ev : Calculator) (w : World) (d : Nat) :
    List (Str × List ScriptStep) → Option (List ScriptStep) → List ScriptStep → Prop
  | here {c : Str} {b : List ScriptStep} {bs : List (Str × List ScriptStep)} {els : Option (List ScriptStep)} :
      w.eval ev d c = .ok t!"true" → Chosen ev w d ((c, b) :: bs) els b
  | later {c v : Str} {b b' : List ScriptStep} {bs : List (Str × List ScriptStep)} {els : Option (List ScriptStep)} :
      w.eval ev d c = .ok v → v ≠ t!"true" → Chosen ev w d bs els b' → Chosen ev w d ((c, b) :: bs) els b'
  | els {e : List ScriptStep} : Chosen ev w d [] (some e) e
  | none : Chosen ev w d [] none []

/-- The instructions of `loop { b1 exit_loop_if(c) b2 }`. -/
def loopCode (b1 : List ScriptStep) (c : Str) (b2 : List ScriptStep) : List ScriptStep :=
  instr .loop [] :: b1 ++ instr .exitLoopIf [c] :: b2 ++ [instr .endLoop []]

/-- `Iterates ev p d b1 c b2 k w w'`: in `w` the loop `loop { b1 exit_loop_if(c) b2 }` completes `k` rounds and is left
in the next one, with `w'`. -/
inductive Iterates (ev : Calculator) (p : Profile) (d : Nat) (b1 : List ScriptStep) (c : Str) (b2 : List ScriptStep) :
    Nat → World → World → Prop
  | exit {w w' : World} : runBody ev p d b1 w = .ok w' → w'.failed = false → w'.eval ev d c = .ok t!"true" →
      Iterates ev p d b1 c b2 0 w w'
  | again {k : Nat} {v : Str} {w w1 w2 w' : World} : runBody ev p d b1 w = .ok w1 → w1.failed = false →
      w1.eval ev d c = .ok v → v ≠ t!"true" → runBody ev p d b2 w1 = .ok w2 → w2.failed = false →
      Iterates ev p d b1 c b2 k w2 w' → Iterates ev p d b1 c b2 (k + 1) w w'

end BurnFm.Spec
