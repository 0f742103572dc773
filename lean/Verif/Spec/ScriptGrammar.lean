import Verif.Spec.ScriptCut

/-! Which scripts any tokens give, also those that are not as documented. -/

namespace BurnFm.Spec

/-- A block that is open. -/
inductive Block where
  | cond | loop
  deriving DecidableEq

/-- The instruction that ends a block. -/
def Block.ending : Block → Instruction
  | .cond => .endIf
  | .loop => .endLoop

/-- Whether the tokens go on with `else` or `elif`. -/
def GoesOn (ts : List ScriptTok) : Prop := ∃ t r, ts = t :: r ∧ (t.ty = .else ∨ t.ty = .elif)

/-- The tokens that mean something in the body of a script. -/
def Meaningful (t : ScriptTok) : Prop :=
  t.ty ∈ [.closeBracket, .loop, .if, .elif, .else] ∨ t.ty = .identifier ∧ (Instruction.fromStr t.value).isSome

/-- `ScriptPhrase st w steps st' r`: in the body of a script, with the open blocks `st`, innermost first, the tokens `w` before `r` give
the instructions `steps`, and afterwards the open blocks are `st'`. -/
inductive ScriptPhrase : List Block → List ScriptTok → List ScriptStep → List Block → List ScriptTok → Prop
  | step {st : List Block} {name : Str} {op : Instruction} {args : List Str} {e : ScriptTok} {r : List ScriptTok} :
      Instruction.fromStr name = some op → e.ty = .semiColon →
      ScriptPhrase st (tName name :: args.map tArg ++ [e]) [⟨op, 0, args⟩] st r
  | cond {st : List Block} {t e : ScriptTok} {args : List Str} {r : List ScriptTok} : t.ty = .if → e.ty = .openBracket →
      ScriptPhrase st (t :: args.map tArg ++ [e]) [⟨.if, 0, args⟩] (.cond :: st) r
  | elif {st : List Block} {t e : ScriptTok} {args : List Str} {r : List ScriptTok} : t.ty = .elif → e.ty = .openBracket →
      ScriptPhrase st (t :: args.map tArg ++ [e]) [⟨.elseIf, 0, args⟩] st r
  | else {st : List Block} {t e : ScriptTok} {r : List ScriptTok} : t.ty = .else → e.ty = .openBracket →
      ScriptPhrase st [t, e] [⟨.else, 0, []⟩] st r
  | loop {st : List Block} {t e : ScriptTok} {r : List ScriptTok} : t.ty = .loop → e.ty = .openBracket →
      ScriptPhrase st [t, e] [⟨.loop, 0, []⟩] (.loop :: st) r
  /-- a closing bracket ends the innermost block -/
  | close {b : Block} {st : List Block} {t : ScriptTok} {r : List ScriptTok} : t.ty = .closeBracket → ¬ GoesOn r →
      ScriptPhrase (b :: st) [t] [⟨b.ending, 0, []⟩] st r
  /-- unless `else` or `elif` is next -/
  | branch {b : Block} {st : List Block} {t : ScriptTok} {r : List ScriptTok} : t.ty = .closeBracket → GoesOn r →
      ScriptPhrase (b :: st) [t] [] (b :: st) r
  /-- any other token is skipped -/
  | skip {st : List Block} {t : ScriptTok} {r : List ScriptTok} : ¬ Meaningful t → ScriptPhrase st [t] [] st r

/-- `BodyEnds st w r`: with the open blocks `st`, the tokens `w` before `r` end the script. -/
inductive BodyEnds : List Block → List ScriptTok → List ScriptTok → Prop
  | close {t : ScriptTok} {r : List ScriptTok} : t.ty = .closeBracket → BodyEnds [] [t] r
  /-- a `loop` or `else` without an opening bracket ends the script, whatever is open -/
  | noBracket {st : List Block} {t u : ScriptTok} {r : List ScriptTok} : t.ty = .loop ∨ t.ty = .else → u.ty ≠ .openBracket →
      BodyEnds st [t, u] r
  /-- and so does the end of the tokens -/
  | noMore {st : List Block} : BodyEnds st [] []
  /-- also within a step or a condition, which is lost -/
  | within {st : List Block} {t : ScriptTok} {args : List Str} :
      t.ty = .identifier ∧ (Instruction.fromStr t.value).isSome ∨ t.ty = .if ∨ t.ty = .elif →
      BodyEnds st (t :: args.map tArg) []

/-- `BodyBreaks ts p`: the tokens begin with something that crashes the program. -/
inductive BodyBreaks : List ScriptTok → Panic → Prop
  | step {name : Str} {args : List Str} {e : ScriptTok} {r : List ScriptTok} : (Instruction.fromStr name).isSome →
      e.ty ≠ .argument → e.ty ≠ .semiColon → BodyBreaks (tName name :: args.map tArg ++ e :: r) .explicit
  | cond {t e : ScriptTok} {args : List Str} {r : List ScriptTok} : t.ty = .if ∨ t.ty = .elif →
      e.ty ≠ .argument → e.ty ≠ .openBracket → BodyBreaks (t :: args.map tArg ++ e :: r) .explicit
  | last {t : ScriptTok} : t.ty = .loop ∨ t.ty = .else → BodyBreaks [t] .unwrap

/-- `ScriptBody st ts steps st' r`: a body that begins with `ts` consists of the instructions `steps`; `r` are the tokens after it, and
`st'` the blocks that are still open then. -/
inductive ScriptBody : List Block → List ScriptTok → List ScriptStep → List Block → List ScriptTok → Prop
  | ends {st : List Block} {w r : List ScriptTok} : BodyEnds st w r → ScriptBody st (w ++ r) [] st r
  | phrase {st st' st'' : List Block} {w r r' : List ScriptTok} {is js : List ScriptStep} : ScriptPhrase st w is st' r →
      ScriptBody st' r js st'' r' → ScriptBody st (w ++ r) (is ++ js) st'' r'

/-- `BrokenBody st ts p`: reading a body that begins with `ts` crashes. -/
inductive BrokenBody : List Block → List ScriptTok → Panic → Prop
  | here {st : List Block} {ts : List ScriptTok} {p : Panic} : BodyBreaks ts p → BrokenBody st ts p
  | phrase {st st' : List Block} {w r : List ScriptTok} {is : List ScriptStep} {p : Panic} : ScriptPhrase st w is st' r →
      BrokenBody st' r p → BrokenBody st (w ++ r) p

/-- What follows the word `define`: the name, if it is one, and the parameters, up to an opening bracket. -/
def defined (n : ScriptTok) (hs : List ScriptTok) (is : List ScriptStep) : FScript :=
  { name := if n.ty = .identifier then n.value else []
    arguments := (hs.filter (fun h => h.ty = .argument)).map (·.value)
    instructions := is }

/-- `ScriptsOf st ts scripts`: outside of scripts, with blocks `st` left open before, the tokens `ts` define `scripts`. -/
inductive ScriptsOf : List Block → List ScriptTok → List FScript → Prop
  | nil {st : List Block} : ScriptsOf st [] []
  | skip {st : List Block} {t : ScriptTok} {ts : List ScriptTok} {fs : List FScript} : t.ty ≠ .define → ScriptsOf st ts fs →
      ScriptsOf st (t :: ts) fs
  | define {st st' : List Block} {t n o : ScriptTok} {hs b r : List ScriptTok} {is : List ScriptStep} {fs : List FScript} :
      t.ty = .define → (∀ h ∈ hs, h.ty ≠ .openBracket) → o.ty = .openBracket → ScriptBody st b is st' r → ScriptsOf st' r fs →
      ScriptsOf st (t :: n :: hs ++ o :: b) (defined n hs is :: fs)
  /-- a definition without a body -/
  | noBody {st : List Block} {t n : ScriptTok} {hs : List ScriptTok} : t.ty = .define → (∀ h ∈ hs, h.ty ≠ .openBracket) →
      ScriptsOf st (t :: n :: hs) [defined n hs []]

/-- `ScriptsBreak st ts p`: reading the tokens crashes. -/
inductive ScriptsBreak : List Block → List ScriptTok → Panic → Prop
  | skip {st : List Block} {t : ScriptTok} {ts : List ScriptTok} {p : Panic} : t.ty ≠ .define → ScriptsBreak st ts p →
      ScriptsBreak st (t :: ts) p
  | last {st : List Block} {t : ScriptTok} : t.ty = .define → ScriptsBreak st [t] .unwrap
  | body {st : List Block} {t n o : ScriptTok} {hs b : List ScriptTok} {p : Panic} :
      t.ty = .define → (∀ h ∈ hs, h.ty ≠ .openBracket) → o.ty = .openBracket → BrokenBody st b p →
      ScriptsBreak st (t :: n :: hs ++ o :: b) p
  | later {st st' : List Block} {t n o : ScriptTok} {hs b r : List ScriptTok} {is : List ScriptStep} {p : Panic} :
      t.ty = .define → (∀ h ∈ hs, h.ty ≠ .openBracket) → o.ty = .openBracket → ScriptBody st b is st' r → ScriptsBreak st' r p →
      ScriptsBreak st (t :: n :: hs ++ o :: b) p

end BurnFm.Spec
