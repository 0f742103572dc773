import Verif.Spec.ProgramGrammar
import Verif.Model.ScriptWarnings

/-! Which warnings compiling any text prints, in order. -/

namespace BurnFm.Spec

/-- The warning about a token of a body that is skipped. -/
def skipped (t : ScriptTok) : List Warning :=
  match t.ty with
  | .openBracket => []
  | .identifier => [.invalidStep t.value]
  | _ => [.invalidScriptToken t]

/-- The warning about a token between the name of a script and its body. -/
def headed (t : ScriptTok) : List Warning := if t.ty ∈ [.argument, .comma, .openParen, .closeParen] then [] else [.invalidToken]

/-- `PhraseSays w ws`: the warnings about the tokens `w` of a phrase of a body. -/
inductive PhraseSays : List ScriptTok → List Warning → Prop
  | skipped {t : ScriptTok} : ¬ Meaningful t → PhraseSays [t] (skipped t)
  | read {t : ScriptTok} {w : List ScriptTok} : Meaningful t → PhraseSays (t :: w) []

/-- `EndSays w ws`: the warnings about the tokens `w` that end a body. -/
inductive EndSays : List ScriptTok → List Warning → Prop
  | noMore : EndSays [] []
  | noBracket {t u : ScriptTok} : t.ty = .loop ∨ t.ty = .else → EndSays [t, u] [.expectedBrace]
  | other {t : ScriptTok} {w : List ScriptTok} : t.ty ≠ .loop → t.ty ≠ .else → EndSays (t :: w) []

/-- `BodySays st ts ws x`: reading a body that begins with `ts`, with the open blocks `st`, prints `ws`. Afterwards `x` is left: the open
blocks and the tokens after the body, or nothing if it crashes. -/
inductive BodySays : List Block → List ScriptTok → List Warning → Option (List Block × List ScriptTok) → Prop
  | ends {st : List Block} {w r : List ScriptTok} {ws : List Warning} : BodyEnds st w r → EndSays w ws →
      BodySays st (w ++ r) ws (some (st, r))
  | breaks {st : List Block} {ts : List ScriptTok} {p : Panic} : BodyBreaks ts p → BodySays st ts [] none
  | phrase {st st' : List Block} {w r : List ScriptTok} {is : List ScriptStep} {ws ws' : List Warning}
      {x : Option (List Block × List ScriptTok)} : ScriptPhrase st w is st' r → PhraseSays w ws → BodySays st' r ws' x →
      BodySays st (w ++ r) (ws ++ ws') x

/-- `ScriptsSay st ts ws`: outside of scripts, with blocks `st` left open before, reading the tokens `ts` prints `ws`. -/
inductive ScriptsSay : List Block → List ScriptTok → List Warning → Prop
  | nil {st : List Block} : ScriptsSay st [] []
  | skip {st : List Block} {t : ScriptTok} {ts : List ScriptTok} {ws : List Warning} : t.ty ≠ .define → ScriptsSay st ts ws →
      ScriptsSay st (t :: ts) (.unrecognized :: ws)
  | last {st : List Block} {t : ScriptTok} : t.ty = .define → ScriptsSay st [t] []
  | noBody {st : List Block} {t n : ScriptTok} {hs : List ScriptTok} : t.ty = .define → (∀ h ∈ hs, h.ty ≠ .openBracket) →
      ScriptsSay st (t :: n :: hs) (hs.flatMap headed)
  | breaks {st : List Block} {t n o : ScriptTok} {hs b : List ScriptTok} {ws : List Warning} : t.ty = .define →
      (∀ h ∈ hs, h.ty ≠ .openBracket) → o.ty = .openBracket → BodySays st b ws none →
      ScriptsSay st (t :: n :: hs ++ o :: b) (hs.flatMap headed ++ ws)
  | define {st st' : List Block} {t n o : ScriptTok} {hs b r : List ScriptTok} {ws ws' : List Warning} : t.ty = .define →
      (∀ h ∈ hs, h.ty ≠ .openBracket) → o.ty = .openBracket → BodySays st b ws (some (st', r)) → ScriptsSay st' r ws' →
      ScriptsSay st (t :: n :: hs ++ o :: b) (hs.flatMap headed ++ ws ++ ws')

/-- `BlockSays text ws`: compiling the text of a block prints `ws`. A text that cannot be cut into tokens prints nothing. -/
inductive BlockSays : Str → List Warning → Prop
  | cut {text : Str} {ts : List ScriptTok} {ws : List Warning} : ScriptCut text ts → ScriptsSay [] ts ws → BlockSays text ws
  | uncut {text : Str} : ScriptUncut text → BlockSays text []

/-! ### Programs -/

/-- The tokens begin with a block of scripts, of the given text. -/
inductive StartsBlock : List BurnTok → Str → Prop
  | intro {t c o b : BurnTok} {r : List BurnTok} : t.ty = .script → c.ty = .colon → o.ty = .openSquare →
      StartsBlock (t :: c :: o :: b :: r) b.text

/-- `EntryBlocks e ts bs x`: the blocks of scripts that are compiled while the rest `ts` of the declaration `e` is read, and the tokens
after it, if reading it does not fail. -/
inductive EntryBlocks : Entry → List BurnTok → List Str → Option (List BurnTok) → Prop
  | ends {e : Entry} {w r : List BurnTok} : EntryEnds e w r → EntryBlocks e (w ++ r) [] (some r)
  | fails {e : Entry} {ts : List BurnTok} {f : Failure} : EntryFails e ts f → (∀ text, ¬ StartsBlock ts text) → EntryBlocks e ts [] none
  | failsAfter {e : Entry} {ts : List BurnTok} {f : Failure} {text : Str} : EntryFails e ts f → StartsBlock ts text →
      EntryBlocks e ts [text] none
  /-- a phrase of four tokens has a block -/
  | block {e e' : Entry} {t c o b : BurnTok} {r : List BurnTok} {bs : List Str} {x : Option (List BurnTok)} :
      EntryPhrase e [t, c, o, b] e' r → EntryBlocks e' r bs x → EntryBlocks e (t :: c :: o :: b :: r) (b.text :: bs) x
  /-- the others have none -/
  | phrase {e e' : Entry} {w r : List BurnTok} {bs : List Str} {x : Option (List BurnTok)} :
      EntryPhrase e w e' r → w.length < 4 → EntryBlocks e' r bs x → EntryBlocks e (w ++ r) bs x

/-- `ProgramBlocks ts bs`: the blocks of scripts that are compiled while the tokens `ts` are read, in order. Reading ends where it
fails. -/
inductive ProgramBlocks : List BurnTok → List Str → Prop
  | nil : ProgramBlocks [] []
  | entry {w b r : List BurnTok} {e : Entry} {bs bs' : List Str} : EntryStarts w e → EntryBlocks e b bs (some r) → ProgramBlocks r bs' →
      ProgramBlocks (w ++ b) (bs ++ bs')
  | brokenEntry {w b : List BurnTok} {e : Entry} {bs : List Str} : EntryStarts w e → EntryBlocks e b bs none → ProgramBlocks (w ++ b) bs
  | scripts {t c o b z : BurnTok} {r : List BurnTok} {fs : List FScript} {bs : List Str} : t.ty = .script → c.ty = .colon →
      o.ty = .openSquare → BlockOf b.text fs → z.ty = .closeSquare → ProgramBlocks r bs →
      ProgramBlocks (t :: c :: o :: b :: z :: r) (b.text :: bs)
  | brokenBlock {ts : List BurnTok} {text : Str} {p : Panic} : StartsBlock ts text → BlockBreaks text p → ProgramBlocks ts [text]
  | openBlock {t c o b : BurnTok} {r : List BurnTok} {f : Failure} : StartsBlock (t :: c :: o :: b :: r) b.text →
      Expected [some .closeSquare] r f → ProgramBlocks (t :: c :: o :: b :: r) [b.text]
  | nothing {ts : List BurnTok} : ts ≠ [] → (∀ w r e, ts = w ++ r → ¬ EntryStarts w e) → (∀ text, ¬ StartsBlock ts text) →
      ProgramBlocks ts []

/-- `ProgramSays ts ws`: reading the tokens `ts` of a program prints `ws`: the warnings of its blocks, in order. -/
inductive ProgramSays : List BurnTok → List Warning → Prop
  | intro {ts : List BurnTok} {bs : List Str} {ws : Str → List Warning} : ProgramBlocks ts bs → (∀ b ∈ bs, BlockSays b (ws b)) →
      ProgramSays ts (bs.flatMap ws)

end BurnFm.Spec
