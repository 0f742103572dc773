import Verif.Spec.BurnScript

/-! How any text is cut into the tokens of the script language, also one that is not as documented. -/

namespace BurnFm.Spec

/-- What a word stands for. -/
inductive ScriptWord : Str → ScriptTok → Prop
  | keyword {w : Str} {ty : ScriptTokType} : (w, ty) ∈ keywords → ScriptWord w ⟨ty, []⟩
  | number {w : Str} : isFloatText w = true → ScriptWord w ⟨.numericLiteral, w⟩
  | name {w : Str} : w ∉ keywords.map (·.1) → isFloatText w = false → ScriptWord w ⟨.identifier, w⟩

/-- The characters that are tokens. -/
def scriptSymbols : List (Char × ScriptTokType) :=
  [('{', .openBracket), ('}', .closeBracket), (',', .comma), (';', .semiColon), ('+', .plus), ('-', .minus),
   ('*', .multiply), ('/', .divide), ('&', .ampersand)]

/-- The beginning of an argument that never ends: after no part with balanced parentheses there is a comma or a closing parenthesis. -/
def OpenArg (b : Str) : Prop := ∀ x c y, b = x ++ c :: y → Nested x → c ≠ ')' ∧ c ≠ ','

/-- `ScriptPiece w ts r`: if a text begins with `w` and goes on with `r`, then `w` is read first, as the tokens `ts`. -/
inductive ScriptPiece : Str → List ScriptTok → Str → Prop
  | blank {c : Char} {r : Str} : isSpace c = true → ScriptPiece [c] [] r
  | symbol {c : Char} {ty : ScriptTokType} {r : Str} : (c, ty) ∈ scriptSymbols → ScriptPiece [c] [⟨ty, []⟩] r
  | word {w r : Str} {d : Char} {t : ScriptTok} : w ≠ [] → (∀ c ∈ w, NameChar c) → ¬ NameChar d → ScriptWord w t →
      ScriptPiece w [t] (d :: r)
  /-- a word at the end of the text is lost -/
  | lastWord {w : Str} : w ≠ [] → (∀ c ∈ w, NameChar c) → ScriptPiece w [] []
  | notEqual {r : Str} : ScriptPiece t!"!=" [⟨.neq, []⟩] r
  /-- an exclamation mark before anything else is read as an equals sign -/
  | exclamation {d : Char} {r : Str} : d ≠ '=' → ScriptPiece t!"!" [⟨.assign, []⟩] (d :: r)
  | equal {r : Str} : ScriptPiece t!"==" [⟨.eq, []⟩] r
  | assign {d : Char} {r : Str} : d ≠ '=' → ScriptPiece t!"=" [⟨.assign, []⟩] (d :: r)
  | greaterEqual {r : Str} : ScriptPiece t!">=" [⟨.geq, []⟩] r
  /-- the character after a comparison sign is skipped, whatever it is -/
  | greater {d : Char} {r : Str} : d ≠ '=' → ScriptPiece ['>', d] [⟨.gt, []⟩] r
  | lessEqual {r : Str} : ScriptPiece t!"<=" [⟨.leq, []⟩] r
  | less {d : Char} {r : Str} : d ≠ '=' → ScriptPiece ['<', d] [⟨.lt, []⟩] r
  /-- arguments, up to the closing parenthesis -/
  | arguments {as : List Str} {r : Str} : as ≠ [] → (∀ a ∈ as, ArgBody a) →
      ScriptPiece ('(' :: commaSeparated as ++ [')']) ((asRead 0 as).map tArg) r
  /-- arguments without a closing parenthesis: the last one is lost -/
  | unclosed {as : List Str} {b : Str} : (∀ a ∈ as, ArgBody a) → OpenArg b →
      ScriptPiece ('(' :: as.flatMap (fun a => a ++ [',']) ++ b) ((asRead 0 as).map tArg) []

/-- `ScriptCut s ts`: the text `s` is cut into the tokens `ts`. -/
inductive ScriptCut : Str → List ScriptTok → Prop
  | nil : ScriptCut [] []
  | piece {w r : Str} {ts us : List ScriptTok} : ScriptPiece w ts r → ScriptCut r us → ScriptCut (w ++ r) (ts ++ us)

/-- `ScriptUncut s`: one of `! = < >` is reached as the last character of the text. -/
inductive ScriptUncut : Str → Prop
  | last {c : Char} : c ∈ ['!', '=', '<', '>'] → ScriptUncut [c]
  | piece {w r : Str} {ts : List ScriptTok} : ScriptPiece w ts r → ScriptUncut r → ScriptUncut (w ++ r)

end BurnFm.Spec
