import Verif.Spec.CalcText

/-! How any text is cut into the words of a calculation, also one that is not as documented. -/

namespace BurnFm.Spec
variable [Rt]

/-- A character that does not end a name or number. White space other than blanks is among them. -/
def InName (c : Char) : Prop := c ≠ ' ' ∧ c ∉ specialChars

instance (c : Char) : Decidable (InName c) := inferInstanceAs (Decidable (_ ∧ _))

/-- `NameText w`: `w` can stand at the beginning of a name or number. White space is skipped before it, not in it. -/
def NameText (w : Str) : Prop := (∀ c, w.head? = some c → isSpace c = false) ∧ ∀ c ∈ w, InName c

/-- The number or name a text stands for; a text that begins with a digit must be a number. -/
inductive NameToken : Str → Tok → Prop
  | number {s : Str} {x : Rt.F} : parseF64 s = some x → NameToken s ⟨.numericLiteral, Rt.toText x⟩
  | name {c : Char} {s : Str} : parseF64 (c :: s) = none → isDigit c = false → NameToken (c :: s) ⟨.identifier, c :: s⟩

/-- A text in quotes, `s` with its quotes, is a word only if there is a letter or digit in it. -/
inductive QuotedTokens : Str → List Tok → Prop
  | kept {s : Str} : (∃ c ∈ s, Alnum c) → QuotedTokens s [⟨.string, s⟩]
  | dropped {s : Str} : (∀ c ∈ s, ¬ Alnum c) → QuotedTokens s []

/-- What a colon and the character after it become: two colons stay, anything else becomes three colons. -/
inductive Colons : Str → Str → Prop
  | two : Colons t!"::" t!"::"
  | other {x : Char} : x ≠ ':' → Colons [':', x] t!":::"

/-- The eight operators that are one character. -/
def symbols : List (Char × TokenType) :=
  [('(', .openParen), (')', .closeParen), ('+', .plus), (',', .comma), ('-', .minus), ('*', .multiply), ('/', .divide),
   ('&', .ampersand)]

/-- `Piece w ts r`: if a text begins with `w` and goes on with `r`, then `w` is read first, as the words `ts`. -/
inductive Piece : Str → List Tok → Str → Prop
  | blank {c : Char} {r : Str} : isSpace c = true → Piece [c] [] r
  | symbol {c : Char} {ty : TokenType} {r : Str} : (c, ty) ∈ symbols → Piece [c] [⟨ty, []⟩] r
  /-- a name or number, up to a blank, an operator, a quote or the end -/
  | name {w r : Str} {t : Tok} : w ≠ [] → NameText w → (∀ d, r.head? = some d → ¬ InName d ∧ d ≠ ':') → NameToken w t →
      Piece w [t] r
  | notEqual {r : Str} : Piece t!"!=" [⟨.neq, []⟩] r
  /-- an exclamation mark before anything else is skipped -/
  | exclamation {d : Char} {r : Str} : d ≠ '=' → Piece t!"!" [] (d :: r)
  /-- of `==` the first character is read as the operator -/
  | equal {r : Str} : Piece t!"=" [⟨.eq, []⟩] ('=' :: r)
  /-- and an equals sign before anything else is skipped, as is the second one of `==` -/
  | equalsSign {d : Char} {r : Str} : d ≠ '=' → Piece t!"=" [] (d :: r)
  | lessEqual {r : Str} : Piece t!"<" [⟨.ltq, []⟩] ('=' :: r)
  | less {d : Char} {r : Str} : d ≠ '=' → Piece t!"<" [⟨.lt, []⟩] (d :: r)
  | greaterEqual {r : Str} : Piece t!">" [⟨.gtq, []⟩] ('=' :: r)
  | greater {d : Char} {r : Str} : d ≠ '=' → Piece t!">" [⟨.gt, []⟩] (d :: r)
  | quoted {s r : Str} {ts : List Tok} : '"' ∉ s → QuotedTokens ('"' :: s ++ ['"']) ts → Piece ('"' :: s ++ ['"']) ts r
  /-- a quote that is not closed -/
  | quote {s : Str} {ts : List Tok} : '"' ∉ s → QuotedTokens ('"' :: s) ts → Piece ('"' :: s) ts []
  /-- after colons, one character of any kind and the letters and digits after it belong to the name -/
  | field {w cs cs' a r : Str} {c : Char} : NameText w → Colons cs cs' → (∀ d ∈ a, Alnum d) →
      (∀ d, r.head? = some d → ¬ Alnum d) → Piece (w ++ cs ++ c :: a) [⟨.identifier, w ++ cs' ++ c :: a⟩] r
  | fieldEnd {w cs cs' : Str} : NameText w → Colons cs cs' → Piece (w ++ cs) [⟨.identifier, w ++ cs'⟩] []
  | colonEnd {w : Str} : NameText w → Piece (w ++ t!":") [⟨.identifier, w ++ t!":::"⟩] []

/-- `CutInto s ts`: the text `s` is cut into the words `ts`. -/
inductive CutInto : Str → List Tok → Prop
  | nil : CutInto [] []
  | piece {w r : Str} {ts us : List Tok} : Piece w ts r → CutInto r us → CutInto (w ++ r) (ts ++ us)

/-- `NoWord s`: the text `s` begins with what is no word: one of `! = < >` as the last character, or a text that begins
with a digit and is not a number. -/
inductive NoWord : Str → Prop
  | last {c : Char} : c ∈ ['!', '=', '<', '>'] → NoWord [c]
  | number {c : Char} {w r : Str} : isDigit c = true → NameText (c :: w) → parseF64 (c :: w) = none →
      (∀ d, r.head? = some d → ¬ InName d ∧ d ≠ ':') → NoWord (c :: w ++ r)

/-- `Uncut s`: such a place is reached in the text `s`. -/
inductive Uncut : Str → Prop
  | here {s : Str} : NoWord s → Uncut s
  | piece {w r : Str} {ts : List Tok} : Piece w ts r → Uncut r → Uncut (w ++ r)

end BurnFm.Spec
