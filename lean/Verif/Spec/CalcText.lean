import Verif.Spec.CalcGrammar

/-! How calculation tokens are written. -/

namespace BurnFm.Spec

/-- Characters with a meaning of their own in calculations. -/
def specialChars : List Char := ['(', ')', '+', ',', '-', '*', '/', '&', '!', '=', '<', '>', '"', ':']

/-- A character of a name or number. -/
def WordChar (c : Char) : Prop := c ∉ specialChars ∧ isSpace c = false

instance (c : Char) : Decidable (WordChar c) := inferInstanceAs (Decidable (_ ∧ _))

/-- A letter or digit: for ASCII the letters and digits, for other characters what the Unicode tables say. -/
def Alnum [Rt] (c : Char) : Prop := if c.toNat < 128 then c.isAlphanum = true else Rt.alnumHigh c = true

instance [Rt] (c : Char) : Decidable (Alnum c) := by unfold Alnum; infer_instance

/-- The operators and how they are written. -/
def operators : List (Str × TokenType) :=
  [(t!"(", .openParen), (t!")", .closeParen), (t!"+", .plus), (t!",", .comma), (t!"-", .minus), (t!"*", .multiply),
   (t!"/", .divide), (t!"&", .ampersand), (t!"!=", .neq), (t!"==", .eq), (t!"<", .lt), (t!"<=", .ltq), (t!">", .gt),
   (t!">=", .gtq)]

/-- `Word s t`: the text `s` is one way to write the token `t`. -/
inductive Word [Rt] : Str → Tok → Prop
  | operator {s : Str} {ty : TokenType} : (s, ty) ∈ operators → Word s (sym ty)
  /-- a number without sign -/
  | number {s : Str} {x : Rt.F} : parseF64 s = some x → '+' ∉ s → '-' ∉ s → Word s ⟨.numericLiteral, Rt.toText x⟩
  /-- a name: it does not begin with a digit and is not a number (such as `inf`) -/
  | name {c : Char} {s : Str} : (∀ d ∈ c :: s, WordChar d) → isDigit c = false → parseF64 (c :: s) = none →
      Word (c :: s) ⟨.identifier, c :: s⟩
  /-- a field of an occurrence -/
  | field {t f : Str} : t ≠ [] → f ≠ [] → (∀ d ∈ t, WordChar d) → (∀ d ∈ f, Alnum d) →
      Word (t ++ t!"::" ++ f) ⟨.identifier, t ++ t!"::" ++ f⟩
  /-- a string with at least one letter or digit -/
  | string {s : Str} : '"' ∉ s → (∃ c ∈ s, Alnum c) →
      Word ('"' :: s ++ ['"']) ⟨.string, '"' :: s ++ ['"']⟩

/-- Words with single spaces between them. -/
def spaced : List Str → Str
  | [] => []
  | [w] => w
  | w :: ws => w ++ ' ' :: spaced ws

/-- The comparison operators after which the lexer looks for one more character. -/
def openEnded : List TokenType := [.eq, .lt, .ltq, .gt, .gtq]

end BurnFm.Spec
