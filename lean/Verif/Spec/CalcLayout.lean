import Verif.Spec.CalcText

/-! Calculations with white space between their words, or without. -/

namespace BurnFm.Spec
variable [Rt]

/-- `Glue s t rest`: after the word `s` for the token `t` the text can go on with `rest`.
A name or number must be followed by a space or an operator or a string, a field by something other than a letter or digit,
and `==`, `<`, `<=`, `>`, `>=` by something other than `=`. At the end of the text all words are allowed but these
operators. -/
def Glue (s : Str) (t : Tok) (rest : Str) : Prop :=
  match rest with
  | [] => t.ty ∉ openEnded
  | c :: _ => (t.ty ∈ openEnded → c ≠ '=') ∧
    (t.ty = .identifier ∨ t.ty = .numericLiteral →
      if ':' ∈ s then ¬ Alnum c else c = ' ' ∨ c ∈ specialChars ∧ c ≠ ':')

/-- `LaidOut ws s`: the text `s` consists of the words `ws` and white space before, between and after them. -/
inductive LaidOut : List (Str × Tok) → Str → Prop
  | nil : LaidOut [] []
  | space {c : Char} {ws : List (Str × Tok)} {s : Str} : isSpace c = true → LaidOut ws s → LaidOut ws (c :: s)
  | word {w : Str} {t : Tok} {ws : List (Str × Tok)} {s : Str} : Word w t → Glue w t s → LaidOut ws s →
      LaidOut ((w, t) :: ws) (w ++ s)

end BurnFm.Spec
