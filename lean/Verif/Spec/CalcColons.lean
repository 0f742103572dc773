import Verif.Spec.CalcWords
import Verif.Model.CalcNotes

/-! Which colons of a calculation text are reported. -/

namespace BurnFm.Spec
variable [Rt]

/-- A piece of a text in which the first colon is not followed by a second one. In a text in quotes colons have no meaning. -/
def Stray (v : Str) : Prop := ∃ w a, v = w ++ ':' :: a ∧ NameText w ∧ a.head? ≠ some ':'

/-- `ColonReports s n`: while the text `s` is cut into words, or until something that is no word is reached, `n` colons are reported:
one for each piece with a stray colon. -/
inductive ColonReports : Str → Nat → Prop
  | nil : ColonReports [] 0
  | noWord {s : Str} : NoWord s → ColonReports s 0
  | stray {w r : Str} {ts : List Tok} {n : Nat} : Piece w ts r → Stray w → ColonReports r n → ColonReports (w ++ r) (n + 1)
  | other {w r : Str} {ts : List Tok} {n : Nat} : Piece w ts r → ¬ Stray w → ColonReports r n → ColonReports (w ++ r) n

end BurnFm.Spec
