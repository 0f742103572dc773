import Verif.Model.Calc

/-! What comparing two texts should mean. Read this beside `Props/Compare.lean`. -/

namespace BurnFm.Spec

/-- The UTF-8 bytes of a text. -/
def textBytes (s : Str) : List UInt8 := s.flatMap String.utf8EncodeChar

/-- The relation a comparison operator stands for, on texts. Lists of bytes are ordered like words in a
dictionary. -/
def TextRel : TokenType → Str → Str → Prop
  | .eq, a, b => a = b
  | .neq, a, b => a ≠ b
  | .lt, a, b => textBytes a < textBytes b
  | .ltq, a, b => textBytes a ≤ textBytes b
  | .gt, a, b => textBytes b < textBytes a
  | .gtq, a, b => textBytes b ≤ textBytes a
  | _, _, _ => False

end BurnFm.Spec
