import Verif.Spec.Burn

/-! How any text is cut into the tokens of the program language, also one that is not as documented. -/

namespace BurnFm.Spec

variable [Rt]

/-- A word that is nothing: it begins with a digit and is not a number. -/
def Unreadable (w : Str) : Prop := isFloatText w = false ∧ ∃ c r, w = c :: r ∧ isDigit c = true

/-- What a word stands for. -/
inductive ProgramWord : Str → BurnTok → Prop
  | keyword {w : Str} {ty : BurnTokType} : (w, ty) ∈ burnKeywords → ProgramWord w ⟨ty, []⟩
  | number {w : Str} {x : Rt.F} : parseF64 w = some x → ProgramWord w ⟨.numericLiteral, Rt.toText x⟩
  | name {w : Str} : w ∉ burnKeywords.map (·.1) → isFloatText w = false → (∀ c, w.head? = some c → isDigit c = false) →
      ProgramWord w ⟨.identifier, w⟩

/-- The tokens for a word, which may be empty. -/
inductive WordTokens : Str → List BurnTok → Prop
  | nothing : WordTokens [] []
  | word {w : Str} {t : BurnTok} : w ≠ [] → ProgramWord w t → WordTokens w [t]
  | dropped {w : Str} : Unreadable w → WordTokens w []

/-- `WordRun left x w`: the text `x` after `left` is gathered to the word `w`. A blank does not end a word that is nothing: what comes
after it is added to the word. -/
inductive WordRun (left : Str) : Str → Str → Prop
  | chars {u : Str} : (∀ c ∈ u, BurnChar c) → WordRun left u (left ++ u)
  | more {x w u : Str} {c : Char} : WordRun left x w → Unreadable w → isSpace c = true → (∀ c ∈ u, BurnChar c) →
      WordRun left (x ++ c :: u) (w ++ u)

/-- `ProgramMark n u ts left r`: after `n` tokens and perhaps a word, the text `u` before `r` is read as the tokens `ts`. Of `u` the
text `left` is not used up: it begins the next word. -/
inductive ProgramMark (n : Nat) : Str → List BurnTok → Str → Str → Prop
  | mark {c : Char} {ty : BurnTokType} {r : Str} : (c, ty) ∈ burnMarks → ProgramMark n [c] [⟨ty, []⟩] [] r
  | equal {r : Str} : ProgramMark n t!"==" [⟨.eComparison, []⟩] [] r
  | assign {d : Char} {r : Str} : d ≠ '=' → ProgramMark n t!"=" [⟨.assign, []⟩] [] (d :: r)
  /-- an equals sign at the end of the text is lost -/
  | lastEqual : ProgramMark n t!"=" [] [] []
  | paren {r : Str} : 2 ≤ n → ProgramMark n t!"(" [⟨.openParen, []⟩] [] r
  | block {q r : Str} : 1 ≤ n → ']' ∉ q →
      ProgramMark n ('[' :: q ++ [']']) [⟨.openSquare, []⟩, ⟨.script, q.dropWhile isSpace⟩, ⟨.closeSquare, []⟩] [] r
  /-- after the closing character there has to be another one -/
  | string {q r : Str} {d : Char} : '"' ∉ q → ProgramMark n ('"' :: q ++ ['"']) [⟨.string, q.dropWhile isSpace⟩] t!"\"" (d :: r)
  | calculation {q r : Str} {d : Char} : '}' ∉ q →
      ProgramMark n ('{' :: q ++ ['}']) [⟨.openCurly, []⟩, ⟨.calculation, q.dropWhile isSpace⟩] t!"}" (d :: r)
  /-- nothing but white space up to the end of the text -/
  | blankBlock {q : Str} : 1 ≤ n → (∀ c ∈ q, isSpace c = true) → ProgramMark n ('[' :: q) [⟨.openSquare, []⟩] [] []
  | blankString {q : Str} : (∀ c ∈ q, isSpace c = true) → ProgramMark n ('"' :: q) [] [] []
  | blankCalculation {q : Str} : (∀ c ∈ q, isSpace c = true) → ProgramMark n ('{' :: q) [⟨.openCurly, []⟩] [] []

/-- `NoMark p n s c`: after `n` tokens the text begins with something that crashes the program, built with the profile `p`. -/
inductive NoMark (p : Profile) (n : Nat) : Str → Panic → Prop
  | early {r : Str} : n = 0 → NoMark p n ('[' :: r) .unwrap
  | earlyParen {r : Str} : n < 2 → NoMark p n ('(' :: r) (match p with | .debug => .overflow | .release => .index)
  | openBlock {q : Str} : 1 ≤ n → ']' ∉ q → (∃ c ∈ q, isSpace c = false) → NoMark p n ('[' :: q) .unwrap
  | openString {q : Str} : '"' ∉ q → (∃ c ∈ q, isSpace c = false) → NoMark p n ('"' :: q) .unwrap
  | openCalculation {q : Str} : '}' ∉ q → (∃ c ∈ q, isSpace c = false) → NoMark p n ('{' :: q) .unwrap
  | lastString {q : Str} : '"' ∉ q → NoMark p n ('"' :: q ++ ['"']) .unwrap
  | lastCalculation {q : Str} : '}' ∉ q → NoMark p n ('{' :: q ++ ['}']) .unwrap

/-- `ProgramCut left n s ts`: after `n` tokens, with `left` not used up, the text `s` is cut into the tokens `ts`. -/
inductive ProgramCut : Str → Nat → Str → List BurnTok → Prop
  /-- a word at the end of the text is lost -/
  | ends {left x w : Str} {n : Nat} : WordRun left x w → ProgramCut left n x []
  | blank {left x w r : Str} {n : Nat} {c : Char} {ts us : List BurnTok} : WordRun left x w → isSpace c = true → ¬ Unreadable w →
      WordTokens w ts → ProgramCut [] (n + ts.length) r us → ProgramCut left n (x ++ c :: r) (ts ++ us)
  | mark {left left' x w u r : Str} {n : Nat} {ts vs us : List BurnTok} : WordRun left x w → WordTokens w ts →
      ProgramMark n u vs left' r → ProgramCut left' (n + ts.length + vs.length) r us →
      ProgramCut left n (x ++ u ++ r) (ts ++ vs ++ us)

/-- `ProgramUncut p left n s c`: cutting the text crashes. -/
inductive ProgramUncut (p : Profile) : Str → Nat → Str → Panic → Prop
  | here {left x w s : Str} {n : Nat} {c : Panic} : WordRun left x w → NoMark p n s c → ProgramUncut p left n (x ++ s) c
  | blank {left x w r : Str} {n : Nat} {c : Char} {ts : List BurnTok} {e : Panic} : WordRun left x w → isSpace c = true →
      ¬ Unreadable w → WordTokens w ts → ProgramUncut p [] (n + ts.length) r e → ProgramUncut p left n (x ++ c :: r) e
  | mark {left left' x w u r : Str} {n : Nat} {ts vs : List BurnTok} {e : Panic} : WordRun left x w → WordTokens w ts →
      ProgramMark n u vs left' r → ProgramUncut p left' (n + ts.length + vs.length) r e →
      ProgramUncut p left n (x ++ u ++ r) e

end BurnFm.Spec
