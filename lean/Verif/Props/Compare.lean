import Verif.Proofs.Utf8Order
import Verif.Proofs.Related
import Verif.Props.CalcLex
import Verif.Spec.TextOrder

/-! Property C97: comparisons of texts. -/

namespace BurnFm.Props
open Spec

theorem textBytes_utf8 (s : Str) : textBytes s = utf8 s := rfl

/-- Different texts have different bytes. -/
theorem textBytes_injective (a b : Str) (h : textBytes a = textBytes b) : a = b := by
  have h1 : strLe a b = true := (strLe_utf8 a b).mpr (by rw [← textBytes_utf8, h, textBytes_utf8]; exact List.le_refl _)
  have h2 : strLe b a = true := (strLe_utf8 b a).mpr (by rw [← textBytes_utf8 a, h, textBytes_utf8]; exact List.le_refl _)
  rcases (strLe_iff a b).mp h1 with h1 | h1
  · rcases (strLe_iff b a).mp h2 with h2 | h2
    · exact absurd h2 (List.lt_asymm h1)
    · exact h2.symm
  · exact h1

/-- C97: a comparison gives "true" exactly when the values of its sides, as texts, stand in the relation its
operator is written for, in the order of their bytes, and "false" otherwise. -/
theorem comparison_by_bytes [Rt] (env : CalcEnv) (fuel : Nat) (l r : Node Rt.F) (op : TokenType)
    (hop : isComparison op = true) (a b : Str) (hl : evalNode env fuel l = .ok a) (hr : evalNode env fuel r = .ok b) :
    (TextRel op a b → evalNode env fuel (.comparison l op r) = .ok t!"true") ∧
    (¬ TextRel op a b → evalNode env fuel (.comparison l op r) = .ok t!"false") := by
  rw [evalNode, if_pos hop, hl, ev_ok_bind, hr, ev_ok_bind]
  have hab := strLe_utf8 a b
  have hba := strLe_utf8 b a
  cases op <;> simp [isComparison] at hop <;> simp only [TextRel, compareTexts, textBytes_utf8]
  · by_cases h : a = b <;> simp [h, boolText, pure, Except.pure]
  · by_cases h : a = b <;> simp [h, boolText, pure, Except.pure]
  all_goals first
    | (rw [← List.not_le]; rw [← hab]; cases strLe a b <;> simp [boolText, pure, Except.pure])
    | (rw [← List.not_le]; rw [← hba]; cases strLe b a <;> simp [boolText, pure, Except.pure])
    | (rw [← hab]; cases strLe a b <;> simp [boolText, pure, Except.pure])
    | (rw [← hba]; cases strLe b a <;> simp [boolText, pure, Except.pure])

/-- C97: of `x < y`, `x == y` and `x > y` exactly one is "true" and the other two are "false". -/
theorem comparison_trichotomy [Rt] (env : CalcEnv) (fuel : Nat) (l r : Node Rt.F) (a b : Str)
    (hl : evalNode env fuel l = .ok a) (hr : evalNode env fuel r = .ok b) :
    ∃ op ∈ [TokenType.lt, .eq, .gt], evalNode env fuel (.comparison l op r) = .ok t!"true" ∧
      ∀ op' ∈ [TokenType.lt, .eq, .gt], op' ≠ op → evalNode env fuel (.comparison l op' r) = .ok t!"false" := by
  have key := fun op hop => comparison_by_bytes env fuel l r op hop a b hl hr
  have htri : textBytes a < textBytes b ∨ textBytes a = textBytes b ∨ textBytes b < textBytes a := by
    by_cases h1 : textBytes a < textBytes b
    · exact .inl h1
    · by_cases h2 : textBytes b < textBytes a
      · exact .inr (.inr h2)
      · exact .inr (.inl (List.le_antisymm (List.not_lt.mp h2) (List.not_lt.mp h1)))
  rcases htri with h | h | h
  · refine ⟨.lt, by simp, (key .lt rfl).1 h, ?_⟩
    intro op' hop' hne
    simp at hop'
    rcases hop' with rfl | rfl | rfl
    · exact absurd rfl hne
    · refine (key .eq rfl).2 ?_
      rintro rfl
      exact List.lt_irrefl _ h
    · exact (key .gt rfl).2 (List.lt_asymm h)
  · have h := textBytes_injective a b h
    refine ⟨.eq, by simp, (key .eq rfl).1 h, ?_⟩
    subst h
    intro op' hop' hne
    simp at hop'
    rcases hop' with rfl | rfl | rfl
    · exact (key .lt rfl).2 (List.lt_irrefl _)
    · exact absurd rfl hne
    · exact (key .gt rfl).2 (List.lt_irrefl _)
  · refine ⟨.gt, by simp, (key .gt rfl).1 h, ?_⟩
    intro op' hop' hne
    simp at hop'
    rcases hop' with rfl | rfl | rfl
    · exact (key .lt rfl).2 (List.lt_asymm h)
    · refine (key .eq rfl).2 ?_
      rintro rfl
      exact List.lt_irrefl _ h
    · exact absurd rfl hne

/-- A comparison that is "true" holds of the values. -/
theorem comparison_true [Rt] {env : CalcEnv} {fuel : Nat} {l r : Node Rt.F} {op : TokenType}
    (hop : isComparison op = true) {a b : Str} (hl : evalNode env fuel l = .ok a) (hr : evalNode env fuel r = .ok b)
    (h : evalNode env fuel (.comparison l op r) = .ok t!"true") : TextRel op a b := by
  refine Classical.byContradiction fun hn => ?_
  rw [(comparison_by_bytes env fuel l r op hop a b hl hr).2 hn] at h
  cases h

/-- C97: if `x < y` and `y < z` are "true", so is `x < z`; the same for the five other operators but `!=`. -/
theorem comparison_transitive [Rt] (env : CalcEnv) (fuel : Nat) (l m r : Node Rt.F) (op : TokenType)
    (hop : op ∈ [TokenType.eq, .lt, .ltq, .gt, .gtq]) (a b c : Str)
    (hl : evalNode env fuel l = .ok a) (hm : evalNode env fuel m = .ok b) (hr : evalNode env fuel r = .ok c)
    (h1 : evalNode env fuel (.comparison l op m) = .ok t!"true")
    (h2 : evalNode env fuel (.comparison m op r) = .ok t!"true") :
    evalNode env fuel (.comparison l op r) = .ok t!"true" := by
  have hop' : isComparison op = true := by simp at hop; rcases hop with rfl | rfl | rfl | rfl | rfl <;> rfl
  have h1 := comparison_true hop' hl hm h1
  have h2 := comparison_true hop' hm hr h2
  refine (comparison_by_bytes env fuel l r op hop' a c hl hr).1 ?_
  simp at hop
  rcases hop with rfl | rfl | rfl | rfl | rfl
  · exact Eq.trans h1 h2
  · exact List.lt_trans h1 h2
  · exact List.le_trans h1 h2
  · exact List.lt_trans h2 h1
  · exact List.le_trans h2 h1

/-- C97: `x <= y` and `x > y` are never both "true" nor both "false", and so for the other opposites. -/
theorem comparison_opposites [Rt] (env : CalcEnv) (fuel : Nat) (l r : Node Rt.F) (op op' : TokenType)
    (hop : (op, op') ∈ [(TokenType.eq, TokenType.neq), (.lt, .gtq), (.gt, .ltq)]) (a b : Str)
    (hl : evalNode env fuel l = .ok a) (hr : evalNode env fuel r = .ok b) :
    evalNode env fuel (.comparison l op r) = .ok t!"true" ↔
      evalNode env fuel (.comparison l op' r) = .ok t!"false" := by
  have h1 : isComparison op = true := by simp at hop; rcases hop with ⟨rfl, rfl⟩ | ⟨rfl, rfl⟩ | ⟨rfl, rfl⟩ <;> rfl
  have h2 : isComparison op' = true := by simp at hop; rcases hop with ⟨rfl, rfl⟩ | ⟨rfl, rfl⟩ | ⟨rfl, rfl⟩ <;> rfl
  have k1 := comparison_by_bytes env fuel l r op h1 a b hl hr
  have k2 := comparison_by_bytes env fuel l r op' h2 a b hl hr
  have hx : TextRel op a b ↔ ¬ TextRel op' a b := by
    simp at hop
    rcases hop with ⟨rfl, rfl⟩ | ⟨rfl, rfl⟩ | ⟨rfl, rfl⟩ <;> simp [TextRel, List.not_le]
  constructor
  · intro h; exact k2.2 (hx.mp (comparison_true h1 hl hr h))
  · intro h
    refine k1.1 (hx.mpr fun hn => ?_)
    rw [k2.1 hn] at h
    cases h

/-- The comparison of two string literals is one of the texts followed by a quotation mark, since the values
keep their quotation marks. -/
theorem literal_order [Rt] (env : CalcEnv) (fuel : Nat) (s t : Str) :
    evalNode env fuel (.comparison (.stringLiteral ('"' :: s ++ ['"'])) .lt (.stringLiteral ('"' :: t ++ ['"'])) :
      Node Rt.F) = .ok t!"true" ↔ textBytes (s ++ ['"']) < textBytes (t ++ ['"']) := by
  have hq : ∀ u, textBytes ('"' :: u ++ ['"']) = 34 :: textBytes (u ++ ['"']) := fun u => rfl
  constructor
  · intro h
    have := comparison_true (op := .lt) rfl (a := '"' :: s ++ ['"']) (b := '"' :: t ++ ['"']) rfl rfl h
    simp only [TextRel, hq, List.cons_lt_cons_iff] at this
    rcases this with h | ⟨-, h⟩
    · exact absurd h (by decide)
    · exact h
  · intro h
    refine (comparison_by_bytes env fuel _ _ .lt rfl _ _ rfl rfl).1 ?_
    simp only [TextRel, hq, List.cons_lt_cons_iff]
    exact .inr ⟨trivial, h⟩

/-- A string is therefore not always less than a longer one beginning with it: followed by a space or an
exclamation mark, the longer one is less. -/
theorem literal_prefix_refuted [Rt] (env : CalcEnv) (fuel : Nat) (s t : Str) :
    evalNode env fuel (.comparison (.stringLiteral ('"' :: (s ++ ' ' :: t) ++ ['"'])) .lt
      (.stringLiteral ('"' :: s ++ ['"'])) : Node Rt.F) = .ok t!"true" := by
  rw [literal_order]
  have h : ∀ u v, textBytes (u ++ v) = textBytes u ++ textBytes v := fun u v => by simp [textBytes]
  rw [List.append_assoc, h s, h s]
  exact append_lt_append_left _ (List.Lex.rel (by decide))

section Example

attribute [local instance] toyRt

def exCmpEnv : CalcEnv := ⟨{}, 1, [[(t!"x", t!"\"pear\"")]]⟩

/-- `"Äpfel" > "pear"` for the value of a variable: capital and accented letters are ordered by their bytes. -/
example : evalNode exCmpEnv 9 (.comparison (.stringLiteral t!"\"Äpfel\"") .gt (.variable t!"x") : Node Rt.F) =
    .ok t!"true" :=
  (comparison_by_bytes exCmpEnv 9 _ _ .gt rfl t!"\"Äpfel\"" t!"\"pear\"" (by decide +kernel)
    (by decide +kernel)).1 (show textBytes _ < textBytes _ by decide +kernel)

example : evalNode exCmpEnv 9 (.comparison (.stringLiteral t!"\"Pear\"") .eq (.variable t!"x") : Node Rt.F) =
    .ok t!"false" :=
  (comparison_by_bytes exCmpEnv 9 _ _ .eq rfl t!"\"Pear\"" t!"\"pear\"" (by decide +kernel)
    (by decide +kernel)).2 (show ¬ (_ = _) by decide)

/-- `"a b" < "a"` -/
example : evalNode exCmpEnv 9 (.comparison (.stringLiteral t!"\"a b\"") .lt (.stringLiteral t!"\"a\"") : Node Rt.F) =
    .ok t!"true" := literal_prefix_refuted exCmpEnv 9 t!"a" t!"b"

/-- ... also when written as a calculation. -/
example : evalCalc exCmpEnv 60 t!"\"a b\" < \"a\"" = .ok t!"true" := by decide +kernel

example : evalNode exCmpEnv 9 (.comparison (.stringLiteral t!"\"a\"") .lt (.stringLiteral t!"\"c\"") : Node Rt.F) =
    .ok t!"true" :=
  comparison_transitive exCmpEnv 9 _ (.stringLiteral t!"\"b\"") _ .lt (by decide) _ _ _ rfl rfl rfl
    (by decide +kernel) (by decide +kernel)

end Example

end BurnFm.Props
