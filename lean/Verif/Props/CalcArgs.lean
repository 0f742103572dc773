import Verif.Proofs.CalcArgs
import Verif.Props.CalcParser

/-! Property C40: how the parser reads the arguments of calls. -/

namespace BurnFm.Props
open Spec

/-- C40, what is true of it: several arguments are all kept if each of them is an arithmetic expression of its own and
only the first one (or a part at its beginning) is in parentheses: `f (a), b, c`. -/
theorem call_arguments_after_parenthesis [Rt] (name : Str) (hname : PlainName name) (args : List (List Tok × Node Rt.F))
    (hne : args ≠ []) (h : ∀ a ∈ args, Spells .expr a.1 a.2)
    (hp : (argTokens (args.map (·.1))).head? = some (sym .openParen)) (fuel : Nat)
    (hf : 10 * ((argTokens (args.map (·.1))).length + 1) + 10 ≤ fuel) :
    parseCalc fuel (⟨.identifier, name⟩ :: argTokens (args.map (·.1))) = .ok (.call name (args.map (·.2))) := by
  refine evals_within (call_all hname hne h hp) ?_ (by simp; omega)
  obtain ⟨i, t, hi, ht⟩ := argTokens_pos args hne h
  intro t' ht' hty
  rw [hi, show (⟨.identifier, name⟩ :: (i ++ [t]) : List Tok) = (⟨.identifier, name⟩ :: i) ++ [t] by simp,
    List.getLast?_append] at ht'
  simp at ht'
  subst ht'
  rcases ht with he | he | he | he <;> rw [he] at hty <;> cases hty

/-- C40 is false: if the second argument is an operand, an operator and another operand, `f(a, b op c)`, then `b` is
dropped and the operator is applied to the call: the calculation is `f(a) op c`. -/
theorem call_second_argument_operator [Rt] (name : Str) (hname : PlainName name) (ts : List Tok) (e : Node Rt.F)
    (h : Spells .cmp ts e) (b : Tok) (hb : b.ty ∈ [TokenType.identifier, .numericLiteral, .string])
    (op : TokenType) (l : Level) (hop : rightLevel op = some l) (ts' : List Tok) (e' : Node Rt.F) (h' : Spells l ts' e')
    (fuel : Nat) (hf : 10 * (ts.length + ts'.length + 6) + 10 ≤ fuel) :
    parseCalc fuel (⟨.identifier, name⟩ :: sym .openParen :: ts ++ sym .comma :: b :: sym op :: ts' ++ [sym .closeParen]) =
      .ok (combine op (.call name [e]) e') := by
  have hb' : EndTok b := by
    simp only [List.mem_cons, List.not_mem_nil, or_false] at hb
    rcases hb with h | h | h
    · exact .inl h
    · exact .inr (.inl h)
    · exact .inr (.inr (.inl h))
  have hs := call_skips hname h hb' (c := sym op) (post := ts' ++ [sym .closeParen])
  have hE : (⟨.identifier, name⟩ :: sym .openParen :: ts ++ sym .comma :: b :: sym op :: ts' ++ [sym .closeParen] : List Tok) =
      ([⟨.identifier, name⟩, sym .openParen] ++ ts ++ [sym .comma, b]) ++ sym op :: ts' ++ [sym .closeParen] := by simp
  have hE2 : [⟨.identifier, name⟩, sym .openParen] ++ ts ++ sym .comma :: b :: sym op :: (ts' ++ [sym .closeParen]) =
      ([⟨.identifier, name⟩, sym .openParen] ++ ts ++ [sym .comma, b]) ++ sym op :: ts' ++ [sym .closeParen] := by simp
  rw [hE2, show ts.length + 4 = ([⟨.identifier, name⟩, sym .openParen] ++ ts ++ [sym .comma, b]).length by simp] at hs
  rw [hE]
  refine evals_within (climb_op hop h' hs) ?_ (by simp; omega)
  intro t ht
  rw [List.getLast?_append] at ht
  simp at ht
  subst ht; simp [sym]

section Example
attribute [local instance] toyRt

/-- `Min (x), y, 1 + 2` keeps its three arguments. -/
example : (parseCalc 200 [⟨.identifier, t!"Min"⟩, sym .openParen, ⟨.identifier, t!"x"⟩, sym .closeParen, sym .comma,
    ⟨.identifier, t!"y"⟩, sym .comma, ⟨.identifier, t!"z"⟩] : Ev (Node Rt.F)) =
    .ok (.call t!"Min" [.variable t!"x", .variable t!"y", .variable t!"z"]) :=
  call_arguments_after_parenthesis _ (by decide)
    [([sym .openParen, ⟨.identifier, t!"x"⟩, sym .closeParen], .variable t!"x"), ([⟨.identifier, t!"y"⟩], .variable t!"y"),
      ([⟨.identifier, t!"z"⟩], .variable t!"z")] (by simp) (by
    intro a ha
    simp only [List.mem_cons, List.not_mem_nil, or_false] at ha
    rcases ha with rfl | rfl | rfl
    · exact .ofTerm (.ofFactor (.paren (ts := [⟨.identifier, t!"x"⟩]) (spells_factor (.variable (by decide)) _)))
    · exact spells_factor (.variable (by decide)) _
    · exact spells_factor (.variable (by decide)) _) rfl _ (by decide)

/-- `Min(x, y * z)` is parsed as `Min(x) * z`. -/
example : (parseCalc 200 [⟨.identifier, t!"Min"⟩, sym .openParen, ⟨.identifier, t!"x"⟩, sym .comma, ⟨.identifier, t!"y"⟩,
    sym .multiply, ⟨.identifier, t!"z"⟩, sym .closeParen] : Ev (Node Rt.F)) =
    .ok (.binary (.call t!"Min" [.variable t!"x"]) .multiply (.variable t!"z")) :=
  call_second_argument_operator _ (by decide) [⟨.identifier, t!"x"⟩] _ (spells_factor (.variable (by decide)) _)
    _ (by decide) .multiply .factor rfl [⟨.identifier, t!"z"⟩] _ (.variable (by decide)) _ (by decide)

end Example

end BurnFm.Props
