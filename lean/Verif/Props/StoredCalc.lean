import Verif.Proofs.StoredCalc
import Verif.Props.DecompileCalc
import Verif.Props.CalcLayout
import Verif.Props.Isolation
import Verif.Props.Functions

/-! Property C131: calculations stored in a database file. -/

namespace BurnFm.Props
open Spec

/-- C131 for numbers from 0 to 255, ASCII strings and variables, and the operators the decompiler knows: a stored calculation evaluates
like the expression it stands for. Missing, because it fails: other numbers, other operators, functions. -/
theorem stored_calculation_evaluates_partial [LawfulRt] (is : List CalcItem) (hr : ∀ i ∈ is, i.Readable) (e : Node Rt.F)
    (he : Spells .cmp (is.filterMap (·.token)) e) (env : CalcEnv) (fuel : Nat) (hf : 10 * is.length + 10 ≤ fuel) :
    ∃ text, decompileCalculation (is.flatMap (·.bytes fmStringEncrypt)) = .ok text ∧ evalCalc env fuel text = evalNode env fuel e := by
  refine ⟨_, calculation_items is fun i hi => readable_valid (hr i hi), ?_⟩
  obtain ⟨h1, -, h3, -⟩ := spells_chain he
  refine layout_evaluates (itemWords is) _ (items_laidOut is hr h1 h3) e (by rw [itemWords_tokens]; exact he) env fuel ?_
  have : (itemWords is).length ≤ is.length := List.length_filterMap_le _ _
  omega

/-- C131, arithmetic: the stored calculation evaluates to the text of the number it denotes. -/
theorem stored_arithmetic_partial [LawfulRt] (is : List CalcItem) (hr : ∀ i ∈ is, i.Readable) (l r : Node Rt.F) (op : TokenType)
    (he : Spells .cmp (is.filterMap (·.token)) (.binary l op r)) (env : CalcEnv) (x : Rt.F) (hx : Arith env (.binary l op r) x)
    (fuel : Nat) (hf : 10 * is.length + 10 ≤ fuel) :
    ∃ text, decompileCalculation (is.flatMap (·.bytes fmStringEncrypt)) = .ok text ∧ evalCalc env fuel text = .ok (Rt.toText x) := by
  obtain ⟨t, h1, h2⟩ := stored_calculation_evaluates_partial is hr _ he env fuel hf
  exact ⟨t, h1, h2.trans (arithmetic_value env l r op x hx fuel (by omega))⟩

/-- The text of a stored call, and its words. -/
theorem stored_call_words [LawfulRt] {f : CalcItem} {name : Str} (hfn : (f, name) ∈ storedFunctions) (is : List CalcItem)
    (hr : ∀ i ∈ is, i.Readable) (e : Node Rt.F) (he : Spells .cmp (is.filterMap (·.token)) e) :
    decompileCalculation ((callItems f is).flatMap (·.bytes fmStringEncrypt)) = .ok (name ++ t!"(" ++ is.flatMap (·.text) ++ t!")") ∧
    LaidOut ((name, ⟨.identifier, name⟩) :: (t!"(", sym .openParen) :: itemWords is ++ [(t!")", sym .closeParen)])
      (name ++ t!"(" ++ is.flatMap (·.text) ++ t!")") := by
  have hf : f.Valid fmStringEncrypt ∧ f.text = name ∧ Word name ⟨.identifier, name⟩ ∧ ':' ∉ name := by
    simp only [storedFunctions, List.mem_cons, Prod.mk.injEq, List.not_mem_nil, or_false] at hfn
    rcases hfn with ⟨rfl, rfl⟩ | ⟨rfl, rfl⟩ | ⟨rfl, rfl⟩ | ⟨rfl, rfl⟩
    · exact ⟨by simp [CalcItem.Valid, calcSymbols], rfl, .name (by decide) (by decide) rfl, by decide⟩
    · exact ⟨by simp [CalcItem.Valid, calcSymbols], rfl, .name (by decide) (by decide) rfl, by decide⟩
    · exact ⟨by simp [CalcItem.Valid, calcSymbols], rfl, .name (by decide) (by decide) rfl, by decide⟩
    · exact ⟨trivial, rfl, .name (by decide) (by decide) rfl, by decide⟩
  have hr' : ∀ i ∈ CalcItem.symbol 0x04 t!"(" :: is ++ [.symbol 0x05 t!")"], i.Readable := by
    intro i hi
    simp only [List.cons_append, List.mem_cons, List.mem_append, List.not_mem_nil, or_false] at hi
    rcases hi with rfl | hi | rfl
    · exact ⟨by decide, .inr (by decide)⟩
    · exact hr i hi
    · exact ⟨by decide, .inr (by decide)⟩
  have htok : (CalcItem.symbol 0x04 t!"(" :: is ++ [CalcItem.symbol 0x05 t!")"]).filterMap (·.token) =
      sym .openParen :: is.filterMap (·.token) ++ [sym .closeParen] := by
    rw [List.filterMap_append, List.filterMap_cons]; rfl
  constructor
  · have := calculation_items (callItems f is) (by
      intro i hi
      rcases List.mem_cons.mp hi with rfl | hi
      · exact hf.1
      · exact readable_valid (hr' i hi))
    rw [this]
    simp only [callItems, List.cons_append, List.flatMap_cons, List.flatMap_append, List.flatMap_nil, hf.2.1]
    simp [CalcItem.text]
  · obtain ⟨h1, -, h3, -⟩ := spells_chain (Spells.paren he)
    rw [← htok] at h1 h3
    have := items_laidOut _ hr' h1 h3
    have hw : itemWords (CalcItem.symbol 0x04 t!"(" :: is ++ [CalcItem.symbol 0x05 t!")"]) =
        (t!"(", sym .openParen) :: itemWords is ++ [(t!")", sym .closeParen)] := by
      unfold itemWords
      rw [List.filterMap_append, List.filterMap_cons]; rfl
    rw [hw] at this
    have ht : (CalcItem.symbol 0x04 t!"(" :: is ++ [CalcItem.symbol 0x05 t!")"]).flatMap (·.text) =
        t!"(" ++ is.flatMap (·.text) ++ t!")" := by simp [CalcItem.text]
    rw [ht] at this
    have hg : Glue name ⟨.identifier, name⟩ (t!"(" ++ is.flatMap (·.text) ++ t!")") := by
      refine ⟨fun h => absurd h (show TokenType.identifier ∉ openEnded by decide), fun _ => ?_⟩
      rw [if_neg hf.2.2.2]
      exact .inr (by decide)
    have := LaidOut.word hf.2.2.1 hg this
    simpa using this

/-- C131 for a function of such a calculation: the stored call evaluates like the function called with the expression. Missing, because
it fails: calls inside larger calculations, see C40. -/
theorem stored_call_evaluates_partial [LawfulRt] {f : CalcItem} {name : Str} (hfn : (f, name) ∈ storedFunctions) (is : List CalcItem)
    (hr : ∀ i ∈ is, i.Readable) (e : Node Rt.F) (he : Spells .cmp (is.filterMap (·.token)) e) (env : CalcEnv) (fuel : Nat)
    (hf : 10 * (is.length + 3) + 10 ≤ fuel) :
    ∃ text, decompileCalculation ((callItems f is).flatMap (·.bytes fmStringEncrypt)) = .ok text ∧
      evalCalc env fuel text = evalNode env fuel (.call name [e]) := by
  obtain ⟨h1, h2⟩ := stored_call_words hfn is hr e he
  refine ⟨_, h1, ?_⟩
  unfold evalCalc
  rw [calc_layout_partial _ _ h2]
  simp only [liftR, ev_ok_bind, List.map_cons, List.map_append, itemWords_tokens, List.map_nil]
  have hp : PlainName name := by
    simp only [storedFunctions, List.mem_cons, Prod.mk.injEq, List.not_mem_nil, or_false] at hfn
    rcases hfn with ⟨-, rfl⟩ | ⟨-, rfl⟩ | ⟨-, rfl⟩ | ⟨-, rfl⟩ <;> decide
  have hlen : (is.filterMap (·.token)).length ≤ is.length := List.length_filterMap_le _ _
  have := call_one_argument_partial name hp _ e he fuel (by omega)
  simp only [List.cons_append] at this ⊢
  rw [this]
  rfl

/-- C131: a stored `Char` of a number is the character with that number. -/
theorem stored_char_of_number [LawfulRt] (before after : Bytes) (v : UInt8) (hb : before.length = 8) (ha : after.length = 10)
    (env : CalcEnv) (fuel : Nat) (hf : 50 ≤ fuel) :
    ∃ text, decompileCalculation ((callItems (.intrinsic 3) [.number before v after]).flatMap (·.bytes fmStringEncrypt)) = .ok text ∧
      evalCalc env fuel text = .ok ['"', Char.ofNat v.toNat, '"'] := by
  have hv : v.toNat < 256 := v.toNat_lt
  have hx : parseF64 (Nat.toDigits 10 v.toNat) = some (Rt.ofText (Nat.toDigits 10 v.toNat)) := by
    unfold parseF64; rw [if_pos (isFloatText_nat _)]
  obtain ⟨text, h1, h2⟩ := stored_call_evaluates_partial (f := .intrinsic 3) (name := t!"Char") (by simp [storedFunctions])
    [.number before v after] (by simp [CalcItem.Readable, hb, ha]) (numeral v.toNat)
    (.ofConcat (.ofExpr (.ofTerm (.ofFactor (.number hx))))) env fuel (by simpa using hf)
  refine ⟨text, h1, h2.trans ?_⟩
  rw [evalNode, evalArgs_map]
  simp only [List.map_cons, List.map_nil, eval_numeral env fuel (show v.toNat ≤ 2 ^ 53 by omega)]
  have hc : v.toNat.isValidChar := .inl (by omega)
  show (do
    let t ← (Except.ok (Nat.toDigits 10 v.toNat) : Ev Str)
    let n ← liftR (unwrap (parseUnsigned (2 ^ 32) t))
    if n.isValidChar then pure ['"', Char.ofNat n, '"'] else Except.error (.panic .unwrap)) = _
  rw [ev_ok_bind, parseUnsigned_nat (show v.toNat < 2 ^ 32 by omega)]
  simp only [unwrap, liftR, ev_ok_bind, if_pos hc]
  rfl

/-- C131 is false for `Get`: whatever its stored argument, the value is a message. -/
theorem stored_get_refuted [LawfulRt] (k : UInt8) (a : Str) (hk : (k, a) ∈ getArguments) (env : CalcEnv) (fuel : Nat) (hf : 50 ≤ fuel) :
    decompileCalculation [0x9B, 0x04, 0x9C, k, 0x05] = .ok (t!"Get(" ++ a ++ t!")") ∧
    evalCalc env fuel (t!"Get(" ++ a ++ t!")") = .ok t!"Unknown argument for Get()" := by
  have key : ∀ a : Str, (∀ c ∈ a, WordChar c) → (∃ c s, a = c :: s ∧ isDigit c = false) → parseF64 a = none → PlainName a → ':' ∉ a →
      evalCalc env fuel (t!"Get(" ++ a ++ t!")") = .ok t!"Unknown argument for Get()" := by
    rintro a h1 ⟨c, s, rfl, hd⟩ h3 h4 h5
    have hl : LaidOut [(t!"Get", ⟨.identifier, t!"Get"⟩), (t!"(", sym .openParen), (c :: s, ⟨.identifier, c :: s⟩), (t!")", sym .closeParen)]
        (t!"Get" ++ (t!"(" ++ (c :: s ++ (t!")" ++ [])))) := by
      refine .word (.name (by decide) (by decide) rfl) ⟨fun h => absurd h (by decide), fun _ => ?_⟩
        (.word (.operator (by decide)) ⟨fun h => absurd h (by decide), fun h => absurd h (by decide)⟩
        (.word (.name h1 hd h3) ⟨fun h => absurd h (show TokenType.identifier ∉ openEnded by decide), fun _ => ?_⟩ (.word (.operator (by decide)) (by simp [Glue, openEnded, sym]) .nil)))
      · rw [if_neg (by decide)]; exact .inr (by decide)
      · rw [if_neg h5]; exact .inr (by decide)
    have h := calc_layout_partial _ _ hl
    rw [show t!"Get(" ++ c :: s ++ t!")" = t!"Get" ++ (t!"(" ++ (c :: s ++ (t!")" ++ []))) by simp]
    unfold evalCalc
    rw [h]
    simp only [liftR, ev_ok_bind]
    have := call_one_argument_partial t!"Get" (by decide) [⟨.identifier, c :: s⟩] (.variable (c :: s))
      (.ofConcat (.ofExpr (.ofTerm (.ofFactor (.variable h4))))) fuel (by simpa using hf)
    rw [show List.map (·.2) [(t!"Get", (⟨.identifier, t!"Get"⟩ : Tok)), (t!"(", sym .openParen), (c :: s, ⟨.identifier, c :: s⟩),
      (t!")", sym .closeParen)] = ⟨.identifier, t!"Get"⟩ :: sym .openParen :: [⟨.identifier, c :: s⟩] ++ [sym .closeParen] from rfl, this]
    simp only [ev_ok_bind]
    rw [evalNode, evalArgs_map]
    rfl
  simp only [getArguments, List.mem_cons, Prod.mk.injEq, List.not_mem_nil, or_false] at hk
  rcases hk with ⟨rfl, rfl⟩ | ⟨rfl, rfl⟩ | ⟨rfl, rfl⟩ | ⟨rfl, rfl⟩ <;>
    exact ⟨by decide +kernel, key _ (by decide) ⟨_, _, rfl, by decide⟩ rfl (by decide) (by decide)⟩

/-- C131 is false for numbers: of the nineteen bytes of a stored number only the ninth is looked at. -/
theorem stored_number_one_byte (v : UInt8) (before before' after after' : Bytes) (h1 : before.length = 8) (h2 : before'.length = 8)
    (h3 : after.length = 10) (h4 : after'.length = 10) :
    decompileCalculation (0x10 :: (before ++ [v] ++ after)) = decompileCalculation (0x10 :: (before' ++ [v] ++ after')) := by
  have a := calculation_items [.number before v after] (by simp [CalcItem.Valid, h1, h3])
  have b := calculation_items [.number before' v after'] (by simp [CalcItem.Valid, h2, h4])
  simp only [List.flatMap_cons, List.flatMap_nil, List.append_nil, CalcItem.bytes, CalcItem.text] at a b
  rw [a, b]

/-- C131 is false for operators the decompiler does not know: they disappear, and the names before and after them become one
name. -/
theorem unknown_operator_joins_names [Rt] (x y : Str) (b : UInt8) (hb : b ∉ calcSymbols.map (·.1)) (hb' : b ∉ calcPrefixes)
    (hx : (CalcItem.var x).Readable) (hy : (CalcItem.var y).Readable) (hxy : parseF64 (x ++ y) = none) :
    decompileCalculation ((CalcItem.var x).bytes fmStringEncrypt ++ b :: (CalcItem.var y).bytes fmStringEncrypt) = .ok (x ++ y) ∧
    lexCalc (x ++ y) = .ok [⟨.identifier, x ++ y⟩] := by
  obtain ⟨hx1, hx2, ⟨c, hc, hd⟩, hx4⟩ := hx
  obtain ⟨hy1, hy2, -, hy4⟩ := hy
  have hvx : (fmStringEncrypt x).length ≤ 255 := by rw [fmStringEncrypt_ascii_length fun c hc => (hx2 c hc).1]; exact hx1
  have hvy : (fmStringEncrypt y).length ≤ 255 := by rw [fmStringEncrypt_ascii_length fun c hc => (hy2 c hc).1]; exact hy1
  constructor
  · have := calculation_items [.var x, .skipped b, .var y] (by
      intro i hi
      simp only [List.mem_cons, List.not_mem_nil, or_false] at hi
      rcases hi with rfl | rfl | rfl
      · exact hvx
      · exact ⟨hb, hb'⟩
      · exact hvy)
    simp only [List.flatMap_cons, List.flatMap_nil, List.append_nil] at this
    rw [show (CalcItem.skipped b).bytes fmStringEncrypt = [b] from rfl] at this
    rw [show (CalcItem.var x).bytes fmStringEncrypt ++ b :: (CalcItem.var y).bytes fmStringEncrypt =
      (CalcItem.var x).bytes fmStringEncrypt ++ ([b] ++ (CalcItem.var y).bytes fmStringEncrypt) from rfl, this]
    simp only [CalcItem.text, literalText, List.nil_append]
    rw [if_pos fun c hc => (hx2 c hc).1, if_pos fun c hc => (hy2 c hc).1]
  · cases x with
    | nil => cases hc
    | cons d x =>
      injection hc with hc
      subst hc
      have hw : Word (d :: (x ++ y)) ⟨.identifier, d :: (x ++ y)⟩ := by
        refine .name (fun e he => ?_) hd hxy
        rw [← List.cons_append, List.mem_append] at he
        exact he.elim (fun h => (hx2 e h).2) fun h => (hy2 e h).2
      have := calc_layout_partial [(d :: (x ++ y), ⟨.identifier, d :: (x ++ y)⟩)] (d :: (x ++ y) ++ []) (.word hw (by simp [Glue, openEnded]) .nil)
      simpa using this

section Example
attribute [local instance] toyRt

/-- `($i + 2)*3 & "km"` as a file stores it. -/
def storedItems : List CalcItem :=
  [.symbol 0x04 t!"(", .var t!"$i", .symbol 0x0C t!" ", .symbol 0x25 t!"+", .symbol 0x0C t!" ",
   .number (List.replicate 8 0) 2 (List.replicate 10 0), .symbol 0x05 t!")", .symbol 0x27 t!"*",
   .number (List.replicate 8 0) 3 (List.replicate 10 0), .symbol 0x50 t!"&", .str t!"km"]

theorem storedItems_readable : ∀ i ∈ storedItems, i.Readable := by
  intro i hi
  simp only [storedItems, List.mem_cons, List.not_mem_nil, or_false] at hi
  rcases hi with rfl | rfl | rfl | rfl | rfl | rfl | rfl | rfl | rfl | rfl | rfl
  · exact ⟨by decide, .inr (by decide)⟩
  · exact ⟨by decide, by decide, ⟨'$', rfl, rfl⟩, by decide +kernel⟩
  · exact ⟨by decide, .inl rfl⟩
  · exact ⟨by decide, .inr (by decide)⟩
  · exact ⟨by decide, .inl rfl⟩
  · exact ⟨rfl, rfl⟩
  · exact ⟨by decide, .inr (by decide)⟩
  · exact ⟨by decide, .inr (by decide)⟩
  · exact ⟨rfl, rfl⟩
  · exact ⟨by decide, .inr (by decide)⟩
  · exact ⟨by decide, by decide, by decide, 'k', by decide, by decide⟩

example :
    (∀ i ∈ storedItems, i.Readable) ∧
    (∃ e, Spells .cmp (storedItems.filterMap (·.token)) e) ∧
    decompileCalculation (storedItems.flatMap (·.bytes fmStringEncrypt)) = .ok t!"($i + 2)*3&\"km\"" ∧
    evalCalc ⟨{}, 1, [[(t!"$i", t!"5")]]⟩ 200 t!"($i + 2)*3&\"km\"" = .ok t!"\"21km\"" := by
  refine ⟨storedItems_readable, ⟨_, .ofConcat (.concatenate (a := [sym .openParen, ⟨.identifier, t!"$i"⟩, sym .plus, ⟨.numericLiteral, t!"2"⟩,
    sym .closeParen, sym .multiply, ⟨.numericLiteral, t!"3"⟩]) (b := [⟨.string, t!"\"km\""⟩])
    (.ofExpr (.ofTerm (.mul (.inl rfl) (a := [sym .openParen, ⟨.identifier, t!"$i"⟩, sym .plus, ⟨.numericLiteral, t!"2"⟩, sym .closeParen])
      (.ofFactor (.paren (ts := [⟨.identifier, t!"$i"⟩, sym .plus, ⟨.numericLiteral, t!"2"⟩])
        (.ofConcat (.ofExpr (.add (.inl rfl) (a := [⟨.identifier, t!"$i"⟩]) (.ofTerm (.ofFactor (.variable (by decide))))
          (.ofFactor (.number (s := t!"2") rfl)))))))
      (.number (s := t!"3") rfl))))
    (.ofTerm (.ofFactor .string)))⟩, ?_, by decide +kernel⟩
  exact (calculation_items storedItems fun i hi => readable_valid (storedItems_readable i hi)).trans (by decide +kernel)

/-- `Abs($i - 7)` as a file stores it; `Get(AccountName)`; `Char(65)`. -/
example :
    let is : List CalcItem := [.var t!"$i", .symbol 0x0C t!" ", .symbol 0x26 t!"-", .symbol 0x0C t!" ",
      .number (List.replicate 8 0) 7 (List.replicate 10 0)]
    (∀ i ∈ is, i.Readable) ∧ (∃ e, Spells .cmp (is.filterMap (·.token)) e) ∧
    decompileCalculation ((callItems (.symbol 0x2D t!"Abs") is).flatMap (·.bytes fmStringEncrypt)) = .ok t!"Abs($i - 7)" ∧
    evalCalc ⟨{}, 1, [[(t!"$i", t!"9")]]⟩ 200 t!"Abs($i - 7)" = .ok t!"2" ∧
    (0x20, t!"AccountName") ∈ getArguments ∧
    decompileCalculation [0x9B, 0x04, 0x9C, 0x20, 0x05] = .ok t!"Get(AccountName)" ∧
    decompileCalculation ((callItems (.intrinsic 3) [.number (List.replicate 8 0) 65 (List.replicate 10 0)]).flatMap
      (·.bytes fmStringEncrypt)) = .ok t!"Char(65)" ∧
    evalCalc ⟨{}, 1, []⟩ 50 t!"Char(65)" = .ok t!"\"A\"" := by
  intro is
  have hr : ∀ i ∈ is, i.Readable := by
    intro i hi
    simp only [is, List.mem_cons, List.not_mem_nil, or_false] at hi
    rcases hi with rfl | rfl | rfl | rfl | rfl
    · exact ⟨by decide, by decide, ⟨'$', rfl, rfl⟩, by decide +kernel⟩
    · exact ⟨by decide, .inl rfl⟩
    · exact ⟨by decide, .inr (by decide)⟩
    · exact ⟨by decide, .inl rfl⟩
    · exact ⟨rfl, rfl⟩
  have he : Spells .cmp (is.filterMap (·.token)) _ := .ofConcat (.ofExpr (.add (.inr rfl) (a := [⟨.identifier, t!"$i"⟩])
    (.ofTerm (.ofFactor (.variable (by decide)))) (.ofFactor (.number (s := t!"7") rfl))))
  refine ⟨hr, ⟨_, he⟩, ?_, by decide +kernel, by decide, by decide +kernel, by decide +kernel, by decide +kernel⟩
  exact (stored_call_words (name := t!"Abs") (by simp [storedFunctions]) is hr _ he).1.trans (by decide +kernel)

/-- `$a` and `$b` with a byte between them that the decompiler does not know become the variable `$a$b`. -/
example : decompileCalculation ((CalcItem.var t!"$a").bytes fmStringEncrypt ++ 0x4A :: (CalcItem.var t!"$b").bytes fmStringEncrypt) =
    .ok t!"$a$b" :=
  (unknown_operator_joins_names t!"$a" t!"$b" 0x4A (by decide) (by decide) ⟨by decide, by decide, ⟨'$', rfl, rfl⟩, by decide +kernel⟩
    ⟨by decide, by decide, ⟨'$', rfl, rfl⟩, by decide +kernel⟩ (by decide +kernel)).1

end Example

end BurnFm.Props
