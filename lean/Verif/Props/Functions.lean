import Verif.Proofs.CalcFunctions
import Verif.Props.Compare

/-! Property C98: the built-in functions of calculations. -/

namespace BurnFm.Props
open Spec

/-- A call with one argument, written as text with single spaces, is the call of the function on the argument. -/
theorem call_text [Rt] (c : Char) (name : Str) (hn : ∀ d ∈ c :: name, WordChar d) (hd : isDigit c = false)
    (hp : parseF64 (c :: name) = none) (ws : List (Str × Tok)) (h : ∀ w ∈ ws, Word w.1 w.2) (e : Node Rt.F)
    (he : Spells .cmp (ws.map (·.2)) e) (env : CalcEnv) (fuel : Nat) (hf : 10 * (ws.length + 3) + 10 ≤ fuel) :
    evalCalc env fuel (spaced ((c :: name) :: t!"(" :: ws.map (·.1) ++ [t!")"])) =
      evalNode env fuel (.call (c :: name) [e]) := by
  have hwords := calc_lexes_words_partial
    ((c :: name, ⟨.identifier, c :: name⟩) :: (t!"(", sym .openParen) :: ws ++ [(t!")", sym .closeParen)])
    (by
      intro w hw
      simp only [List.cons_append, List.mem_cons, List.mem_append, List.not_mem_nil, or_false] at hw
      rcases hw with rfl | rfl | hw | rfl
      · exact .name hn hd hp
      · exact .operator (by decide)
      · exact h w hw
      · exact .operator (by decide))
    (by
      intro w hw
      rw [List.getLast?_append] at hw
      simp at hw
      subst hw; decide)
  unfold evalCalc
  rw [show (c :: name) :: t!"(" :: ws.map (·.1) ++ [t!")"] = ((c :: name, ⟨.identifier, c :: name⟩) ::
    (t!"(", sym .openParen) :: ws ++ [(t!")", sym .closeParen)]).map (fun w : Str × Tok => w.1) by simp, hwords]
  simp only [liftR, ev_ok_bind]
  have hplain : PlainName (c :: name) := fun hc => absurd (hn ':' hc).1 (by decide)
  have := call_one_argument_partial (c :: name) hplain (ws.map (·.2)) e he fuel (by simpa using hf)
  rw [show (((c :: name, ⟨.identifier, c :: name⟩) :: (t!"(", sym .openParen) :: ws ++
    [(t!")", sym .closeParen)]).map (·.2) : List Tok) = ⟨.identifier, c :: name⟩ :: sym .openParen :: ws.map (·.2) ++
    [sym .closeParen] by simp, this]
  rfl

/-- C98: `Min` of whole numbers is the least of them. -/
theorem min_of_naturals [LawfulRt] (env : CalcEnv) (fuel : Nat) (ns : List Nat) (hne : ns ≠ [])
    (hns : ∀ n ∈ ns, n ≤ 2 ^ 53) :
    ∃ m ∈ ns, (∀ k ∈ ns, m ≤ k) ∧
      evalNode env (fuel + 1) (.call t!"Min" (ns.map numeral)) = .ok (Nat.toDigits 10 m) := by
  obtain ⟨n, ns, rfl⟩ := List.exists_cons_of_ne_nil hne
  have hargs : ((n :: ns).map numeral).map (evalNode env (fuel + 1)) =
      (Nat.toDigits 10 n :: ns.map (Nat.toDigits 10)).map .ok := by
    simp only [List.map_cons, List.map_map, List.cons.injEq]
    refine ⟨eval_numeral env _ (hns n (by simp)), ?_⟩
    apply List.map_congr_left
    intro k hk
    exact eval_numeral env _ (hns k (by simp [hk]))
  rw [call_min hargs]
  obtain ⟨m, hm, hmem, hle⟩ := min_fold (env := env) (fuel := fuel + 1)
    (S := fun x => ∃ k, k ≤ 2 ^ 53 ∧ x = Nat.toDigits 10 k)
    (le := fun x y => digitsVal x ≤ digitsVal y) (fun x => Nat.le_refl _) (fun x y z => Nat.le_trans)
    (by
      rintro x y ⟨a, ha, rfl⟩ ⟨b, hb, rfl⟩
      refine ⟨compare a b, minOrder_nat env fuel ha hb, ?_, ?_⟩
      · intro h
        rw [Nat.compare_eq_gt] at h
        simp only [digitsVal_toDigits]; omega
      · intro h
        rw [Ne, Nat.compare_eq_gt] at h
        simp only [digitsVal_toDigits]; omega)
    (ns.map (Nat.toDigits 10)) (Nat.toDigits 10 n) ⟨n, hns n (by simp), rfl⟩
    (by
      intro w hw
      obtain ⟨k, hk, rfl⟩ := List.mem_map.mp hw
      exact ⟨k, hns k (by simp [hk]), rfl⟩)
  rw [← List.map_cons, List.mem_map] at hmem
  obtain ⟨k, hk, rfl⟩ := hmem
  refine ⟨k, hk, ?_, hm⟩
  intro j hj
  have := hle (Nat.toDigits 10 j) (by rw [← List.map_cons]; exact List.mem_map.mpr ⟨j, hj, rfl⟩)
  simpa only [digitsVal_toDigits] using this

/-- C98: `Min` of strings is the least of them in the order of their bytes. -/
theorem min_of_texts [Rt] (env : CalcEnv) (fuel : Nat) (args : List (Node Rt.F)) (vs : List Str) (hne : vs ≠ [])
    (hargs : args.map (evalNode env (fuel + 1)) = vs.map .ok) (hq : ∀ v ∈ vs, isQuoted v = true) :
    ∃ m ∈ vs, (∀ k ∈ vs, textBytes m ≤ textBytes k) ∧
      evalNode env (fuel + 1) (.call t!"Min" args) = .ok m := by
  obtain ⟨v, vs, rfl⟩ := List.exists_cons_of_ne_nil hne
  rw [call_min hargs]
  obtain ⟨m, hm, hmem, hle⟩ := min_fold (env := env) (fuel := fuel + 1)
    (S := fun x => isQuoted x = true)
    (le := fun x y => textBytes x ≤ textBytes y) (fun x => List.le_refl _) (fun x y z => List.le_trans)
    (by
      intro x y hx hy
      refine ⟨_, minOrder_quoted env fuel hx hy, ?_, ?_⟩
      · intro h
        have hn : ¬ strLe x y = true := by
          intro hxy; rw [if_pos hxy] at h; split at h <;> cases h
        rw [strLe_utf8] at hn
        exact List.le_of_lt (List.not_le.mp hn)
      · intro h
        have hn : strLe x y = true := by
          refine Classical.byContradiction fun hxy => h ?_
          rw [if_neg hxy]
        exact (strLe_utf8 x y).mp hn)
    vs v (hq v (by simp)) (fun w hw => hq w (by simp [hw]))
  exact ⟨m, hmem, hle, hm⟩

/-- C98: if there are strings among the arguments, `Min` is the least of the strings and the numbers do not count. -/
theorem min_of_mixed [LawfulRt] (env : CalcEnv) (fuel : Nat) (args : List (Node Rt.F)) (vs : List Str)
    (hargs : args.map (evalNode env (fuel + 1)) = vs.map .ok)
    (hv : ∀ v ∈ vs, isQuoted v = true ∨ ∃ n, n ≤ 2 ^ 53 ∧ v = Nat.toDigits 10 n) (hq : ∃ v ∈ vs, isQuoted v = true) :
    ∃ m ∈ vs, isQuoted m = true ∧ (∀ k ∈ vs, isQuoted k = true → textBytes m ≤ textBytes k) ∧
      evalNode env (fuel + 1) (.call t!"Min" args) = .ok m := by
  obtain ⟨q, hqmem, hqq⟩ := hq
  obtain ⟨v, vs, rfl⟩ := List.exists_cons_of_ne_nil (List.ne_nil_of_mem hqmem)
  rw [call_min hargs]
  obtain ⟨m, hm, hmem, hle⟩ := min_fold (env := env) (fuel := fuel + 1)
    (S := fun x => isQuoted x = true ∨ ∃ n, n ≤ 2 ^ 53 ∧ x = Nat.toDigits 10 n)
    (le := fun x y => isQuoted y = true → isQuoted x = true ∧ textBytes x ≤ textBytes y)
    (fun x h => ⟨h, List.le_refl _⟩)
    (fun x y z h1 h2 hz => ⟨(h1 (h2 hz).1).1, List.le_trans (h1 (h2 hz).1).2 (h2 hz).2⟩)
    (by
      intro x y hx hy
      rcases hx with hx | ⟨a, ha, rfl⟩ <;> rcases hy with hy | ⟨b, hb, rfl⟩
      · refine ⟨_, minOrder_quoted env fuel hx hy, ?_, ?_⟩
        · intro h
          have hn : ¬ strLe x y = true := by
            intro hxy; rw [if_pos hxy] at h; split at h <;> cases h
          rw [strLe_utf8] at hn
          exact fun _ => ⟨hy, List.le_of_lt (List.not_le.mp hn)⟩
        · intro h
          have hn : strLe x y = true := by
            refine Classical.byContradiction fun hxy => h ?_
            rw [if_neg hxy]
          exact fun _ => ⟨hx, (strLe_utf8 x y).mp hn⟩
      · refine ⟨_, (minOrder_mixed env fuel hx b).1, by simp, fun _ hn => ?_⟩
        rw [not_quoted_nat] at hn; cases hn
      · refine ⟨_, (minOrder_mixed env fuel hy a).2, fun _ hn => ?_, by simp⟩
        rw [not_quoted_nat] at hn; cases hn
      · refine ⟨_, minOrder_nat env fuel ha hb, fun _ hn => ?_, fun _ hn => ?_⟩ <;>
        · rw [not_quoted_nat] at hn; cases hn)
    vs v (hv v (by simp)) (fun w hw => hv w (by simp [hw]))
  exact ⟨m, hmem, (hle q hqmem hqq).1, fun k hk hkq => (hle k hk hkq).2, hm⟩

/-- C98: `Char(n)`, written as text, is the string of the one character with the number `n`. -/
theorem char_of_number [LawfulRt] (env : CalcEnv) (fuel : Nat) (hf : 50 ≤ fuel) (n : Nat) (hn : n.isValidChar) :
    evalCalc env fuel (spaced [t!"Char", t!"(", Nat.toDigits 10 n, t!")"]) = .ok ['"', Char.ofNat n, '"'] := by
  have hlt : n < 2 ^ 32 := by
    rcases hn with h | h <;> omega
  have hx : parseF64 (Nat.toDigits 10 n) = some (Rt.ofText (Nat.toDigits 10 n)) := by
    unfold parseF64; rw [if_pos (isFloatText_nat n)]
  have hw : Word (Nat.toDigits 10 n) ⟨.numericLiteral, Nat.toDigits 10 n⟩ := by
    have := Word.number hx (plus_toDigits n) (fun h => absurd (toDigits_digits h) (by decide))
    rwa [LawfulRt.nat_text n (by omega)] at this
  have := call_text 'C' t!"har" (by decide) (by decide) rfl
    [(Nat.toDigits 10 n, ⟨.numericLiteral, Nat.toDigits 10 n⟩)] (by simpa using hw) (numeral n)
    (spells_factor (.number hx) _) env fuel (by simpa using hf)
  simp only [List.map_cons, List.map_nil, List.cons_append, List.nil_append] at this
  rw [this, evalNode, evalArgs_map]
  simp only [List.map_cons, List.map_nil, eval_numeral env fuel (show n ≤ 2 ^ 53 by omega)]
  show (do
    let v ← (Except.ok (Nat.toDigits 10 n) : Ev Str)
    let n ← liftR (unwrap (parseUnsigned (2 ^ 32) v))
    if n.isValidChar then pure ['"', Char.ofNat n, '"'] else Except.error (.panic .unwrap)) = _
  rw [ev_ok_bind, parseUnsigned_nat hlt]
  simp only [unwrap, liftR, ev_ok_bind, if_pos hn]
  rfl

/-- Any other number makes `Char` panic. -/
theorem char_of_other_panics [LawfulRt] (env : CalcEnv) (fuel : Nat) (n : Nat) (hb : n ≤ 2 ^ 53)
    (hn : ¬ n.isValidChar) :
    evalNode env fuel (.call t!"Char" [numeral n]) = .error (.panic .unwrap) := by
  rw [evalNode, evalArgs_map]
  simp only [List.map_cons, List.map_nil, eval_numeral env fuel hb]
  show (do
    let v ← (Except.ok (Nat.toDigits 10 n) : Ev Str)
    let n ← liftR (unwrap (parseUnsigned (2 ^ 32) v))
    if n.isValidChar then pure ['"', Char.ofNat n, '"'] else Except.error (.panic .unwrap)) = _
  rw [ev_ok_bind]
  by_cases hlt : n < 2 ^ 32
  · rw [parseUnsigned_nat hlt]
    simp only [unwrap, liftR, ev_ok_bind, if_neg hn]
  · rw [parseUnsigned_large (by omega)]
    rfl

/-- C98 is false for `Min` in the text of a calculation: of two arguments the second is ignored, so the result is
the first number even when the second is less. -/
theorem min_refuted [LawfulRt] (env : CalcEnv) (fuel : Nat) (hf : 70 ≤ fuel) (n m : Nat) (hn : n ≤ 2 ^ 53)
    (hm : m ≤ 2 ^ 53) :
    evalCalc env fuel (spaced [t!"Min", t!"(", Nat.toDigits 10 n, t!",", Nat.toDigits 10 m, t!")"]) =
      .ok (Nat.toDigits 10 n) := by
  have hx : ∀ k, parseF64 (Nat.toDigits 10 k) = some (Rt.ofText (Nat.toDigits 10 k)) := fun k => by
    unfold parseF64; rw [if_pos (isFloatText_nat k)]
  have hw : ∀ k, k ≤ 2 ^ 53 → Word (Nat.toDigits 10 k) ⟨.numericLiteral, Nat.toDigits 10 k⟩ := fun k hk => by
    have := Word.number (hx k) (plus_toDigits k) (fun h => absurd (toDigits_digits h) (by decide))
    rwa [LawfulRt.nat_text k hk] at this
  have hwords := calc_lexes_words_partial
    [(t!"Min", ⟨.identifier, t!"Min"⟩), (t!"(", sym .openParen), (Nat.toDigits 10 n, ⟨.numericLiteral, Nat.toDigits 10 n⟩),
     (t!",", sym .comma), (Nat.toDigits 10 m, ⟨.numericLiteral, Nat.toDigits 10 m⟩), (t!")", sym .closeParen)]
    (by
      intro w hw'
      simp only [List.mem_cons, List.not_mem_nil, or_false] at hw'
      rcases hw' with rfl | rfl | rfl | rfl | rfl | rfl
      · exact .name (by decide) (by decide) rfl
      · exact .operator (by decide)
      · exact hw n hn
      · exact .operator (by decide)
      · exact hw m hm
      · exact .operator (by decide))
    (by
      intro w hw
      simp at hw
      subst hw; decide)
  simp only [List.map_cons, List.map_nil] at hwords
  unfold evalCalc
  rw [hwords]
  simp only [liftR, ev_ok_bind]
  have hparse : parseCalc fuel [⟨.identifier, t!"Min"⟩, sym .openParen, ⟨.numericLiteral, Nat.toDigits 10 n⟩, sym .comma,
      ⟨.numericLiteral, Nat.toDigits 10 m⟩, sym .closeParen] = .ok (.call t!"Min" [numeral n]) := by
    refine evals_within (call_first (name := t!"Min") (by decide) (spells_factor (.number (hx n)) _)
      (b := ⟨.numericLiteral, Nat.toDigits 10 m⟩) (.inr (.inl rfl))) ?_ (by simpa using hf)
    intro t ht
    simp at ht
    subst ht; simp [sym]
  rw [hparse, ev_ok_bind]
  obtain ⟨fuel, rfl⟩ : ∃ f, fuel = f + 1 := ⟨fuel - 1, by omega⟩
  obtain ⟨k, hk, -, hv⟩ := min_of_naturals env fuel [n] (by simp) (by simpa using hn)
  simp at hk
  subst hk
  exact hv

/-- C98 is false for `Asin`: in the text of a calculation it always fails, whatever its argument. -/
theorem asin_refuted [Rt] (ws : List (Str × Tok)) (h : ∀ w ∈ ws, Word w.1 w.2) (e : Node Rt.F)
    (he : Spells .cmp (ws.map (·.2)) e) (env : CalcEnv) (fuel : Nat) (hf : 10 * (ws.length + 3) + 10 ≤ fuel) (a : Str)
    (ha : evalNode env fuel e = .ok a) :
    evalCalc env fuel (spaced (t!"Asin" :: t!"(" :: ws.map (·.1) ++ [t!")"])) = .error (.panic .index) := by
  rw [call_text 'A' t!"sin" (by decide) (by decide) rfl ws h e he env fuel hf, evalNode, evalArgs_map]
  simp only [List.map_cons, List.map_nil, ha]
  rfl

/-- With two arguments, which no text can give it, it is the lesser of two texts. -/
theorem asin_is_text_minimum [Rt] (env : CalcEnv) (fuel : Nat) (x y : Node Rt.F) (a b : Str)
    (ha : evalNode env fuel x = .ok a) (hb : evalNode env fuel y = .ok b) :
    evalNode env fuel (.call t!"Asin" [x, y]) = .ok (if textBytes a ≤ textBytes b then a else b) := by
  rw [evalNode, evalArgs_map]
  simp only [List.map_cons, List.map_nil, ha, hb]
  show (Except.ok (if strLe a b then a else b) : Ev Str) = _
  have h := strLe_utf8 a b
  by_cases hs : strLe a b = true
  · rw [if_pos hs, if_pos]
    exact h.mp hs
  · rw [if_neg hs, if_neg]
    exact fun hn => hs (h.mpr hn)

/-- C98 is false for `Get`: whatever is asked for, the answer is the message that it is unknown. -/
theorem get_refuted [Rt] (ws : List (Str × Tok)) (h : ∀ w ∈ ws, Word w.1 w.2) (e : Node Rt.F)
    (he : Spells .cmp (ws.map (·.2)) e) (env : CalcEnv) (fuel : Nat) (hf : 10 * (ws.length + 3) + 10 ≤ fuel) :
    evalCalc env fuel (spaced (t!"Get" :: t!"(" :: ws.map (·.1) ++ [t!")"])) = .ok t!"Unknown argument for Get()" := by
  rw [call_text 'G' t!"et" (by decide) (by decide) rfl ws h e he env fuel hf, evalNode, evalArgs_map]
  rfl

/-- C98: a function that does not exist gives a message with its name. The argument is not evaluated. -/
theorem unknown_function [Rt] (c : Char) (name : Str) (hn : ∀ d ∈ c :: name, WordChar d) (hd : isDigit c = false)
    (hp : parseF64 (c :: name) = none)
    (hknown : c :: name ∉ [t!"Abs", t!"Acos", t!"Asin", t!"Char", t!"Min", t!"Get"])
    (ws : List (Str × Tok)) (h : ∀ w ∈ ws, Word w.1 w.2) (e : Node Rt.F)
    (he : Spells .cmp (ws.map (·.2)) e) (env : CalcEnv) (fuel : Nat) (hf : 10 * (ws.length + 3) + 10 ≤ fuel) :
    evalCalc env fuel (spaced ((c :: name) :: t!"(" :: ws.map (·.1) ++ [t!")"])) =
      .ok (t!"Unimplemented function: " ++ c :: name) := by
  rw [call_text c name hn hd hp ws h e he env fuel hf, evalNode]
  simp only [List.mem_cons, List.not_mem_nil, or_false, not_or] at hknown
  obtain ⟨h1, h2, h3, h4, h5, h6⟩ := hknown
  unfold callFunction
  rw [if_neg h1, if_neg h2, if_neg h3, if_neg h4, if_neg h5, if_neg h6]
  rfl

section Example

attribute [local instance] toyRt

/-- `Min` of three numbers. -/
example : ∃ m ∈ [12, 7, 30], (∀ k ∈ [12, 7, 30], m ≤ k) ∧
    evalNode exCmpEnv 9 (.call t!"Min" ([12, 7, 30].map numeral)) = .ok (Nat.toDigits 10 m) :=
  min_of_naturals exCmpEnv 8 [12, 7, 30] (by decide) (by decide)

example : evalNode exCmpEnv 9 (.call t!"Min" ([12, 7, 30].map numeral)) = .ok t!"7" := by decide +kernel

/-- `Min` of a string and a variable with a string. -/
example : ∃ m ∈ [t!"\"quince\"", t!"\"pear\""], (∀ k ∈ [t!"\"quince\"", t!"\"pear\""], textBytes m ≤ textBytes k) ∧
    evalNode exCmpEnv 9 (.call t!"Min" [.stringLiteral t!"\"quince\"", .variable t!"x"] : Node Rt.F) = .ok m :=
  min_of_texts exCmpEnv 8 _ _ (by decide) (by decide +kernel) (by decide)

/-- Among 3, "pear" and "quince" it is "pear". -/
example : ∃ m ∈ [t!"3", t!"\"quince\"", t!"\"pear\""], isQuoted m = true ∧
    (∀ k ∈ [t!"3", t!"\"quince\"", t!"\"pear\""], isQuoted k = true → textBytes m ≤ textBytes k) ∧
    evalNode exCmpEnv 9 (.call t!"Min" [numeral 3, .stringLiteral t!"\"quince\"", .variable t!"x"] : Node Rt.F) = .ok m :=
  min_of_mixed exCmpEnv 8 _ _ (by decide +kernel) (by
    intro v hv
    simp only [List.mem_cons, List.not_mem_nil, or_false] at hv
    rcases hv with rfl | rfl | rfl
    · exact .inr ⟨3, by decide, by decide⟩
    · exact .inl (by decide)
    · exact .inl (by decide)) ⟨t!"\"pear\"", by decide, by decide⟩

example : evalCalc exCmpEnv 60 t!"Char ( 228 )" = .ok t!"\"ä\"" :=
  char_of_number exCmpEnv 60 (by decide) 228 (by decide)

/-- A surrogate. -/
example : evalNode exCmpEnv 9 (.call t!"Char" [numeral 55296]) = .error (.panic .unwrap) :=
  char_of_other_panics exCmpEnv 9 55296 (by decide) (by decide)

/-- `Min ( 9 , 4 )` is 9. -/
example : evalCalc exCmpEnv 80 t!"Min ( 9 , 4 )" = .ok t!"9" :=
  min_refuted exCmpEnv 80 (by decide) 9 4 (by decide) (by decide)

example : evalCalc exCmpEnv 80 t!"Min(9, 4)" = .ok t!"9" := by decide +kernel

example : evalCalc exCmpEnv 80 t!"Asin ( x )" = .error (.panic .index) :=
  asin_refuted [(t!"x", ⟨.identifier, t!"x"⟩)] (by
    simp only [List.mem_singleton, forall_eq]
    exact .name (by decide) (by decide) (by decide +kernel)) _ (spells_factor (.variable (by decide)) _)
    exCmpEnv 80 (by decide) t!"\"pear\"" (by decide +kernel)

example : evalCalc exCmpEnv 80 t!"Get ( AccountName )" = .ok t!"Unknown argument for Get()" :=
  get_refuted [(t!"AccountName", ⟨.identifier, t!"AccountName"⟩)] (by
    simp only [List.mem_singleton, forall_eq]
    exact .name (by decide) (by decide) (by decide +kernel)) _ (spells_factor (.variable (by decide)) _)
    exCmpEnv 80 (by decide)

example : evalCalc exCmpEnv 80 t!"Max ( x )" = .ok t!"Unimplemented function: Max" :=
  unknown_function 'M' t!"ax" (by decide) (by decide) (by decide +kernel) (by decide)
    [(t!"x", ⟨.identifier, t!"x"⟩)] (by
      simp only [List.mem_singleton, forall_eq]
      exact .name (by decide) (by decide) (by decide +kernel)) _ (spells_factor (.variable (by decide)) _)
    exCmpEnv 80 (by decide)

end Example

end BurnFm.Props
