import Verif.Spec.Counting
import Verif.Proofs.VmEval
import Verif.Proofs.SMap
import Verif.Proofs.Generate
import Verif.Props.Script

/-! Lemmas on loops that count. -/

namespace BurnFm
open Spec

theorem isName_varName {i : Str} (h : IsName i) : VarName i := by
  obtain ⟨h1, h2, c, s, rfl, -⟩ := h
  refine ⟨fun hc => (h1 _ hc).1 (by decide), h2, ?_⟩
  have : c ≠ '"' := fun e => (h1 c (by simp)).1 (by rw [e]; decide)
  unfold isQuoted
  simp [this]

theorem isName_word [Rt] {i : Str} (h : IsName i) : Word i ⟨.identifier, i⟩ := by
  obtain ⟨h1, h2, c, s, rfl, h3⟩ := h
  exact .name h1 h3 (by unfold parseF64; rw [if_neg (by rw [h2]; decide)])

theorem numeral_word [LawfulRt] {k : Nat} (hk : k ≤ 2 ^ 53) :
    Word (Nat.toDigits 10 k) ⟨.numericLiteral, Nat.toDigits 10 k⟩ := by
  have h1 : ∀ c ∈ Nat.toDigits 10 k, isDigit c = true := fun c hc => toDigits_digits hc
  have := Word.number (s := Nat.toDigits 10 k) (x := Rt.ofText (Nat.toDigits 10 k))
    (by unfold parseF64; rw [if_pos (isFloatText_nat k)])
    (fun h => absurd (h1 _ h) (by decide)) (fun h => absurd (h1 _ h) (by decide))
  rwa [LawfulRt.nat_text k hk] at this

theorem numeral_spells [Rt] (k : Nat) : Spells .factor [⟨.numericLiteral, Nat.toDigits 10 k⟩] (numeral k) :=
  .number (by unfold parseF64; rw [if_pos (isFloatText_nat k)])

/-- `0` -/
theorem evalCalc_numeral [LawfulRt] {k : Nat} (hk : k ≤ 2 ^ 53) (env : CalcEnv) {fuel : Nat} (hf : 40 ≤ fuel) :
    evalCalc env fuel (Nat.toDigits 10 k) = .ok (Nat.toDigits 10 k) := by
  have := Props.calc_text_evaluates [(Nat.toDigits 10 k, ⟨.numericLiteral, Nat.toDigits 10 k⟩)]
    (by intro w h; rw [List.mem_singleton] at h; subst h; exact numeral_word hk) (numeral k)
    (.ofConcat (.ofExpr (.ofTerm (.ofFactor (numeral_spells k))))) env fuel (by simp; omega)
  rw [eval_numeral env _ hk] at this
  simpa [spaced] using this

/-- A variable that holds a numeral evaluates to it. -/
theorem evalNode_counter [LawfulRt] {env : CalcEnv} {i : Str} (hi : IsName i) {k : Nat}
    (hv : varValue env i = some (Nat.toDigits 10 k)) {fuel : Nat} (hf : 40 ≤ fuel) :
    evalNode env fuel (.variable i) = .ok (Nat.toDigits 10 k) := by
  obtain ⟨g, rfl⟩ : ∃ g, fuel = g + 2 := ⟨fuel - 2, by omega⟩
  rw [evalNode, operand_var (isName_varName hi) hv, operand_number env (isFloatText_nat k)]
  rfl

/-- `i + 1` -/
theorem evalCalc_next [LawfulRt] {env : CalcEnv} {i : Str} (hi : IsName i) {k : Nat}
    (hv : varValue env i = some (Nat.toDigits 10 k)) (hk : k + 1 ≤ 2 ^ 53) {fuel : Nat} (hf : 40 ≤ fuel) :
    evalCalc env fuel (i ++ t!" + 1") = .ok (Nat.toDigits 10 (k + 1)) := by
  have key := Props.calc_text_evaluates [(i, ⟨.identifier, i⟩), (t!"+", sym .plus), (t!"1", ⟨.numericLiteral, t!"1"⟩)]
    (by
      intro w h
      simp only [List.mem_cons, List.not_mem_nil, or_false] at h
      rcases h with rfl | rfl | rfl
      · exact isName_word hi
      · exact .operator (by decide)
      · exact numeral_word (k := 1) (by decide))
    (.binary (.variable i) .plus (numeral 1))
    (.ofConcat (.ofExpr (Spells.add (a := [_]) (b := [_]) (.inl rfl)
      (.ofTerm (.ofFactor (.variable (isName_varName hi).plain))) (.ofFactor (numeral_spells 1))))) env fuel (by simpa using hf)
  refine key.trans ?_
  rw [evalNode, evalNode_counter hi hv hf, eval_numeral env fuel (by decide)]
  obtain ⟨g, rfl⟩ : ∃ g, fuel = g + 1 := ⟨fuel - 1, by omega⟩
  simp only [ev_ok_bind, operand_number env (isFloatText_nat _)]
  unfold arith
  rw [if_neg (by decide), if_neg (by simp)]
  unfold parseF64
  simp only [isFloatText_nat, if_true, unwrap, liftR, ev_ok_bind, ev_pure]
  rw [LawfulRt.nat_add k 1 hk, LawfulRt.nat_text _ hk]

/-- `i op n` -/
theorem evalCalc_counter [LawfulRt] {env : CalcEnv} {i : Str} (hi : IsName i) {k n : Nat}
    (hv : varValue env i = some (Nat.toDigits 10 k)) (hn : n ≤ 2 ^ 53) {s : Str} {op : TokenType}
    (hs : (s, op) ∈ [(t!"==", TokenType.eq), (t!">=", .gtq)]) {fuel : Nat} (hf : 40 ≤ fuel) :
    evalCalc env fuel (i ++ ' ' :: s ++ ' ' :: Nat.toDigits 10 n) = compareTexts op (Nat.toDigits 10 k) (Nat.toDigits 10 n) := by
  have key := Props.calc_text_evaluates [(i, ⟨.identifier, i⟩), (s, sym op),
      (Nat.toDigits 10 n, ⟨.numericLiteral, Nat.toDigits 10 n⟩)]
    (by
      intro w h
      simp only [List.mem_cons, List.not_mem_nil, or_false] at h
      rcases h with rfl | rfl | rfl
      · exact isName_word hi
      · simp only [List.mem_cons, List.not_mem_nil, or_false, Prod.mk.injEq] at hs
        rcases hs with ⟨rfl, rfl⟩ | ⟨rfl, rfl⟩ <;> exact .operator (by decide)
      · exact numeral_word hn)
    (.comparison (.variable i) op (numeral n))
    (Spells.compare (a := [_]) (b := [_])
      (by
        simp only [List.mem_cons, List.not_mem_nil, or_false, Prod.mk.injEq] at hs
        rcases hs with ⟨rfl, rfl⟩ | ⟨rfl, rfl⟩ <;> decide)
      (.ofConcat (.ofExpr (.ofTerm (.ofFactor (.variable (isName_varName hi).plain)))))
      (.ofExpr (.ofTerm (.ofFactor (numeral_spells n))))) env fuel (by simpa using hf)
  simp only [List.map_cons, List.map_nil, spaced] at key
  rw [List.append_assoc]
  refine key.trans ?_
  rw [evalNode, if_pos (by
    simp only [List.mem_cons, List.not_mem_nil, or_false, Prod.mk.injEq] at hs
    rcases hs with ⟨rfl, rfl⟩ | ⟨rfl, rfl⟩ <;> rfl), evalNode_counter hi hv hf, eval_numeral env fuel hn]
  rfl

/-- What the calculator sees of `withVar`. -/
theorem varValue_withVar {w : World} {d : Nat} {i v : Str} (hd : d < w.vars.length) :
    varValue ⟨(withVar w (d + 1) i v).db, d + 1, (withVar w (d + 1) i v).vars⟩ i = some v := by
  unfold varValue withVar
  simp only [Nat.add_sub_cancel, List.getElem?_modify_eq]
  rw [List.getElem?_eq_getElem hd]
  show SMap.get (SMap.insert _ i v) i = some v
  rw [SMap.get_insert, if_pos rfl]

theorem withVar_length {w : World} {d : Nat} {i v : Str} : (withVar w d i v).vars.length = w.vars.length := by
  unfold withVar; simp

variable {ev : Calculator} {p : Profile}

/-- Setting a variable. -/
theorem effect_setVariable {d : Nat} {w : World} {i c v : Str} (hd : d < w.vars.length)
    (hv : w.eval ev (d + 1) c = .ok v) :
    effect ev p (d + 1) (instr .setVariable [i, c]) w = .ok (withVar w (d + 1) i v) := by
  have h0 : (instr .setVariable [i, c]).switch 0 = .ok i := rfl
  have h1 : (instr .setVariable [i, c]).switch 1 = .ok c := rfl
  unfold effect
  simp only [instr] at h0 h1 ⊢
  rw [h0, h1]
  simp only [ev_ok_bind]
  rw [hv]
  simp only [ev_ok_bind, Nat.add_sub_cancel]
  rw [modIdx_of _ hd]
  show Except.ok _ = Except.ok _
  congr 1
  unfold withVar
  congr 1
  rw [Nat.add_sub_cancel, List.modify_eq_set_getElem? ]
  simp [List.getElem?_eq_getElem hd]

/-- A step that does not set `i` keeps its value. -/
theorem effect_keeps {d : Nat} {s : ScriptStep} {w w' : World} {i : Str} (hk : Keeps i s)
    (h : effect ev p (d + 1) s w = .ok w') (hd : d < w.vars.length) :
    w'.vars.length = w.vars.length ∧
      varValue ⟨w'.db, d + 1, w'.vars⟩ i = varValue ⟨w.db, d + 1, w.vars⟩ i := by
  by_cases ho : s.opcode = .setVariable
  · unfold effect at h
    rw [ho] at h
    simp only [ev_bind_ok, ev_pure, liftR_ok] at h
    obtain ⟨n, hn, c, -, v, -, vs, hv, he⟩ := h
    injection he with he; subst he
    obtain ⟨a, ha, rfl⟩ := modIdx_set hv
    refine ⟨by simp, ?_⟩
    unfold varValue
    simp only [Nat.add_sub_cancel] at ha ⊢
    rw [List.getElem?_set_self hd, ha]
    show SMap.get (SMap.insert a n v) i = SMap.get a i
    have : i ≠ n := by
      rintro rfl
      apply hk ho
      unfold ScriptStep.switch at hn
      exact idx_ok.mp (liftR_ok.mp hn)
    rw [SMap.get_insert, if_neg this]
  · rcases effect_vars h with h | ⟨h, -⟩
    · unfold varValue; rw [h]; exact ⟨rfl, rfl⟩
    · exact absurd h ho

theorem runBody_keeps {d : Nat} {i : Str} : ∀ {b : List ScriptStep} {w w' : World}, (∀ s ∈ b, Keeps i s) →
    runBody ev p (d + 1) b w = .ok w' → d < w.vars.length →
    w'.vars.length = w.vars.length ∧
      varValue ⟨w'.db, d + 1, w'.vars⟩ i = varValue ⟨w.db, d + 1, w.vars⟩ i
  | [], w, w', _, h, _ => by
    rw [runBody] at h; injection h with h; subst h; exact ⟨rfl, rfl⟩
  | s :: ss, w, w', hk, h, hd => by
    rw [runBody, ev_bind_ok] at h
    obtain ⟨w1, h1, h2⟩ := h
    obtain ⟨e1, e2⟩ := effect_keeps (hk s (by simp)) h1 hd
    split at h2
    · injection h2 with h2; subst h2; exact ⟨e1, e2⟩
    · obtain ⟨f1, f2⟩ := runBody_keeps (fun x hx => hk x (by simp [hx])) h2 (by omega)
      exact ⟨f1.trans e1, f2.trans e2⟩

theorem runBody_append {d : Nat} : ∀ {a b : List ScriptStep} {w w1 : World}, w1.failed = false →
    runBody ev p d a w = .ok w1 → w.failed = false → runBody ev p d (a ++ b) w = runBody ev p d b w1
  | [], b, w, w1, _, h, _ => by
    rw [runBody] at h; injection h with h; subst h; rfl
  | s :: ss, b, w, w1, hw1, h, _ => by
    rw [runBody, ev_bind_ok] at h
    obtain ⟨w2, h1, h2⟩ := h
    rw [List.cons_append, runBody, h1, ev_ok_bind]
    cases hf : w2.failed with
    | true =>
      rw [hf] at h2
      rw [if_pos rfl] at h2
      injection h2 with h2; subst h2
      rw [hf] at hw1; cases hw1
    | false =>
      rw [hf] at h2
      rw [if_neg (by decide)] at h2 ⊢
      exact runBody_append hw1 h2 hf

/-- The rounds of a loop whose exit condition depends on the counter only. -/
theorem rounds_iterate [LawfulRt] {fuel : Nat} (hf : 40 ≤ fuel) {d : Nat} {i c : Str} {b : List ScriptStep} {n : Nat}
    (hi : IsName i) (hn : n ≤ 2 ^ 53) (hb : ∀ s ∈ b, Keeps i s) (stop : Nat → Bool) (hstop : stop n = true)
    (hgo : ∀ k, k < n → stop k = false)
    (hc : ∀ (env : CalcEnv) k, k ≤ n → varValue env i = some (Nat.toDigits 10 k) →
      evalCalc env fuel c = .ok (boolText (stop k))) {k : Nat} {w w' : World}
    (h : Rounds (fun env => evalCalc env fuel) p (d + 1) i b n k w w') (hd : d < w.vars.length) (hw : w.failed = false) :
    w'.vars.length = w.vars.length ∧
    Iterates (fun env => evalCalc env fuel) p (d + 1) [] c (b ++ [instr .setVariable [i, i ++ t!" + 1"]]) (n - k)
      (withVar w (d + 1) i (Nat.toDigits 10 k)) (withVar w' (d + 1) i (Nat.toDigits 10 n)) := by
  induction h with
  | stop =>
    rw [Nat.sub_self]
    refine ⟨rfl, .exit rfl hw ?_⟩
    show evalCalc _ _ _ = _
    rw [hc _ n (Nat.le_refl _) (varValue_withVar hd), hstop]
    rfl
  | @round k w w1 w' hk hr hf1 _ ih =>
    obtain ⟨e1, e2⟩ := runBody_keeps hb hr (by rw [withVar_length]; exact hd)
    rw [withVar_length] at e1
    obtain ⟨g1, g2⟩ := ih (by omega) hf1
    refine ⟨by omega, ?_⟩
    rw [show n - k = (n - (k + 1)) + 1 by omega]
    refine .again (v := t!"false") (w1 := withVar w (d + 1) i (Nat.toDigits 10 k)) rfl hw ?_ (by decide)
      (w2 := withVar w1 (d + 1) i (Nat.toDigits 10 (k + 1))) ?_ hf1 g2
    · show evalCalc _ _ _ = _
      rw [hc _ k (by omega) (varValue_withVar hd), hgo k hk]
      rfl
    · rw [runBody_append hf1 hr hw, runBody]
      rw [effect_setVariable (v := Nat.toDigits 10 (k + 1)) (by omega)]
      · rw [ev_ok_bind]
        split
        · rfl
        · rfl
      · exact evalCalc_next hi (e2.trans (varValue_withVar hd)) (by omega) hf

end BurnFm
