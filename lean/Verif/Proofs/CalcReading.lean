import Verif.Proofs.CalcCall
import Verif.Spec.CalcReading

/-! The calculation parser reads what the complete grammar says. -/

namespace BurnFm
open Spec
variable [Rt]

/-- The parsing function of a level. -/
def parseAt (ts : List Tok) (l : Level) (f i : Nat) : Ev (Node Rt.F × Nat) :=
  match l with
  | .factor => parseFactor ts f i
  | .term => parseTerm ts f i
  | .expr => parseExpr ts f i
  | .concat => parseConcatenation ts f i
  | .cmp => parseComparison ts f i

/-- The loop of a level. -/
def loopAt (ts : List Tok) (l : Level) (f : Nat) (e : Node Rt.F) (i : Nat) : Ev (Node Rt.F × Nat) :=
  match l with
  | .factor => .ok (e, i)
  | .term => termLoop ts f e i
  | .expr => exprLoop ts f e i
  | .concat => concatenationLoop ts f e i
  | .cmp => comparisonLoop ts f e i

/-- Where a loop leaves the index. -/
def exitAt (ts : List Tok) (l : Level) (i : Nat) : Nat := if l = .cmp then advance ts i else i

theorem exitAt_operand (ts : List Tok) (l : Level) (i : Nat) : exitAt ts l.operand i = i := by
  cases l <;> rfl

theorem parseAt_zero (ts : List Tok) (l : Level) (i : Nat) : parseAt ts l 0 i = .error .fuel := by
  cases l <;> simp [parseAt, parseFactor, parseTerm, parseExpr, parseConcatenation, parseComparison]

theorem loopAt_zero (ts : List Tok) (l : Level) (hl : l ≠ .factor) (e : Node Rt.F) (i : Nat) :
    loopAt ts l 0 e i = .error .fuel := by
  cases l <;> simp_all [loopAt, termLoop, exprLoop, concatenationLoop, comparisonLoop]

theorem parseAt_succ (ts : List Tok) (l : Level) (hl : l ≠ .factor) (f i : Nat) :
    parseAt ts l (f + 1) i = parseAt ts l.operand f i >>= fun x => loopAt ts l f x.1 x.2 := by
  cases l with
  | factor => exact absurd rfl hl
  | term => exact by show parseTerm _ _ _ = _; rw [parseTerm]; rfl
  | expr => exact by show parseExpr _ _ _ = _; rw [parseExpr]; rfl
  | concat => exact by show parseConcatenation _ _ _ = _; rw [parseConcatenation]; rfl
  | cmp => exact by show parseComparison _ _ _ = _; rw [parseComparison]; rfl

theorem drop_at {ts : List Tok} {i : Nat} {o : Tok} (h : ts[i]? = some o) : ts.drop i = o :: ts.drop (i + 1) := by
  obtain ⟨hi, rfl⟩ := List.getElem?_eq_some_iff.mp h
  exact List.drop_eq_getElem_cons hi

theorem ahead_drop {ts : List Tok} {i : Nat} (h : i < ts.length) : ahead (ts.drop i) = ts.drop (advance ts i) := by
  by_cases hl : i = ts.length - 1
  · rw [advance_last hl, drop_at (List.getElem?_eq_getElem h), List.drop_eq_nil_of_le (by omega)]
    rfl
  · rw [advance_step hl, drop_at (List.getElem?_eq_getElem h),
      drop_at (i := i + 1) (List.getElem?_eq_getElem (by omega : i + 1 < ts.length))]
    rfl

theorem advance_lt {ts : List Tok} {i : Nat} (h : i < ts.length) : advance ts i < ts.length := by
  by_cases hl : i = ts.length - 1
  · rw [advance_last hl]; exact h
  · rw [advance_step hl]; omega

theorem mem_comparison (t : TokenType) : t ∈ Level.cmp.operators ↔ isComparison t = true := by
  cases t <;> simp [Level.operators, isComparison]

theorem mem_multiplicative (t : TokenType) : t ∈ Level.term.operators ↔ isMultiplicative t = true := by
  cases t <;> simp [Level.operators, isMultiplicative]

theorem mem_additive (t : TokenType) : t ∈ Level.expr.operators ↔ isAdditive t = true := by
  cases t <;> simp [Level.operators, isAdditive]

theorem mem_ampersand (t : TokenType) : t ∈ Level.concat.operators ↔ t = .ampersand := by
  cases t <;> simp [Level.operators]

/-- Below comparisons, complete means that no operator is ahead. -/
theorem complete_iff {ts : List Tok} {l : Level} (hl : l ≠ .cmp) {i : Nat} {o : Tok} (h : ts[i]? = some o) :
    Complete l (ts.drop i) ↔ o.ty ∉ l.operators := by
  rw [drop_at h]
  cases ts.drop (i + 1) with
  | nil => simp [Complete, hl]
  | cons _ _ => rfl

theorem complete_cmp {ts : List Tok} {i : Nat} {o : Tok} (h : ts[i]? = some o) :
    Complete .cmp (ts.drop i) ↔ i = ts.length - 1 ∨ o.ty ∉ Level.cmp.operators := by
  have hi := (List.getElem?_eq_some_iff.mp h).1
  rw [drop_at h]
  by_cases hl : i = ts.length - 1
  · rw [List.drop_eq_nil_of_le (by omega)]
    simp [Complete, hl]
  · rw [drop_at (i := i + 1) (List.getElem?_eq_getElem (by omega : i + 1 < ts.length))]
    simp [Complete, hl]

theorem complete_factor {ts : List Tok} {i : Nat} (h : i < ts.length) : Complete .factor (ts.drop i) := by
  rw [complete_iff (by simp) (List.getElem?_eq_getElem h)]
  simp [Level.operators]

/-- A loop ends where the expression is complete. -/
theorem loopAt_exit {ts : List Tok} {l : Level} {i : Nat} (hi : i < ts.length) (hc : Complete l (ts.drop i)) (f : Nat) (e : Node Rt.F) :
    loopAt ts l (f + 1) e i = .ok (e, exitAt ts l i) := by
  have h := List.getElem?_eq_getElem hi
  cases l with
  | factor => rfl
  | term =>
    rw [complete_iff (by simp) h, mem_multiplicative] at hc
    show termLoop _ _ _ _ = _
    rw [termLoop, current_ok.mpr h, ev_ok_bind, if_neg hc]; rfl
  | expr =>
    rw [complete_iff (by simp) h, mem_additive] at hc
    show exprLoop _ _ _ _ = _
    rw [exprLoop, current_ok.mpr h, ev_ok_bind, if_neg hc]; rfl
  | concat =>
    rw [complete_iff (by simp) h, mem_ampersand] at hc
    show concatenationLoop _ _ _ _ = _
    rw [concatenationLoop, current_ok.mpr h, ev_ok_bind, if_neg hc]; rfl
  | cmp =>
    rw [complete_cmp h, mem_comparison] at hc
    show comparisonLoop _ _ _ _ = _
    rw [comparisonLoop, current_ok.mpr h, ev_ok_bind]
    by_cases hl : i = ts.length - 1
    · simp [nextIdx, hl, exitAt, advance]; rfl
    · simp [nextIdx, hl, exitAt, advance, hc.resolve_left hl]; rfl

theorem combine_multiplicative {t : TokenType} (h : isMultiplicative t = true) (x y : Node Rt.F) : combine t x y = .binary x t y := by
  cases t <;> simp_all [isMultiplicative, combine]

theorem combine_additive {t : TokenType} (h : isAdditive t = true) (x y : Node Rt.F) : combine t x y = .binary x t y := by
  cases t <;> simp_all [isAdditive, combine]

theorem combine_comparison {t : TokenType} (h : isComparison t = true) (x y : Node Rt.F) : combine t x y = .comparison x t y := by
  cases t <;> simp_all [isComparison, combine]

/-- Otherwise an operator and an operand are added. -/
theorem loopAt_step {ts : List Tok} {l : Level} {i : Nat} {o : Tok} (h : ts[i]? = some o) (hc : ¬ Complete l (ts.drop i)) (f : Nat)
    (e : Node Rt.F) : loopAt ts l (f + 1) e i =
      parseAt ts l.operand f (advance ts i) >>= fun x => loopAt ts l f (combine o.ty e x.1) x.2 := by
  have hi := (List.getElem?_eq_some_iff.mp h).1
  cases l with
  | factor => exact absurd (complete_factor hi) hc
  | term =>
    rw [complete_iff (by simp) h, mem_multiplicative, Classical.not_not] at hc
    show termLoop _ _ _ _ = _
    rw [termLoop, current_ok.mpr h, ev_ok_bind, if_pos hc]
    simp only [combine_multiplicative hc]; rfl
  | expr =>
    rw [complete_iff (by simp) h, mem_additive, Classical.not_not] at hc
    show exprLoop _ _ _ _ = _
    rw [exprLoop, current_ok.mpr h, ev_ok_bind, if_pos hc]
    simp only [combine_additive hc]; rfl
  | concat =>
    rw [complete_iff (by simp) h, mem_ampersand, Classical.not_not] at hc
    show concatenationLoop _ _ _ _ = _
    rw [concatenationLoop, current_ok.mpr h, ev_ok_bind, if_pos hc]
    simp only [hc]; rfl
  | cmp =>
    rw [complete_cmp h, mem_comparison, not_or, Classical.not_not] at hc
    show comparisonLoop _ _ _ _ = _
    rw [comparisonLoop, current_ok.mpr h, ev_ok_bind]
    simp only [nextIdx, hc.1, hc.2, if_false, if_true, combine_comparison hc.2, advance, Option.getD]; rfl

/-- What the parser reads is in the grammar. -/
theorem parse_understood (ts : List Tok) (f : Nat) :
    (∀ l i e j, parseAt ts l f i = .ok (e, j) → ∃ k, k < ts.length ∧ Understood (.node l e) (ts.drop i) (ts.drop k) ∧
      Complete l (ts.drop k) ∧ j = exitAt ts l k) ∧
    (∀ l s i e e' j, l ≠ .factor → loopAt ts l f e i = .ok (e', j) → Understood (.node l e) s (ts.drop i) →
      ∃ k, k < ts.length ∧ Understood (.node l e') s (ts.drop k) ∧ Complete l (ts.drop k) ∧ j = exitAt ts l k) ∧
    (∀ i es j, i < ts.length → parseArgs ts f i = .ok (es, j) →
      j < ts.length ∧ Understood (.arguments es) (ts.drop (advance ts i)) (ts.drop j)) := by
  induction f with
  | zero =>
    refine ⟨fun l i e j h => ?_, fun l s i e e' j hl h => ?_, fun i es j _ h => ?_⟩
    · rw [parseAt_zero] at h; cases h
    · rw [loopAt_zero _ _ hl] at h; cases h
    · rw [parseArgs] at h; cases h
  | succ f ih =>
    obtain ⟨h1, h2, h3⟩ := ih
    refine ⟨fun l i e j h => ?_, fun l s i e e' j hl h hu => ?_, fun i es j hi h => ?_⟩
    · by_cases hl : l = .factor
      · subst hl
        replace h : parseFactor ts (f + 1) i = .ok (e, j) := h
        rw [parseFactor, ev_bind_ok] at h
        obtain ⟨cur, hc, h⟩ := h
        have hc' := current_ok.mp hc
        have hi := (List.getElem?_eq_some_iff.mp hc').1
        have simple : ∀ {x : Node Rt.F}, Understood (.node .factor x) (ts.drop i) (ahead (ts.drop i)) →
            (pure (x, advance ts i) : Ev (Node Rt.F × Nat)) = .ok (e, j) → ∃ k, k < ts.length ∧
            Understood (.node .factor e) (ts.drop i) (ts.drop k) ∧ Complete .factor (ts.drop k) ∧ j = exitAt ts .factor k := by
          intro x hx hh
          injection hh with hh; injection hh with ha hb
          subst ha hb
          exact ⟨_, advance_lt hi, ahead_drop hi ▸ hx, complete_factor (advance_lt hi), rfl⟩
        obtain ⟨ty, val⟩ := cur
        cases ty
        case identifier =>
          simp only at h
          split at h
          · rename_i h2'
            exact simple (by rw [drop_at hc']; exact .field h2') h
          · rename_i h2'
            split at h
            · rename_i hpk
              rw [ev_bind_ok] at h
              obtain ⟨⟨es, k⟩, ha, hh⟩ := h
              obtain ⟨hk, hu⟩ := h3 i es k hi ha
              injection hh with hh; injection hh with ha hb
              subst ha hb
              unfold peekType at hpk
              split at hpk
              · cases hpk
              · rename_i hnl
                have hlt : i + 1 < ts.length := by omega
                have hg := List.getElem?_eq_getElem hlt
                rw [hg] at hpk
                rw [advance_step hnl, drop_at hg] at hu
                refine ⟨_, advance_lt hk, ?_, complete_factor (advance_lt hk), rfl⟩
                rw [drop_at hc', drop_at hg, ← ahead_drop hk]
                exact .call h2' (Option.some.inj hpk) hu
            · rename_i hpk
              refine simple ?_ h
              rw [drop_at hc']
              refine Understood.name h2' (fun t ht hty => hpk ?_)
              unfold peekType
              rw [List.head?_drop] at ht
              have := (List.getElem?_eq_some_iff.mp ht).1
              rw [if_neg (by omega), ht]
              simp [hty]
        case numericLiteral =>
          simp only at h
          rw [ev_bind_ok] at h
          obtain ⟨x, hx, h⟩ := h
          rw [liftR_ok] at hx
          refine simple ?_ h
          rw [drop_at hc']
          refine .number ?_
          cases hp : parseF64 val with
          | none => rw [hp] at hx; cases hx
          | some y => rw [hp] at hx; cases hx; rfl
        case string => exact simple (by rw [drop_at hc']; exact .string) h
        case openParen =>
          simp only at h
          obtain ⟨k, hk, hu, hc2, rfl⟩ := h1 .cmp _ _ _ h
          refine ⟨_, advance_lt hk, ?_, complete_factor (advance_lt hk), rfl⟩
          rw [← ahead_drop hi] at hu
          rw [← ahead_drop hk]
          rw [drop_at hc'] at hu ⊢
          exact .paren rfl hu hc2
        all_goals simp only at h; cases h
      · rw [parseAt_succ _ _ hl, ev_bind_ok] at h
        obtain ⟨⟨x, k⟩, hx, h⟩ := h
        obtain ⟨k', hk, hu, hc, rfl⟩ := h1 _ _ _ _ hx
        rw [exitAt_operand] at h
        exact h2 l _ _ _ _ _ hl h (.alone hl hu hc)
    · have hi : i < ts.length := by
        refine Nat.lt_of_not_le (fun hn => ?_)
        have hnone : current ts i = .error (.panic .index) := by
          unfold current idx; rw [List.getElem?_eq_none (by omega)]; rfl
        cases l with
        | factor => exact hl rfl
        | term => replace h : termLoop ts (f + 1) e i = _ := h; rw [termLoop, hnone] at h; cases h
        | expr => replace h : exprLoop ts (f + 1) e i = _ := h; rw [exprLoop, hnone] at h; cases h
        | concat => replace h : concatenationLoop ts (f + 1) e i = _ := h; rw [concatenationLoop, hnone] at h; cases h
        | cmp => replace h : comparisonLoop ts (f + 1) e i = _ := h; rw [comparisonLoop, hnone] at h; cases h
      by_cases hc : Complete l (ts.drop i)
      · rw [loopAt_exit hi hc] at h
        injection h with h; injection h with ha hb
        subst ha
        exact ⟨i, hi, hu, hc, hb.symm⟩
      · have hg := List.getElem?_eq_getElem hi
        rw [loopAt_step hg hc, ev_bind_ok] at h
        obtain ⟨⟨x, k⟩, hx, h⟩ := h
        obtain ⟨k', hk, hu', hc', rfl⟩ := h1 _ _ _ _ hx
        rw [exitAt_operand] at h
        refine h2 l _ _ _ _ _ hl h ?_
        rw [← ahead_drop hi] at hu'
        rw [drop_at hg] at hu hu' hc
        exact .operation hu hc hu' hc'
    · rw [parseArgs, ev_bind_ok] at h
      obtain ⟨⟨x, k⟩, hx, h⟩ := h
      obtain ⟨k', hk, hu, hc, hkk⟩ := h1 .expr _ _ _ hx
      have hkk' : k = k' := hkk
      subst hkk'
      rw [ev_bind_ok] at h
      obtain ⟨cur, hcur, h⟩ := h
      have hcur' := current_ok.mp hcur
      split at h
      · rename_i hcomma
        rw [ev_bind_ok] at h
        obtain ⟨⟨es', m⟩, hm, hh⟩ := h
        obtain ⟨hml, hum⟩ := h3 _ _ _ hk hm
        injection hh with hh; injection hh with ha hb
        subst ha hb
        refine ⟨hml, ?_⟩
        rw [← ahead_drop hk] at hum
        rw [drop_at hcur'] at hu hum
        exact .argument hu hcomma hum
      · rename_i hcomma
        injection h with hh; injection hh with ha hb
        subst ha hb
        refine ⟨hk, .lastArgument hu hc (fun t ht => ?_)⟩
        rw [drop_at hcur'] at ht
        injection ht with ht
        subst ht; exact hcomma

/-- What is in the grammar the parser reads. -/
theorem understood_parse {x : Phrase Rt.F} {s r : List Tok} (h : Understood x s r) (ts : List Tok) :
    ∀ i, i < ts.length → s = ts.drop i → ∃ j, j < ts.length ∧ r = ts.drop j ∧
      match x with
      | .node l e => ∀ R, Evals (fun f => loopAt ts l f e j) R → Evals (fun f => parseAt ts l f i) R
      | .arguments es => ∀ i', advance ts i' = i → Evals (fun f => parseArgs ts f i') (.ok (es, j)) := by
  have headAt : ∀ {i : Nat} {t : Tok} {r : List Tok}, t :: r = ts.drop i → ts[i]? = some t ∧ r = ts.drop (i + 1) := by
    intro i t r hh
    have h1 : ts[i]? = some t := by rw [← List.head?_drop, ← hh]; rfl
    exact ⟨h1, by rw [drop_at h1] at hh; injection hh⟩
  have leaf : ∀ {i : Nat} {t : Tok} {r : List Tok} {x : Node Rt.F}, i < ts.length → t :: r = ts.drop i →
      (∀ f, parseFactor ts (f + 1) i = .ok (x, advance ts i)) →
      ∃ j, j < ts.length ∧ ahead (t :: r) = ts.drop j ∧
        ∀ R, Evals (fun f => loopAt ts .factor f x j) R → Evals (fun f => parseAt ts .factor f i) R := by
    intro i t r x hi hh hp
    refine ⟨_, advance_lt hi, by rw [hh, ahead_drop hi], fun R hR => ?_⟩
    have : R = .ok (x, advance ts i) := by
      obtain ⟨n, hn⟩ := hR
      exact (hn n (Nat.le_refl _)).symm
    subst this
    exact Evals.succ (Evals.const _) hp
  have exits : ∀ {l : Level} {k : Nat} (e : Node Rt.F), k < ts.length → Complete l (ts.drop k) →
      Evals (fun f => loopAt ts l f e k) (.ok (e, exitAt ts l k)) := by
    intro l k e hk hc
    refine ⟨1, fun f hf => ?_⟩
    obtain ⟨g, rfl⟩ : ∃ g, f = g + 1 := ⟨f - 1, by omega⟩
    exact loopAt_exit hk hc g e
  induction h with
  | @number s x r hx =>
    intro i hi hh
    obtain ⟨hg, -⟩ := headAt hh
    refine leaf hi hh (fun f => ?_)
    rw [parseFactor, current_ok.mpr hg, ev_ok_bind]
    simp only [hx, unwrap, liftR, ev_ok_bind]
    rfl
  | @string s r =>
    intro i hi hh
    obtain ⟨hg, -⟩ := headAt hh
    refine leaf hi hh (fun f => ?_)
    rw [parseFactor, current_ok.mpr hg, ev_ok_bind]
    rfl
  | @field s r h2 =>
    intro i hi hh
    obtain ⟨hg, -⟩ := headAt hh
    refine leaf hi hh (fun f => ?_)
    rw [parseFactor, current_ok.mpr hg, ev_ok_bind]
    simp only [if_pos h2]
    rfl
  | @name s r h2 hn =>
    intro i hi hh
    obtain ⟨hg, hr⟩ := headAt hh
    refine leaf hi hh (fun f => ?_)
    rw [parseFactor, current_ok.mpr hg, ev_ok_bind]
    have : peekType ts i ≠ some .openParen := by
      unfold peekType
      split
      · simp
      · intro hp
        obtain ⟨t, ht, hty⟩ := Option.map_eq_some_iff.mp hp
        exact hn t (by rw [hr, List.head?_drop, ht]) hty
    simp only [if_neg h2, if_neg this]
    rfl
  | @call s t r r' es h2 ht _ ih =>
    intro i hi hh
    obtain ⟨hg, hr⟩ := headAt hh
    obtain ⟨hg1, -⟩ := headAt hr
    have hi1 := (List.getElem?_eq_some_iff.mp hg1).1
    have hadv : advance ts i = i + 1 := advance_step (by omega)
    obtain ⟨j, hj, rfl, hE⟩ := ih (i + 1) hi1 hr
    refine ⟨_, advance_lt hj, ahead_drop hj, fun R hR => ?_⟩
    have : R = .ok (.call s es, advance ts j) := by
      obtain ⟨n, hn⟩ := hR
      exact (hn n (Nat.le_refl _)).symm
    subst this
    have hp : peekType ts i = some .openParen := by
      unfold peekType
      rw [if_neg (by omega), hg1]
      simp [ht]
    refine Evals.succ (Evals.bind (k := fun x _ => (pure (Node.call s x.1, advance ts x.2) : Ev _)) (hE i hadv) (Evals.const _))
      (fun f => ?_)
    show parseFactor ts (f + 1) i = _
    rw [parseFactor, current_ok.mpr hg, ev_ok_bind]
    simp only [if_neg h2, if_pos hp]
  | @lastArgument e s r _ hc hn ih =>
    intro i hi hh
    obtain ⟨j, hj, rfl, hE⟩ := ih i hi hh
    refine ⟨j, hj, rfl, fun i' hi' => ?_⟩
    have h1 := hE _ (exits e hj hc)
    have hg := List.getElem?_eq_getElem hj
    refine Evals.succ (Evals.bind (k := fun x f => current ts x.2 >>= fun cur => if cur.ty = .comma then do
            let (args, k) ← parseArgs ts f x.2
            pure (x.1 :: args, k) else pure ([x.1], x.2)) h1 (a := (e, j)) ?_) (fun f => by rw [parseArgs, hi']; rfl)
    simp only [current_ok.mpr hg, ev_ok_bind]
    simp only [if_neg (hn _ (by rw [List.head?_drop, hg]))]
    exact Evals.const _
  | @argument e es s r r' t _ ht _ ih1 ih2 =>
    intro i hi hh
    obtain ⟨j, hj, hjr, hE⟩ := ih1 i hi hh
    obtain ⟨hg, -⟩ := headAt hjr
    have hc : Complete .expr (ts.drop j) := by
      rw [complete_iff (by simp) hg, ht]; simp [Level.operators]
    have h1 := hE _ (exits e hj hc)
    obtain ⟨m, hm, rfl, hM⟩ := ih2 (advance ts j) (advance_lt hj) (by rw [hjr, ahead_drop hj])
    refine ⟨m, hm, rfl, fun i' hi' => ?_⟩
    refine Evals.succ (Evals.bind (k := fun x f => current ts x.2 >>= fun cur => if cur.ty = .comma then do
            let (args, k) ← parseArgs ts f x.2
            pure (x.1 :: args, k) else pure ([x.1], x.2)) h1 (a := (e, j)) ?_) (fun f => by rw [parseArgs, hi']; rfl)
    simp only [current_ok.mpr hg, ev_ok_bind]
    simp only [if_pos ht]
    exact Evals.bind (k := fun x _ => (pure (e :: x.1, x.2) : Ev _)) (hM j rfl) (Evals.const _)
  | @paren t e r r' ht _ hc ih =>
    intro i hi hh
    obtain ⟨hg, -⟩ := headAt hh
    obtain ⟨j, hj, rfl, hE⟩ := ih (advance ts i) (advance_lt hi) (by rw [hh, ahead_drop hi])
    refine ⟨_, advance_lt hj, ahead_drop hj, fun R hR => ?_⟩
    have : R = .ok (e, advance ts j) := by
      obtain ⟨n, hn⟩ := hR
      exact (hn n (Nat.le_refl _)).symm
    subst this
    refine Evals.succ (hE _ (exits e hj hc)) (fun f => ?_)
    show parseFactor ts (f + 1) i = _
    rw [parseFactor, current_ok.mpr hg, ev_ok_bind]
    simp only [ht]
    rfl
  | @alone l e s r hl _ hc ih =>
    intro i hi hh
    obtain ⟨j, hj, rfl, hE⟩ := ih i hi hh
    refine ⟨j, hj, rfl, fun R hR => ?_⟩
    have h1 := hE _ (exits e hj hc)
    rw [exitAt_operand] at h1
    exact Evals.succ (Evals.bind (k := fun x f => loopAt ts l f x.1 x.2) h1 hR) (fun f => parseAt_succ ts l hl f i)
  | @operation l e e' s r r' o _ hn _ hc ih1 ih2 =>
    intro i hi hh
    obtain ⟨j, hj, hjr, hE⟩ := ih1 i hi hh
    obtain ⟨hg, -⟩ := headAt hjr
    obtain ⟨m, hm, rfl, hM⟩ := ih2 (advance ts j) (advance_lt hj) (by rw [hjr, ahead_drop hj])
    refine ⟨m, hm, rfl, fun R hR => hE R ?_⟩
    have h1 := hM _ (exits e' hm hc)
    rw [exitAt_operand] at h1
    rw [hjr] at hn
    exact Evals.succ (Evals.bind (k := fun x f => loopAt ts l f (combine o.ty e x.1) x.2) h1 hR) (fun f => loopAt_step hg hn f e)

theorem parseAt_forward {ts : List Tok} {l : Level} {f i j : Nat} {e : Node Rt.F} (h : parseAt ts l f i = .ok (e, j)) : i ≤ j := by
  have := parse_forward ts f
  cases l with
  | factor => exact this.2.2.2.2.2.2.2.2.1 _ _ _ h
  | term => exact this.2.2.2.2.2.2.1 _ _ _ h
  | expr => exact this.2.2.2.2.1 _ _ _ h
  | concat => exact this.2.2.1 _ _ _ h
  | cmp => exact this.1 _ _ _ h

theorem bind_fuel {α β : Type} {a : Ev α} {k : α → Ev β} (h : (a >>= k) = .error .fuel) :
    a = .error .fuel ∨ ∃ x, a = .ok x ∧ k x = .error .fuel := by
  cases a with
  | error e => rw [ev_error_bind] at h; injection h with h; subst h; exact .inl rfl
  | ok x => exact .inr ⟨x, rfl, h⟩

/-- At an operator that is the last token there is no operand. -/
theorem operand_panics {ts : List Tok} {l : Level} (hl : l ≠ .cmp) {i : Nat} {o : Tok} (h : ts[i]? = some o) (ho : o.ty ∈ l.operators)
    (f : Nat) : parseAt ts l.operand (f + 3) i = .error (.panic .unwrap) := by
  cases l with
  | factor => simp [Level.operators] at ho
  | term => exact factor_panics h (noOperand_multiplicative ((mem_multiplicative _).mp ho)) _
  | expr => exact term_panics h (noOperand_additive ((mem_additive _).mp ho)) _
  | concat => exact expr_panics h (noOperand_ampersand ((mem_ampersand _).mp ho)) _
  | cmp => exact absurd rfl hl

/-- If the parser goes deeper than ten levels for every token, plus ten, it comes to an opening parenthesis at the end. -/
theorem parse_comes (ts : List Tok) (f : Nat) :
    (∀ l i, 10 * (ts.length - i) + 2 * l.rank + 2 ≤ f → parseAt ts l f i = .error .fuel → Comes (some l) (ts.drop i)) ∧
    (∀ l s i e, l ≠ .factor → 10 * (ts.length - i) + 2 * l.rank + 1 ≤ f → loopAt ts l f e i = .error .fuel →
      Understood (.node l e) s (ts.drop i) → Comes (some l) s) ∧
    (∀ i, i < ts.length → (i = ts.length - 1 → ∃ t, ts[i]? = some t ∧ NoOperand t) →
      10 * (ts.length - i) + 1 ≤ f → parseArgs ts f i = .error .fuel → Comes none (ts.drop (advance ts i))) := by
  induction f with
  | zero => refine ⟨?_, ?_, ?_⟩ <;> intros <;> omega
  | succ f ih =>
    obtain ⟨h1, h2, h3⟩ := ih
    refine ⟨fun l i hf h => ?_, fun l s i e hl hf h hu => ?_, fun i hi hno hf h => ?_⟩
    · by_cases hl : l = .factor
      · subst hl
        replace h : parseFactor ts (f + 1) i = _ := h
        rw [parseFactor] at h
        rcases bind_fuel h with h | ⟨cur, hc, h⟩
        · exact absurd h (current_ne_fuel _ _)
        have hc' := current_ok.mp hc
        have hi := (List.getElem?_eq_some_iff.mp hc').1
        obtain ⟨ty, val⟩ := cur
        cases ty
        case identifier =>
          simp only at h
          split at h
          · cases h
          · rename_i h2'
            split at h
            · rename_i hpk
              unfold peekType at hpk
              split at hpk
              · cases hpk
              · rename_i hnl
                have hlt : i + 1 < ts.length := by omega
                have hg := List.getElem?_eq_getElem hlt
                rw [hg] at hpk
                rcases bind_fuel h with h | ⟨x, -, h⟩
                · have := h3 i hi (fun hl => absurd hl hnl) (by simp [Level.rank] at hf; omega) h
                  rw [advance_step hnl, drop_at hg] at this
                  rw [drop_at hc', drop_at hg]
                  exact .call h2' (Option.some.inj hpk) this
                · cases h
            · cases h
        case numericLiteral =>
          simp only at h
          rcases bind_fuel h with h | ⟨x, -, h⟩
          · exact absurd h (liftR_ne_fuel _)
          · cases h
        case openParen =>
          simp only at h
          by_cases hl : i = ts.length - 1
          · rw [drop_at hc', List.drop_eq_nil_of_le (by omega)]
            exact .here rfl
          · have := h1 .cmp (advance ts i) (by rw [advance_step hl]; simp [Level.rank] at hf ⊢; omega) h
            rw [← ahead_drop hi] at this
            rw [drop_at hc'] at this ⊢
            exact .paren rfl this
        all_goals simp only at h; cases h
      · rw [parseAt_succ _ _ hl] at h
        have hr : l.operand.rank + 1 = l.rank := by cases l <;> simp_all [Level.rank, Level.operand]
        rcases bind_fuel h with h | ⟨⟨x, k⟩, hx, h⟩
        · exact .first hl (h1 _ _ (by omega) h)
        · have hik := parseAt_forward hx
          obtain ⟨k', hk, hu, hc, rfl⟩ := (parse_understood ts f).1 _ _ _ _ hx
          rw [exitAt_operand] at h hik
          exact h2 l _ _ _ hl (by omega) h (.alone hl hu hc)
    · by_cases hi : i < ts.length
      · by_cases hc : Complete l (ts.drop i)
        · rw [loopAt_exit hi hc] at h; cases h
        · have hg := List.getElem?_eq_getElem hi
          have hr : l.operand.rank + 1 = l.rank := by cases l <;> simp_all [Level.rank, Level.operand]
          rw [loopAt_step hg hc] at h
          by_cases hlast : i = ts.length - 1
          · have hl' : l ≠ .cmp := by
              rintro rfl
              exact hc ((complete_cmp hg).mpr (.inl hlast))
            rw [complete_iff hl' hg, Classical.not_not] at hc
            obtain ⟨g, rfl⟩ : ∃ g, f = g + 3 := ⟨f - 3, by omega⟩
            rw [advance_last hlast, operand_panics hl' hg hc] at h
            cases h
          · rcases bind_fuel h with h | ⟨⟨x, k⟩, hx, h⟩
            · have := h1 _ _ (by rw [advance_step hlast]; omega) h
              rw [← ahead_drop hi] at this
              rw [drop_at hg] at hu this hc
              exact .later hu hc this
            · have hik := parseAt_forward hx
              rw [advance_step hlast] at hik
              obtain ⟨k', hk, hu', hc', rfl⟩ := (parse_understood ts f).1 _ _ _ _ hx
              rw [exitAt_operand] at h hik
              refine h2 l _ _ _ hl (by omega) h ?_
              rw [← ahead_drop hi] at hu'
              rw [drop_at hg] at hu hu' hc
              exact .operation hu hc hu' hc'
      · have hnone : current ts i = .error (.panic .index) := by
          unfold current idx; rw [List.getElem?_eq_none (by omega)]; rfl
        cases l with
        | factor => exact absurd rfl hl
        | term => replace h : termLoop ts (f + 1) e i = _ := h; rw [termLoop, hnone] at h; cases h
        | expr => replace h : exprLoop ts (f + 1) e i = _ := h; rw [exprLoop, hnone] at h; cases h
        | concat => replace h : concatenationLoop ts (f + 1) e i = _ := h; rw [concatenationLoop, hnone] at h; cases h
        | cmp => replace h : comparisonLoop ts (f + 1) e i = _ := h; rw [comparisonLoop, hnone] at h; cases h
    · rw [parseArgs] at h
      by_cases hl : i = ts.length - 1
      · obtain ⟨t, ht, hn⟩ := hno hl
        obtain ⟨g, rfl⟩ : ∃ g, f = g + 3 := ⟨f - 3, by omega⟩
        rw [advance_last hl, expr_panics ht hn] at h
        cases h
      · rcases bind_fuel h with h | ⟨⟨x, k⟩, hx, h⟩
        · exact .firstArgument (h1 .expr _ (by rw [advance_step hl]; simp [Level.rank]; omega) h)
        · have hik := parseAt_forward (l := .expr) hx
          rw [advance_step hl] at hik
          obtain ⟨k', hk, hu, hc, hkk⟩ := (parse_understood ts f).1 .expr _ _ _ hx
          have hkk' : k = k' := hkk
          subst hkk'
          rcases bind_fuel h with h | ⟨cur, hcur, h⟩
          · exact absurd h (current_ne_fuel _ _)
          · have hcur' := current_ok.mp hcur
            simp only at h
            split at h
            · rename_i hcomma
              rcases bind_fuel h with h | ⟨x, -, h⟩
              · have := h3 k hk (fun _ => ⟨cur, hcur', noOperand_comma hcomma⟩) (by omega) h
                rw [← ahead_drop hk] at this
                rw [drop_at hcur'] at hu this
                exact .laterArgument hu hcomma this
              · cases h
            · cases h

/-- If it comes there, it does not end. -/
theorem comes_hangs {x : Option Level} {s : List Tok} (h : Comes x s) (ts : List Tok) :
    ∀ i, i < ts.length → s = ts.drop i →
      match x with
      | some l => Evals (fun f => parseAt ts l f i) (.error .fuel)
      | none => ∀ i', advance ts i' = i → Evals (fun f => parseArgs ts f i') (.error .fuel) := by
  have headAt : ∀ {i : Nat} {t : Tok} {r : List Tok}, t :: r = ts.drop i → ts[i]? = some t ∧ r = ts.drop (i + 1) := by
    intro i t r hh
    have h1 : ts[i]? = some t := by rw [← List.head?_drop, ← hh]; rfl
    exact ⟨h1, by rw [drop_at h1] at hh; injection hh⟩
  induction h with
  | @here t ht =>
    intro i hi hh
    obtain ⟨hg, hr⟩ := headAt hh
    have hlen : (ts.drop (i + 1)).length = 0 := by rw [← hr]; rfl
    rw [List.length_drop] at hlen
    exact ⟨0, fun f _ => (diverges_at hg (by omega) ht f).1⟩
  | @paren t r ht _ ih =>
    intro i hi hh
    obtain ⟨hg, -⟩ := headAt hh
    refine Evals.succ (ih (advance ts i) (advance_lt hi) (by rw [hh, ahead_drop hi])) (fun f => ?_)
    show parseFactor ts (f + 1) i = _
    rw [parseFactor, current_ok.mpr hg, ev_ok_bind]
    simp only [ht]
    rfl
  | @call s t r h2 ht _ ih =>
    intro i hi hh
    obtain ⟨hg, hr⟩ := headAt hh
    obtain ⟨hg1, -⟩ := headAt hr
    have hi1 := (List.getElem?_eq_some_iff.mp hg1).1
    have hp : peekType ts i = some .openParen := by
      unfold peekType
      rw [if_neg (by omega), hg1]
      simp [ht]
    refine Evals.succ (evals_bind_fuel (k := fun x _ => (pure (Node.call s x.1, advance ts x.2) : Ev _))
      (ih (i + 1) hi1 hr i (advance_step (by omega)))) (fun f => ?_)
    show parseFactor ts (f + 1) i = _
    rw [parseFactor, current_ok.mpr hg, ev_ok_bind]
    simp only [if_neg h2, if_pos hp]
  | @firstArgument s _ ih =>
    intro i hi hh i' hi'
    refine Evals.succ (evals_bind_fuel (k := fun x f => current ts x.2 >>= fun cur => if cur.ty = .comma then do
            let (args, k) ← parseArgs ts f x.2
            pure (x.1 :: args, k) else pure ([x.1], x.2)) (ih i hi hh)) (fun f => by rw [parseArgs, hi']; rfl)
  | @laterArgument e s r t hu ht _ ih =>
    intro i hi hh i' hi'
    obtain ⟨j, hj, hjr, hE⟩ := understood_parse hu ts i hi hh
    obtain ⟨hg, -⟩ := headAt hjr
    have hc : Complete .expr (ts.drop j) := by
      rw [complete_iff (by simp) hg, ht]; simp [Level.operators]
    have h1 := hE (.ok (e, j)) ⟨1, fun f hf => by
      obtain ⟨g, rfl⟩ : ∃ g, f = g + 1 := ⟨f - 1, by omega⟩
      exact loopAt_exit hj hc g e⟩
    refine Evals.succ (Evals.bind (k := fun x f => current ts x.2 >>= fun cur => if cur.ty = .comma then do
            let (args, k) ← parseArgs ts f x.2
            pure (x.1 :: args, k) else pure ([x.1], x.2)) h1 (a := (e, j)) ?_) (fun f => by rw [parseArgs, hi']; rfl)
    simp only [current_ok.mpr hg, ev_ok_bind]
    simp only [if_pos ht]
    exact evals_bind_fuel (k := fun x _ => (pure (e :: x.1, x.2) : Ev _))
      (ih (advance ts j) (advance_lt hj) (by rw [hjr, ahead_drop hj]) j rfl)
  | @first l s hl _ ih =>
    intro i hi hh
    exact Evals.succ (evals_bind_fuel (k := fun x f => loopAt ts l f x.1 x.2) (ih i hi hh)) (fun f => parseAt_succ ts l hl f i)
  | @later l e s r o hu hn _ ih =>
    intro i hi hh
    obtain ⟨j, hj, hjr, hE⟩ := understood_parse hu ts i hi hh
    obtain ⟨hg, -⟩ := headAt hjr
    rw [hjr] at hn
    refine hE _ (Evals.succ (evals_bind_fuel (k := fun x f => loopAt ts l f (combine o.ty e x.1) x.2)
      (ih (advance ts j) (advance_lt hj) (by rw [hjr, ahead_drop hj]))) (fun f => loopAt_step hg hn f e))

theorem parseCalc_nil (f : Nat) : parseCalc (f + 5) ([] : List Tok) = .error (.panic .index) := by
  rw [parseCalc, parseComparison, parseConcatenation, parseExpr, parseTerm, parseFactor]; rfl

theorem not_understood_nil {x : Phrase Rt.F} {s r : List Tok} (h : Understood x s r) (hs : s = []) : False := by
  induction h <;> simp_all

theorem not_comes_nil {x : Option Level} {s : List Tok} (h : Comes x s) (hs : s = []) : False := by
  induction h <;> simp_all
  all_goals (rename_i hu _ _ _; exact not_understood_nil hu rfl)

theorem parseCalc_evals {ts : List Tok} {r : Ev (Node Rt.F)} (h : Evals (fun f => parseCalc f ts) r) :
    ∀ f, LeF (parseCalc f ts) r := by
  obtain ⟨n, hn⟩ := h
  intro f
  have := parseCalc_mono ts (show f ≤ max f n by omega)
  have h2 : parseCalc (max f n) ts = r := hn _ (by omega)
  rw [h2] at this
  exact this

theorem parseCalc_comes {ts : List Tok} {f : Nat} (hf : 10 * ts.length + 10 ≤ f) (h : parseCalc f ts = .error .fuel) :
    Comes (some .cmp) ts := by
  unfold parseCalc at h
  rcases bind_fuel h with h | ⟨x, -, h⟩
  · have := (parse_comes ts f).1 .cmp 0 (by simp [Level.rank]; omega) h
    simpa using this
  · cases h

theorem comes_parseCalc {ts : List Tok} (h : Comes (some .cmp) ts) (f : Nat) : parseCalc f ts = .error .fuel := by
  apply evals_fuel
  have hpos : 0 < ts.length := by
    rcases ts with _ | ⟨t, r⟩
    · exact (not_comes_nil h rfl).elim
    · simp
  have := comes_hangs h ts 0 hpos (by simp)
  exact evals_bind_fuel (k := fun r _ => pure r.1) this

theorem parseCalc_understood {ts : List Tok} {f : Nat} {e : Node Rt.F} (h : parseCalc f ts = .ok e) : Calculation ts e := by
  unfold parseCalc at h
  obtain ⟨⟨x, j⟩, hx, h⟩ := ev_bind_ok.mp h
  cases h
  obtain ⟨k, -, hu, hc, -⟩ := (parse_understood ts f).1 .cmp 0 _ _ hx
  exact ⟨_, by simpa using hu, hc⟩

theorem understood_parseCalc {ts : List Tok} {e : Node Rt.F} (h : Calculation ts e) : Evals (fun f => parseCalc f ts) (.ok e) := by
  obtain ⟨r, hu, hc⟩ := h
  have hpos : 0 < ts.length := by
    rcases ts with _ | ⟨t, r⟩
    · exact (not_understood_nil hu rfl).elim
    · simp
  obtain ⟨j, hj, rfl, hE⟩ := understood_parse hu ts 0 hpos (by simp)
  have h1 := hE (.ok (e, exitAt ts .cmp j)) ⟨1, fun f hf => by
    obtain ⟨g, rfl⟩ : ∃ g, f = g + 1 := ⟨f - 1, by omega⟩
    exact loopAt_exit hj hc g e⟩
  exact Evals.bind (k := fun r _ => (pure r.1 : Ev (Node Rt.F))) h1 (Evals.const _)

end BurnFm
