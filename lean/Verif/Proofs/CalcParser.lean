import Verif.Proofs.Ev
import Verif.Spec.CalcGrammar

/-! The calculation parser: fuel, indices, termination. -/

namespace BurnFm

theorem le_advance (ts : List Tok) (i : Nat) : i ≤ advance ts i := by
  unfold advance nextIdx; split <;> simp

theorem advance_last {ts : List Tok} {i : Nat} (h : i = ts.length - 1) : advance ts i = i := by
  unfold advance nextIdx; rw [if_pos h]; rfl

theorem advance_step {ts : List Tok} {i : Nat} (h : i ≠ ts.length - 1) : advance ts i = i + 1 := by
  unfold advance nextIdx; rw [if_neg h]; rfl

theorem nextIdx_some {ts : List Tok} {i j : Nat} (h : nextIdx ts i = some j) : j = i + 1 := by
  unfold nextIdx at h; split at h
  · cases h
  · exact (Option.some.inj h).symm

theorem current_ok {ts : List Tok} {i : Nat} {t : Tok} : current ts i = .ok t ↔ ts[i]? = some t := by
  unfold current
  rw [liftR_ok]
  unfold idx
  split <;> simp_all

/-- Tokens that cannot begin an operand. -/
def NoOperand (t : Tok) : Prop :=
  t.ty ≠ .identifier ∧ t.ty ≠ .numericLiteral ∧ t.ty ≠ .string ∧ t.ty ≠ .openParen

theorem noOperand_additive {t : Tok} (h : isAdditive t.ty = true) : NoOperand t := by
  unfold NoOperand; cases hh : t.ty <;> simp_all [isAdditive]

theorem noOperand_multiplicative {t : Tok} (h : isMultiplicative t.ty = true) : NoOperand t := by
  unfold NoOperand; cases hh : t.ty <;> simp_all [isMultiplicative]

theorem noOperand_ampersand {t : Tok} (h : t.ty = .ampersand) : NoOperand t := by
  unfold NoOperand; simp [h]

theorem noOperand_comma {t : Tok} (h : t.ty = .comma) : NoOperand t := by
  unfold NoOperand; simp [h]

theorem getElem?_last {ts : List Tok} {i : Nat} {t : Tok} (h : ts[i]? = some t) (hi : i = ts.length - 1) :
    ts.getLast? = some t := by
  rw [List.getLast?_eq_getElem?, ← hi, h]

theorem mono_le {α : Type} {x : Nat → Ev α} (h : ∀ f, LeF (x f) (x (f + 1))) {f g : Nat} (hfg : f ≤ g) :
    LeF (x f) (x g) := by
  induction g with
  | zero => have : f = 0 := by omega
            subst this; exact LeF.rfl
  | succ g ih =>
    by_cases hg : f ≤ g
    · exact (ih hg).trans (h g)
    · have : f = g + 1 := by omega
      subst this; exact LeF.rfl

variable [Rt]

/-- More fuel only turns `fuel` into a result. -/
theorem parse_mono (ts : List Tok) (f : Nat) :
    (∀ i, LeF (parseComparison ts f i) (parseComparison ts (f + 1) i)) ∧
    (∀ e i, LeF (comparisonLoop ts f e i) (comparisonLoop ts (f + 1) e i)) ∧
    (∀ i, LeF (parseConcatenation ts f i) (parseConcatenation ts (f + 1) i)) ∧
    (∀ e i, LeF (concatenationLoop ts f e i) (concatenationLoop ts (f + 1) e i)) ∧
    (∀ i, LeF (parseExpr ts f i) (parseExpr ts (f + 1) i)) ∧
    (∀ e i, LeF (exprLoop ts f e i) (exprLoop ts (f + 1) e i)) ∧
    (∀ i, LeF (parseTerm ts f i) (parseTerm ts (f + 1) i)) ∧
    (∀ e i, LeF (termLoop ts f e i) (termLoop ts (f + 1) e i)) ∧
    (∀ i, LeF (parseFactor ts f i) (parseFactor ts (f + 1) i)) ∧
    (∀ i, LeF (parseArgs ts f i) (parseArgs ts (f + 1) i)) := by
  induction f with
  | zero =>
    refine ⟨?_, ?_, ?_, ?_, ?_, ?_, ?_, ?_, ?_, ?_⟩
    all_goals intros
    · rw [parseComparison]; exact LeF.fuel
    · rw [comparisonLoop]; exact LeF.fuel
    · rw [parseConcatenation]; exact LeF.fuel
    · rw [concatenationLoop]; exact LeF.fuel
    · rw [parseExpr]; exact LeF.fuel
    · rw [exprLoop]; exact LeF.fuel
    · rw [parseTerm]; exact LeF.fuel
    · rw [termLoop]; exact LeF.fuel
    · rw [parseFactor]; exact LeF.fuel
    · rw [parseArgs]; exact LeF.fuel
  | succ f ih =>
    obtain ⟨h1, h2, h3, h4, h5, h6, h7, h8, h9, h10⟩ := ih
    refine ⟨?_, ?_, ?_, ?_, ?_, ?_, ?_, ?_, ?_, ?_⟩
    · intro i
      rw [parseComparison, parseComparison]
      exact LeF.bind (h3 i) (fun x => h2 _ _)
    · intro e i
      rw [comparisonLoop, comparisonLoop]
      refine LeF.bind LeF.rfl (fun op => ?_)
      split
      · exact LeF.rfl
      · split
        · exact LeF.bind (h3 _) (fun x => h2 _ _)
        · exact LeF.rfl
    · intro i
      rw [parseConcatenation, parseConcatenation]
      exact LeF.bind (h5 i) (fun x => h4 _ _)
    · intro e i
      rw [concatenationLoop, concatenationLoop]
      refine LeF.bind LeF.rfl (fun op => ?_)
      split
      · exact LeF.bind (h5 _) (fun x => h4 _ _)
      · exact LeF.rfl
    · intro i
      rw [parseExpr, parseExpr]
      exact LeF.bind (h7 i) (fun x => h6 _ _)
    · intro e i
      rw [exprLoop, exprLoop]
      refine LeF.bind LeF.rfl (fun op => ?_)
      split
      · exact LeF.bind (h7 _) (fun x => h6 _ _)
      · exact LeF.rfl
    · intro i
      rw [parseTerm, parseTerm]
      exact LeF.bind (h9 i) (fun x => h8 _ _)
    · intro e i
      rw [termLoop, termLoop]
      refine LeF.bind LeF.rfl (fun op => ?_)
      split
      · exact LeF.bind (h9 _) (fun x => h8 _ _)
      · exact LeF.rfl
    · intro i
      rw [parseFactor, parseFactor]
      refine LeF.bind LeF.rfl (fun cur => ?_)
      split
      · split
        · exact LeF.rfl
        · split
          · exact LeF.bind (h10 _) (fun x => LeF.rfl)
          · exact LeF.rfl
      · exact LeF.rfl
      · exact LeF.rfl
      · exact h1 _
      · exact LeF.rfl
    · intro i
      rw [parseArgs, parseArgs]
      refine LeF.bind (h5 _) (fun x => ?_)
      refine LeF.bind LeF.rfl (fun cur => ?_)
      split
      · exact LeF.bind (h10 _) (fun x => LeF.rfl)
      · exact LeF.rfl

theorem parseCalc_mono (ts : List Tok) {f g : Nat} (h : f ≤ g) : LeF (parseCalc f ts) (parseCalc g ts) := by
  unfold parseCalc
  exact LeF.bind (mono_le (x := fun f => parseComparison ts f 0) (fun f => (parse_mono ts f).1 0) h)
    (fun _ => LeF.rfl)

/-- The parser never moves back. -/
theorem parse_forward (ts : List Tok) (f : Nat) :
    (∀ i e j, parseComparison ts f i = .ok (e, j) → i ≤ j) ∧
    (∀ l i e j, comparisonLoop ts f l i = .ok (e, j) → i ≤ j) ∧
    (∀ i e j, parseConcatenation ts f i = .ok (e, j) → i ≤ j) ∧
    (∀ l i e j, concatenationLoop ts f l i = .ok (e, j) → i ≤ j) ∧
    (∀ i e j, parseExpr ts f i = .ok (e, j) → i ≤ j) ∧
    (∀ l i e j, exprLoop ts f l i = .ok (e, j) → i ≤ j) ∧
    (∀ i e j, parseTerm ts f i = .ok (e, j) → i ≤ j) ∧
    (∀ l i e j, termLoop ts f l i = .ok (e, j) → i ≤ j) ∧
    (∀ i e j, parseFactor ts f i = .ok (e, j) → i ≤ j) ∧
    (∀ i e j, parseArgs ts f i = .ok (e, j) → i ≤ j) := by
  induction f with
  | zero =>
    refine ⟨?_, ?_, ?_, ?_, ?_, ?_, ?_, ?_, ?_, ?_⟩
    all_goals intros
    all_goals rename_i h
    · rw [parseComparison] at h; cases h
    · rw [comparisonLoop] at h; cases h
    · rw [parseConcatenation] at h; cases h
    · rw [concatenationLoop] at h; cases h
    · rw [parseExpr] at h; cases h
    · rw [exprLoop] at h; cases h
    · rw [parseTerm] at h; cases h
    · rw [termLoop] at h; cases h
    · rw [parseFactor] at h; cases h
    · rw [parseArgs] at h; cases h
  | succ f ih =>
    obtain ⟨h1, h2, h3, h4, h5, h6, h7, h8, h9, h10⟩ := ih
    refine ⟨?_, ?_, ?_, ?_, ?_, ?_, ?_, ?_, ?_, ?_⟩
    · intro i e j h
      rw [parseComparison, ev_bind_ok] at h
      obtain ⟨⟨a, k⟩, ha, hb⟩ := h
      exact Nat.le_trans (h3 _ _ _ ha) (h2 _ _ _ _ hb)
    · intro l i e j h
      rw [comparisonLoop, ev_bind_ok] at h
      obtain ⟨op, _, h⟩ := h
      split at h
      · cases h; exact Nat.le_refl _
      · rename_i k hk
        have := nextIdx_some hk
        split at h
        · rw [ev_bind_ok] at h
          obtain ⟨⟨a, m⟩, ha, hb⟩ := h
          have := h3 _ _ _ ha
          have := h2 _ _ _ _ hb
          omega
        · cases h; omega
    · intro i e j h
      rw [parseConcatenation, ev_bind_ok] at h
      obtain ⟨⟨a, k⟩, ha, hb⟩ := h
      exact Nat.le_trans (h5 _ _ _ ha) (h4 _ _ _ _ hb)
    · intro l i e j h
      rw [concatenationLoop, ev_bind_ok] at h
      obtain ⟨op, _, h⟩ := h
      split at h
      · rw [ev_bind_ok] at h
        obtain ⟨⟨a, m⟩, ha, hb⟩ := h
        have := h5 _ _ _ ha
        have := h4 _ _ _ _ hb
        have := le_advance ts i
        omega
      · cases h; exact Nat.le_refl _
    · intro i e j h
      rw [parseExpr, ev_bind_ok] at h
      obtain ⟨⟨a, k⟩, ha, hb⟩ := h
      exact Nat.le_trans (h7 _ _ _ ha) (h6 _ _ _ _ hb)
    · intro l i e j h
      rw [exprLoop, ev_bind_ok] at h
      obtain ⟨op, _, h⟩ := h
      split at h
      · rw [ev_bind_ok] at h
        obtain ⟨⟨a, m⟩, ha, hb⟩ := h
        have := h7 _ _ _ ha
        have := h6 _ _ _ _ hb
        have := le_advance ts i
        omega
      · cases h; exact Nat.le_refl _
    · intro i e j h
      rw [parseTerm, ev_bind_ok] at h
      obtain ⟨⟨a, k⟩, ha, hb⟩ := h
      exact Nat.le_trans (h9 _ _ _ ha) (h8 _ _ _ _ hb)
    · intro l i e j h
      rw [termLoop, ev_bind_ok] at h
      obtain ⟨op, _, h⟩ := h
      split at h
      · rw [ev_bind_ok] at h
        obtain ⟨⟨a, m⟩, ha, hb⟩ := h
        have := h9 _ _ _ ha
        have := h8 _ _ _ _ hb
        have := le_advance ts i
        omega
      · cases h; exact Nat.le_refl _
    · intro i e j h
      rw [parseFactor, ev_bind_ok] at h
      obtain ⟨cur, _, h⟩ := h
      have hadv := le_advance ts i
      split at h
      · split at h
        · cases h; exact hadv
        · split at h
          · rw [ev_bind_ok] at h
            obtain ⟨⟨a, m⟩, ha, hb⟩ := h
            have := h10 _ _ _ ha
            have := le_advance ts m
            cases hb; omega
          · cases h; exact hadv
      · rw [ev_bind_ok] at h
        obtain ⟨x, _, h⟩ := h
        cases h; exact hadv
      · cases h; exact hadv
      · exact Nat.le_trans hadv (h1 _ _ _ h)
      · cases h
    · intro i e j h
      rw [parseArgs, ev_bind_ok] at h
      obtain ⟨⟨a, m⟩, ha, h⟩ := h
      rw [ev_bind_ok] at h
      obtain ⟨cur, _, h⟩ := h
      have := h5 _ _ _ ha
      have := le_advance ts i
      split at h
      · rw [ev_bind_ok] at h
        obtain ⟨⟨b, k⟩, hb, h⟩ := h
        have := h10 _ _ _ hb
        cases h; omega
      · cases h; omega

theorem factor_panics {ts : List Tok} {i : Nat} {t : Tok} (h : ts[i]? = some t) (hn : NoOperand t) (f : Nat) :
    parseFactor ts (f + 1) i = .error (.panic .unwrap) := by
  rw [parseFactor, current_ok.mpr h, ev_ok_bind]
  obtain ⟨n1, n2, n3, n4⟩ := hn
  split <;> simp_all

theorem term_panics {ts : List Tok} {i : Nat} {t : Tok} (h : ts[i]? = some t) (hn : NoOperand t) (f : Nat) :
    parseTerm ts (f + 2) i = .error (.panic .unwrap) := by
  rw [parseTerm, factor_panics h hn]; rfl

theorem expr_panics {ts : List Tok} {i : Nat} {t : Tok} (h : ts[i]? = some t) (hn : NoOperand t) (f : Nat) :
    parseExpr ts (f + 3) i = .error (.panic .unwrap) := by
  rw [parseExpr, term_panics h hn]; rfl

/-- If the last token is not an opening parenthesis, the recursion depth is bounded. -/
theorem parse_bounded (ts : List Tok) (hlast : ∀ t, ts.getLast? = some t → t.ty ≠ .openParen) (f : Nat) :
    (∀ i, 10 * (ts.length - i) + 10 ≤ f → parseComparison ts f i ≠ .error .fuel) ∧
    (∀ e i, 10 * (ts.length - i) + 9 ≤ f → comparisonLoop ts f e i ≠ .error .fuel) ∧
    (∀ i, 10 * (ts.length - i) + 8 ≤ f → parseConcatenation ts f i ≠ .error .fuel) ∧
    (∀ e i, 10 * (ts.length - i) + 7 ≤ f → concatenationLoop ts f e i ≠ .error .fuel) ∧
    (∀ i, 10 * (ts.length - i) + 6 ≤ f → parseExpr ts f i ≠ .error .fuel) ∧
    (∀ e i, 10 * (ts.length - i) + 5 ≤ f → exprLoop ts f e i ≠ .error .fuel) ∧
    (∀ i, 10 * (ts.length - i) + 4 ≤ f → parseTerm ts f i ≠ .error .fuel) ∧
    (∀ e i, 10 * (ts.length - i) + 3 ≤ f → termLoop ts f e i ≠ .error .fuel) ∧
    (∀ i, 10 * (ts.length - i) + 2 ≤ f → parseFactor ts f i ≠ .error .fuel) ∧
    (∀ i, i < ts.length → (i = ts.length - 1 → ∃ t, ts[i]? = some t ∧ NoOperand t) →
      10 * (ts.length - i) + 1 ≤ f → parseArgs ts f i ≠ .error .fuel) := by
  induction f with
  | zero =>
    refine ⟨?_, ?_, ?_, ?_, ?_, ?_, ?_, ?_, ?_, ?_⟩ <;> intros <;> omega
  | succ f ih =>
    obtain ⟨h1, h2, h3, h4, h5, h6, h7, h8, h9, h10⟩ := ih
    have cf := current_ne_fuel ts
    refine ⟨?_, ?_, ?_, ?_, ?_, ?_, ?_, ?_, ?_, ?_⟩
    · intro i hf
      rw [parseComparison]
      refine bind_ne_fuel (h3 i (by omega)) (fun x hx => ?_)
      have := (parse_forward ts f).2.2.1 i x.1 x.2 hx
      exact h2 _ _ (by omega)
    · intro e i hf
      rw [comparisonLoop]
      refine bind_ne_fuel (cf i) (fun op hop => ?_)
      have hlt := (List.getElem?_eq_some_iff.mp (current_ok.mp hop)).1
      split
      · simp [pure, Except.pure]
      · rename_i j hj
        have := nextIdx_some hj
        split
        · refine bind_ne_fuel (h3 j (by omega)) (fun x hx => ?_)
          have := (parse_forward ts f).2.2.1 j x.1 x.2 hx
          exact h2 _ _ (by omega)
        · simp [pure, Except.pure]
    · intro i hf
      rw [parseConcatenation]
      refine bind_ne_fuel (h5 i (by omega)) (fun x hx => ?_)
      have := (parse_forward ts f).2.2.2.2.1 i x.1 x.2 hx
      exact h4 _ _ (by omega)
    · intro e i hf
      rw [concatenationLoop]
      refine bind_ne_fuel (cf i) (fun op hop => ?_)
      have hop' := current_ok.mp hop
      have hlt := (List.getElem?_eq_some_iff.mp hop').1
      split
      · rename_i hty
        by_cases hl : i = ts.length - 1
        · rw [advance_last hl]
          obtain ⟨g, rfl⟩ : ∃ g, f = g + 3 := ⟨f - 3, by omega⟩
          rw [expr_panics hop' (noOperand_ampersand hty), ev_error_bind]
          simp
        · rw [advance_step hl]
          refine bind_ne_fuel (h5 _ (by omega)) (fun x hx => ?_)
          have := (parse_forward ts f).2.2.2.2.1 _ x.1 x.2 hx
          exact h4 _ _ (by omega)
      · simp [pure, Except.pure]
    · intro i hf
      rw [parseExpr]
      refine bind_ne_fuel (h7 i (by omega)) (fun x hx => ?_)
      have := (parse_forward ts f).2.2.2.2.2.2.1 i x.1 x.2 hx
      exact h6 _ _ (by omega)
    · intro e i hf
      rw [exprLoop]
      refine bind_ne_fuel (cf i) (fun op hop => ?_)
      have hop' := current_ok.mp hop
      have hlt := (List.getElem?_eq_some_iff.mp hop').1
      split
      · rename_i hty
        by_cases hl : i = ts.length - 1
        · rw [advance_last hl]
          obtain ⟨g, rfl⟩ : ∃ g, f = g + 2 := ⟨f - 2, by omega⟩
          rw [term_panics hop' (noOperand_additive hty), ev_error_bind]
          simp
        · rw [advance_step hl]
          refine bind_ne_fuel (h7 _ (by omega)) (fun x hx => ?_)
          have := (parse_forward ts f).2.2.2.2.2.2.1 _ x.1 x.2 hx
          exact h6 _ _ (by omega)
      · simp [pure, Except.pure]
    · intro i hf
      rw [parseTerm]
      refine bind_ne_fuel (h9 i (by omega)) (fun x hx => ?_)
      have := (parse_forward ts f).2.2.2.2.2.2.2.2.1 i x.1 x.2 hx
      exact h8 _ _ (by omega)
    · intro e i hf
      rw [termLoop]
      refine bind_ne_fuel (cf i) (fun op hop => ?_)
      have hop' := current_ok.mp hop
      have hlt := (List.getElem?_eq_some_iff.mp hop').1
      split
      · rename_i hty
        by_cases hl : i = ts.length - 1
        · rw [advance_last hl]
          obtain ⟨g, rfl⟩ : ∃ g, f = g + 1 := ⟨f - 1, by omega⟩
          rw [factor_panics hop' (noOperand_multiplicative hty), ev_error_bind]
          simp
        · rw [advance_step hl]
          refine bind_ne_fuel (h9 _ (by omega)) (fun x hx => ?_)
          have := (parse_forward ts f).2.2.2.2.2.2.2.2.1 _ x.1 x.2 hx
          exact h8 _ _ (by omega)
      · simp [pure, Except.pure]
    · intro i hf
      rw [parseFactor]
      refine bind_ne_fuel (cf i) (fun op hop => ?_)
      have hop' := current_ok.mp hop
      have hlt := (List.getElem?_eq_some_iff.mp hop').1
      split
      · split
        · simp [pure, Except.pure]
        · split
          · rename_i hpk
            refine bind_ne_fuel (h10 i hlt (fun hl => ?_) (by omega)) (fun x _ => by simp [pure, Except.pure])
            unfold peekType at hpk
            rw [if_pos hl] at hpk; cases hpk
          · simp [pure, Except.pure]
      · exact bind_ne_fuel (liftR_ne_fuel _) (fun x _ => by simp [pure, Except.pure])
      · simp [pure, Except.pure]
      · rename_i hty
        have hl : i ≠ ts.length - 1 := fun hl => hlast _ (getElem?_last hop' hl) hty
        rw [advance_step hl]
        exact h1 _ (by omega)
      · simp
    · intro i hi hno hf
      rw [parseArgs]
      by_cases hl : i = ts.length - 1
      · obtain ⟨t, ht, hn⟩ := hno hl
        obtain ⟨g, rfl⟩ : ∃ g, f = g + 3 := ⟨f - 3, by omega⟩
        rw [advance_last hl, expr_panics ht hn, ev_error_bind]
        simp
      · rw [advance_step hl]
        refine bind_ne_fuel (h5 _ (by omega)) (fun x hx => ?_)
        have := (parse_forward ts f).2.2.2.2.1 _ x.1 x.2 hx
        refine bind_ne_fuel (cf _) (fun op hop => ?_)
        have hop' := current_ok.mp hop
        have hlt := (List.getElem?_eq_some_iff.mp hop').1
        split
        · rename_i hty
          refine bind_ne_fuel (h10 _ hlt (fun _ => ⟨op, hop', noOperand_comma hty⟩) (by omega))
            (fun x _ => by simp [pure, Except.pure])
        · simp [pure, Except.pure]

theorem parseCalc_bounded (ts : List Tok) (hlast : ∀ t, ts.getLast? = some t → t.ty ≠ .openParen) {f : Nat}
    (hf : 10 * ts.length + 10 ≤ f) : parseCalc f ts ≠ .error .fuel := by
  unfold parseCalc
  exact bind_ne_fuel ((parse_bounded ts hlast f).1 0 (by omega)) (fun x _ => by simp [pure, Except.pure])

end BurnFm
