import Verif.Proofs.CalcGrammar

/-! Function calls, and recursion without end, in the calculation parser. -/

namespace BurnFm
open Spec

set_option linter.unusedSectionVars false
variable [Rt]

/-- At an opening parenthesis that is the last token the parser calls itself forever. -/
theorem diverges_at {ts : List Tok} {i : Nat} {t : Tok} (h : ts[i]? = some t) (hl : i = ts.length - 1)
    (ht : t.ty = .openParen) (f : Nat) :
    parseFactor ts f i = .error .fuel ∧ parseTerm ts f i = .error .fuel ∧ parseExpr ts f i = .error .fuel ∧
    parseConcatenation ts f i = .error .fuel ∧ parseComparison ts f i = .error .fuel := by
  induction f with
  | zero => rw [parseFactor, parseTerm, parseExpr, parseConcatenation, parseComparison]; simp
  | succ f ih =>
    obtain ⟨h1, h2, h3, h4, h5⟩ := ih
    refine ⟨?_, ?_, ?_, ?_, ?_⟩
    · rw [parseFactor, current_ok.mpr h, ev_ok_bind]
      simp only [ht]
      rw [advance_last hl]; exact h5
    · rw [parseTerm, h1]; rfl
    · rw [parseExpr, h2]; rfl
    · rw [parseConcatenation, h3]; rfl
    · rw [parseComparison, h4]; rfl

theorem evals_fuel {ts : List Tok} (h : Evals (fun f => parseCalc f ts) (.error .fuel)) (f : Nat) :
    parseCalc f ts = .error .fuel := by
  obtain ⟨n, hn⟩ := h
  rcases parseCalc_mono ts (show f ≤ max f n by omega) with h | h
  · exact h
  · rw [h]; exact hn _ (by omega)

theorem evals_bind_fuel {α β : Type} {x : Nat → Ev α} {k : α → Nat → Ev β} (h : Evals x (.error .fuel)) :
    Evals (fun f => x f >>= fun a => k a f) (.error .fuel) := by
  obtain ⟨n, hn⟩ := h
  refine ⟨n, fun f hf => ?_⟩
  show x f >>= _ = _
  rw [hn f hf]; rfl

/-- An unfinished parenthesis after an operator. -/
theorem open_paren_diverges {w : List Tok} {e : Node Rt.F} (h : Spells .expr w e) (f : Nat) :
    parseCalc f (w ++ [sym .plus, sym .openParen]) = .error .fuel := by
  apply evals_fuel
  have hE : w ++ [sym .plus, sym .openParen] = [] ++ w ++ [sym .plus, sym .openParen] := by simp
  rw [hE]
  have hpos : stop ([] ++ w ++ [sym .plus, sym .openParen]) (([] : List Tok).length + w.length) = w.length := by
    unfold stop; simp
  have hx : Evals (fun f => parseExpr ([] ++ w ++ [sym .plus, sym .openParen]) f ([] : List Tok).length)
      (.error .fuel) := by
    refine spells_parses h [] [sym .plus, sym .openParen] _
      ⟨by simp [sym], fun _ => rfl, by simp [Level.rank], fun _ => by simp [sym]⟩ ?_
    rw [hpos]
    refine ⟨0, fun f _ => ?_⟩
    cases f with
    | zero => simp only [exprLoop]
    | succ f =>
      simp only
      rw [exprLoop, show current ([] ++ w ++ [sym .plus, sym .openParen]) w.length = .ok (sym .plus) by
        rw [current_ok]; simp, ev_ok_bind, if_pos (show isAdditive (sym .plus).ty = true from rfl),
        advance_step (by simp)]
      have := (diverges_at (ts := [] ++ w ++ [sym .plus, sym .openParen]) (i := w.length + 1) (t := sym .openParen)
        (by simp) (by simp) rfl f).2.1
      rw [this]; rfl
  have h2 : Evals (fun f => parseConcatenation ([] ++ w ++ [sym .plus, sym .openParen]) f ([] : List Tok).length)
      (.error .fuel) :=
    Evals.succ (evals_bind_fuel (k := fun r f => concatenationLoop _ f r.1 r.2) hx)
      (fun f => by rw [parseConcatenation])
  have h3 : Evals (fun f => parseComparison ([] ++ w ++ [sym .plus, sym .openParen]) f ([] : List Tok).length)
      (.error .fuel) :=
    Evals.succ (evals_bind_fuel (k := fun r f => comparisonLoop _ f r.1 r.2) h2) (fun f => by rw [parseComparison])
  exact evals_bind_fuel (k := fun r _ => pure r.1) h3

/-! ### Climbing from a factor to the whole calculation -/

/-- If the tokens up to `j` were read as the factor `e`, and the token at `j` continues no expression, the
loops of all levels stop there. -/
theorem climb {ts : List Tok} {i j : Nat} {e : Node Rt.F} {t : Tok}
    (hf : Evals (fun f => parseFactor ts f i) (.ok (e, j))) (hc : current ts j = .ok t)
    (h1 : isMultiplicative t.ty = false) (h2 : isAdditive t.ty = false) (h3 : t.ty ≠ .ampersand)
    (h4 : isComparison t.ty = false ∨ nextIdx ts j = none) :
    ∃ k, Evals (fun f => parseComparison ts f i) (.ok (e, k)) := by
  have t1 : Evals (fun f => termLoop ts f e j) (.ok (e, j)) :=
    Evals.succ (Evals.const _) (fun f => by rw [termLoop, hc, ev_ok_bind, if_neg (by simp [h1])]; rfl)
  have t2 : Evals (fun f => exprLoop ts f e j) (.ok (e, j)) :=
    Evals.succ (Evals.const _) (fun f => by rw [exprLoop, hc, ev_ok_bind, if_neg (by simp [h2])]; rfl)
  have t3 : Evals (fun f => concatenationLoop ts f e j) (.ok (e, j)) :=
    Evals.succ (Evals.const _) (fun f => by rw [concatenationLoop, hc, ev_ok_bind, if_neg h3]; rfl)
  have t4 : ∃ k, Evals (fun f => comparisonLoop ts f e j) (.ok (e, k)) := by
    cases hn : nextIdx ts j with
    | none =>
      exact ⟨j, Evals.succ (Evals.const _) (fun f => by rw [comparisonLoop, hc, ev_ok_bind, hn]; rfl)⟩
    | some k =>
      rcases h4 with h4 | h4
      · exact ⟨k, Evals.succ (Evals.const _) (fun f => by
          rw [comparisonLoop, hc, ev_ok_bind, hn]; simp only; rw [if_neg (by simp [h4])]; rfl)⟩
      · rw [hn] at h4; cases h4
  obtain ⟨k, t4⟩ := t4
  have s1 : Evals (fun f => parseTerm ts f i) (.ok (e, j)) :=
    Evals.succ (Evals.bind (k := fun r f => termLoop ts f r.1 r.2) hf t1) (fun f => by rw [parseTerm])
  have s2 : Evals (fun f => parseExpr ts f i) (.ok (e, j)) :=
    Evals.succ (Evals.bind (k := fun r f => exprLoop ts f r.1 r.2) s1 t2) (fun f => by rw [parseExpr])
  have s3 : Evals (fun f => parseConcatenation ts f i) (.ok (e, j)) :=
    Evals.succ (Evals.bind (k := fun r f => concatenationLoop ts f r.1 r.2) s2 t3)
      (fun f => by rw [parseConcatenation])
  exact ⟨k, Evals.succ (Evals.bind (k := fun r f => comparisonLoop ts f r.1 r.2) s3 t4)
    (fun f => by rw [parseComparison])⟩

theorem parseCalc_of {ts : List Tok} {e : Node Rt.F} {k : Nat}
    (h : Evals (fun f => parseComparison ts f 0) (.ok (e, k))) : Evals (fun f => parseCalc f ts) (.ok e) :=
  Evals.bind (k := fun (r : Node Rt.F × Nat) _ => (pure r.1 : Ev (Node Rt.F))) h (Evals.const _)

/-- A call whose argument list ends at index `j`, where no comma follows. -/
theorem call_factor {ts : List Tok} {name : Str} {e : Node Rt.F} {j : Nat} {t : Tok}
    (h0 : ts[0]? = some ⟨.identifier, name⟩) (hname : PlainName name) (h1 : (ts[1]?).map (·.ty) = some .openParen)
    (ha : Evals (fun f => parseExpr ts f 1) (.ok (e, j))) (hj : current ts j = .ok t) (ht : t.ty ≠ .comma) :
    Evals (fun f => parseFactor ts f 0) (.ok (.call name [e], advance ts j)) := by
  have hlen : 1 < ts.length := by
    cases h : ts[1]? with
    | none => rw [h] at h1; cases h1
    | some x => exact (List.getElem?_eq_some_iff.mp h).1
  have hargs : Evals (fun f => parseArgs ts f 0) (.ok ([e], j)) := by
    refine Evals.succ (Evals.bind (k := fun (r : Node Rt.F × Nat) f => do
        let cur ← current ts r.2
        if cur.ty = .comma then do
          let (args, k) ← parseArgs ts f r.2
          pure (r.1 :: args, k)
        else pure ([r.1], r.2)) ha ?_) (fun f => ?_)
    · refine ⟨0, fun f _ => ?_⟩
      show (current ts j >>= _) = _
      rw [hj, ev_ok_bind, if_neg ht]; rfl
    · rw [parseArgs, advance_step (by omega)]
  refine Evals.succ (Evals.bind (k := fun (r : List (Node Rt.F) × Nat) _ =>
    pure (.call name r.1, advance ts r.2)) hargs (Evals.const _)) (fun f => ?_)
  rw [parseFactor, current_ok.mpr h0, ev_ok_bind]
  simp only
  rw [if_neg (by rw [splitCC_plain hname]; simp), if_pos]
  unfold peekType
  rw [if_neg (by omega)]
  exact h1

/-- A name before a parenthesised expression takes everything that can be parsed as arithmetic. -/
theorem call_takes {name : Str} (hname : PlainName name) {w : List Tok} {e : Node Rt.F} (h : Spells .expr w e)
    (hw : w.head? = some (sym .openParen)) :
    Evals (fun f => parseCalc f (⟨.identifier, name⟩ :: w)) (.ok (.call name [e])) := by
  have hE : (⟨.identifier, name⟩ :: w : List Tok) = [⟨.identifier, name⟩] ++ w ++ [] := by simp
  rw [hE]
  obtain ⟨t, hc, ht⟩ := current_stop (pre := [⟨.identifier, name⟩]) (post := []) h
  have hend : EndTok t := by
    rcases ht with ht | ⟨r, hr⟩
    · exact ht.2
    · cases hr
  have ha := spells_parses h [⟨.identifier, name⟩] [] _ trivial
    (exprLoop_exit h (by simp) e)
  have hpos := spells_pos h
  have hstop : stop ([⟨.identifier, name⟩] ++ w ++ []) ([(⟨.identifier, name⟩ : Tok)].length + w.length) = w.length := by
    unfold stop; simp
  rw [hstop] at hc ha
  have hf := call_factor (ts := [⟨.identifier, name⟩] ++ w ++ []) (name := name) (by simp) hname
    (by cases w with
        | nil => cases hw
        | cons x w => simp at hw; subst hw; rfl) ha hc
    (by rcases hend with h | h | h | h <;> simp [h])
  rw [advance_last (by simp)] at hf
  obtain ⟨k, hk⟩ := climb hf hc (endTok_mul hend) (endTok_add hend) (endTok_amp hend)
    (.inr (by unfold nextIdx; rw [if_pos (by simp)]))
  exact parseCalc_of hk

/-- A call followed by a token `sep` that ends the argument without being a comma, and an operand. -/
theorem call_drops {name : Str} (hname : PlainName name) {w : List Tok} {e : Node Rt.F} (h : Spells .cmp w e)
    {op b : Tok} (hop : op.ty = .ampersand ∨ isComparison op.ty = true) (hb : EndTok b) :
    Evals (fun f => parseCalc f (⟨.identifier, name⟩ :: (sym .openParen :: w ++ [sym .closeParen]) ++ [op, b]))
      (.ok (.call name [e])) := by
  have hp : Spells .expr (sym .openParen :: w ++ [sym .closeParen]) e := .ofTerm (.ofFactor (.paren h))
  generalize hv : sym .openParen :: w ++ [sym .closeParen] = v at *
  have hE : (⟨.identifier, name⟩ :: v ++ [op, b] : List Tok) = [⟨.identifier, name⟩] ++ v ++ [op, b] := by simp
  rw [hE]
  have hopm : isMultiplicative op.ty = false ∧ isAdditive op.ty = false ∧ op.ty ≠ .comma ∧ op.ty ≠ .openParen := by
    rcases hop with ho | ho
    · simp [ho, isMultiplicative, isAdditive]
    · cases hh : op.ty <;> simp_all [isComparison, isMultiplicative, isAdditive]
  have ha := spells_parses hp [⟨.identifier, name⟩] [op, b] _
    ⟨hopm.2.2.2, fun _ => hopm.1, by simp [Level.rank], by simp [Level.rank]⟩
    (exprLoop_exit hp (by intro t r hr; injection hr with h1 _; rw [← h1]; exact hopm.2.1) e)
  have hpos := spells_pos hp
  have hstop : stop ([⟨.identifier, name⟩] ++ v ++ [op, b]) ([(⟨.identifier, name⟩ : Tok)].length + v.length) =
      v.length + 1 := by
    unfold stop; simp; omega
  rw [hstop] at ha
  have hc : current ([⟨.identifier, name⟩] ++ v ++ [op, b]) (v.length + 1) = .ok op := by
    rw [current_ok]; simp
  have hf := call_factor (ts := [⟨.identifier, name⟩] ++ v ++ [op, b]) (name := name) (by simp) hname
    (by rw [← hv]; rfl) ha hc hopm.2.2.1
  rw [advance_step (by simp)] at hf
  have hcb : current ([⟨.identifier, name⟩] ++ v ++ [op, b]) (v.length + 1 + 1) = .ok b := by
    rw [current_ok]; simp
  obtain ⟨k, hk⟩ := climb hf hcb (endTok_mul hb) (endTok_add hb) (endTok_amp hb)
    (.inr (by unfold nextIdx; rw [if_pos (by simp)]))
  exact parseCalc_of hk

/-- A call with two arguments keeps the first only. -/
theorem call_first {name : Str} (hname : PlainName name) {w : List Tok} {e : Node Rt.F} (h : Spells .cmp w e)
    {b : Tok} (hb : EndTok b) :
    Evals (fun f => parseCalc f
      (⟨.identifier, name⟩ :: sym .openParen :: w ++ [sym .comma, b, sym .closeParen])) (.ok (.call name [e])) := by
  have hE : (⟨.identifier, name⟩ :: sym .openParen :: w ++ [sym .comma, b, sym .closeParen] : List Tok) =
      [⟨.identifier, name⟩, sym .openParen] ++ w ++ [sym .comma, b, sym .closeParen] := by simp
  rw [hE]
  have hstop : stop ([⟨.identifier, name⟩, sym .openParen] ++ w ++ [sym .comma, b, sym .closeParen])
      ([(⟨.identifier, name⟩ : Tok), sym .openParen].length + w.length) = w.length + 2 := by
    unfold stop; simp; omega
  have hcc : current ([⟨.identifier, name⟩, sym .openParen] ++ w ++ [sym .comma, b, sym .closeParen]) (w.length + 2) =
      .ok (sym .comma) := by rw [current_ok]; simp
  have hcb : current ([⟨.identifier, name⟩, sym .openParen] ++ w ++ [sym .comma, b, sym .closeParen]) (w.length + 3) =
      .ok b := by rw [current_ok]; simp
  have hcp : current ([⟨.identifier, name⟩, sym .openParen] ++ w ++ [sym .comma, b, sym .closeParen]) (w.length + 4) =
      .ok (sym .closeParen) := by rw [current_ok]; simp
  have hcmp := spells_parses h [⟨.identifier, name⟩, sym .openParen] [sym .comma, b, sym .closeParen]
    (.ok (e, w.length + 3)) ⟨by simp [sym], fun _ => rfl, fun _ => rfl, fun _ => by simp [sym]⟩ (by
      rw [hstop]
      refine Evals.succ (Evals.const _) (fun f => ?_)
      rw [comparisonLoop, hcc, ev_ok_bind]
      unfold nextIdx
      rw [if_neg (by simp)]
      rfl)
  have hfac : Evals (fun f => parseFactor
      ([⟨.identifier, name⟩, sym .openParen] ++ w ++ [sym .comma, b, sym .closeParen]) f 1) (.ok (e, w.length + 3)) := by
    refine Evals.succ hcmp (fun f => ?_)
    rw [parseFactor, show current ([⟨.identifier, name⟩, sym .openParen] ++ w ++ [sym .comma, b, sym .closeParen]) 1 =
      .ok (sym .openParen) by rw [current_ok]; simp, ev_ok_bind]
    simp only [sym]
    rw [advance_step (by simp)]
    rfl
  have s1 : Evals (fun f => parseTerm
      ([⟨.identifier, name⟩, sym .openParen] ++ w ++ [sym .comma, b, sym .closeParen]) f 1) (.ok (e, w.length + 3)) :=
    Evals.succ (Evals.bind (k := fun r f => termLoop _ f r.1 r.2) hfac
      (Evals.succ (Evals.const _) (fun f => by
        rw [termLoop, hcb, ev_ok_bind, if_neg (by simp [endTok_mul hb])]; rfl))) (fun f => by rw [parseTerm])
  have s2 : Evals (fun f => parseExpr
      ([⟨.identifier, name⟩, sym .openParen] ++ w ++ [sym .comma, b, sym .closeParen]) f 1) (.ok (e, w.length + 3)) :=
    Evals.succ (Evals.bind (k := fun r f => exprLoop _ f r.1 r.2) s1
      (Evals.succ (Evals.const _) (fun f => by
        rw [exprLoop, hcb, ev_ok_bind, if_neg (by simp [endTok_add hb])]; rfl))) (fun f => by rw [parseExpr])
  have hf := call_factor (name := name) (by simp) hname (by rfl) s2 hcb
    (by rcases hb with h | h | h | h <;> simp [h])
  rw [advance_step (by simp)] at hf
  obtain ⟨k, hk⟩ := climb hf hcp rfl rfl (by simp [sym]) (.inl rfl)
  exact parseCalc_of hk

end BurnFm
