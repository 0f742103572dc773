import Verif.Proofs.CalcCall
import Verif.Spec.CalcArgs

/-! Argument lists of calls, as the parser reads them. -/

namespace BurnFm
open Spec

set_option linter.unusedSectionVars false
variable [Rt]

theorem stop_length {pre w post : List Tok} (hp : 0 < post.length) :
    stop (pre ++ w ++ post) (pre.length + w.length) = pre.length + w.length := by
  unfold stop; simp; omega

theorem parseArgs_list {x : Tok} : ∀ (args : List (List Tok × Node Rt.F)) (pre : List Tok), args ≠ [] →
    (∀ a ∈ args, Spells .expr a.1 a.2) →
    Evals (fun f => parseArgs (pre ++ x :: argTokens (args.map (·.1))) f pre.length)
      (.ok (args.map (·.2), pre.length + (argTokens (args.map (·.1))).length)) := by
  intro args
  induction args generalizing x with
  | nil => intro pre h; exact absurd rfl h
  | cons a rest ih =>
    intro pre _ h
    obtain ⟨w, e⟩ := a
    have hw : Spells .expr w e := h (w, e) (by simp)
    have hpos := spells_pos hw
    have bindArgs : ∀ (ts : List Tok) (i j k : Nat) (es : List (Node Rt.F)), advance ts i = j →
        ∀ (m : Nat), Evals (fun f => parseExpr ts f j) (.ok (e, m)) →
        Evals (fun f => (do
          let cur ← current ts m
          if cur.ty = .comma then do
            let (args, k) ← parseArgs ts f m
            pure (e :: args, k)
          else pure ([e], m) : Ev (List (Node Rt.F) × Nat))) (.ok (es, k)) →
        Evals (fun f => parseArgs ts f i) (.ok (es, k)) := by
      intro ts i j k es hadv m h1 h2
      refine Evals.succ (Evals.bind (k := fun (r : Node Rt.F × Nat) f => do
        let cur ← current ts r.2
        if cur.ty = .comma then do
          let (args, k) ← parseArgs ts f r.2
          pure (r.1 :: args, k)
        else pure ([r.1], r.2)) h1 h2) (fun f => ?_)
      rw [parseArgs, hadv]
    cases rest with
    | nil =>
      show Evals (fun f => parseArgs (pre ++ x :: w) f pre.length) (.ok ([e], pre.length + w.length))
      have hE : pre ++ x :: w = (pre ++ [x]) ++ w ++ [] := by simp
      obtain ⟨t, hc, ht⟩ := current_stop (pre := pre ++ [x]) (post := []) hw
      have hend : EndTok t := by
        rcases ht with ht | ⟨r, hr⟩
        · exact ht.2
        · cases hr
      have ha := spells_parses hw (pre ++ [x]) [] _ trivial (exprLoop_exit hw (by simp) e)
      have hstop : stop ((pre ++ [x]) ++ w ++ []) ((pre ++ [x]).length + w.length) = pre.length + w.length := by
        unfold stop; simp
      rw [hstop, ← hE] at ha hc
      refine bindArgs _ _ (pre.length + 1) _ _ (advance_step (by simp only [List.length_append, List.length_cons]; omega)) (pre.length + w.length) (by simpa using ha) ?_
      refine ⟨0, fun f _ => ?_⟩
      show (current _ _ >>= _) = _
      rw [hc, ev_ok_bind, if_neg (by rcases hend with h | h | h | h <;> simp [h])]; rfl
    | cons b rest =>
      have hcs : argTokens (((w, e) :: b :: rest).map (·.1)) =
          w ++ sym .comma :: argTokens ((b :: rest).map (·.1)) := rfl
      rw [hcs]
      have hE : pre ++ x :: (w ++ sym .comma :: argTokens ((b :: rest).map (·.1))) =
        (pre ++ [x]) ++ w ++ (sym .comma :: argTokens ((b :: rest).map (·.1))) := by simp
      have hE2 : pre ++ x :: (w ++ sym .comma :: argTokens ((b :: rest).map (·.1))) =
        (pre ++ x :: w) ++ sym .comma :: argTokens ((b :: rest).map (·.1)) := by simp
      have ha := spells_parses hw (pre ++ [x]) (sym .comma :: argTokens ((b :: rest).map (·.1))) _
        ⟨by simp [sym], fun _ => rfl, fun _ => rfl, fun _ => by simp [sym]⟩
        (exprLoop_exit hw (by intro t r hr; injection hr with h1 _; rw [← h1]; rfl) e)
      rw [stop_length (by simp), ← hE] at ha
      refine bindArgs _ _ (pre.length + 1) _ _ (by rw [advance_step]; simp) _ (by simpa using ha) ?_
      have hi := ih (x := sym .comma) (pre ++ x :: w) (by simp) (fun a ha => h a (by simp [ha]))
      rw [← hE2] at hi
      have hc : current (pre ++ x :: (w ++ sym .comma :: argTokens ((b :: rest).map (·.1)))) (pre.length + 1 + w.length) =
          .ok (sym .comma) := by
        rw [current_ok, hE2, List.getElem?_append_right (by simp; omega)]
        simp; rw [show pre.length + 1 + w.length - (pre.length + (w.length + 1)) = 0 by omega]; rfl
      have hl : (pre ++ x :: w).length = pre.length + 1 + w.length := by simp; omega
      rw [hl] at hi
      obtain ⟨n, hn⟩ := hi
      simp only at hn
      refine ⟨n, fun f hf => ?_⟩
      show (current _ _ >>= _) = _
      rw [hc, ev_ok_bind, if_pos (show (sym .comma).ty = .comma from rfl), hn f hf, ev_ok_bind]
      show Except.ok _ = Except.ok _
      simp
      omega

theorem argTokens_pos : ∀ (args : List (List Tok × Node Rt.F)), args ≠ [] → (∀ a ∈ args, Spells .expr a.1 a.2) →
    ∃ init t, argTokens (args.map (·.1)) = init ++ [t] ∧ EndTok t := by
  intro args
  induction args with
  | nil => intro h; exact absurd rfl h
  | cons a rest ih =>
    intro _ h
    cases rest with
    | nil => exact spells_last (h a (by simp))
    | cons b rest =>
      obtain ⟨i, t, hi, ht⟩ := ih (by simp) (fun a ha => h a (by simp [ha]))
      exact ⟨a.1 ++ sym .comma :: i, t, by
        show a.1 ++ sym .comma :: argTokens ((b :: rest).map (·.1)) = _
        rw [hi]; simp, ht⟩

theorem call_all {name : Str} (hname : PlainName name) {args : List (List Tok × Node Rt.F)} (hne : args ≠ [])
    (h : ∀ a ∈ args, Spells .expr a.1 a.2) (hw : (argTokens (args.map (·.1))).head? = some (sym .openParen)) :
    Evals (fun f => parseCalc f (⟨.identifier, name⟩ :: argTokens (args.map (·.1)))) (.ok (.call name (args.map (·.2)))) := by
  have ha := parseArgs_list (x := ⟨.identifier, name⟩) args [] hne h
  obtain ⟨i, t, hi, ht⟩ := argTokens_pos args hne h
  simp only [List.nil_append, List.length_nil, Nat.zero_add] at ha
  rw [hi] at ha hw ⊢
  have hlen : (⟨.identifier, name⟩ :: (i ++ [t]) : List Tok).length - 1 = (i ++ [t]).length := by simp
  have hc : current (⟨.identifier, name⟩ :: (i ++ [t])) (i ++ [t]).length = .ok t := by
    rw [current_ok]; simp
  have hf : Evals (fun f => parseFactor (⟨.identifier, name⟩ :: (i ++ [t])) f 0)
      (.ok (.call name (args.map (·.2)), (i ++ [t]).length)) := by
    refine Evals.succ (Evals.bind (k := fun (r : List (Node Rt.F) × Nat) _ =>
      pure (.call name r.1, advance (⟨.identifier, name⟩ :: (i ++ [t])) r.2)) ha ?_) (fun f => ?_)
    · dsimp only
      rw [advance_last (by rw [hlen])]
      exact Evals.const _
    · rw [parseFactor, show current (⟨.identifier, name⟩ :: (i ++ [t])) 0 = .ok ⟨.identifier, name⟩ from rfl, ev_ok_bind]
      simp only
      rw [if_neg (by rw [splitCC_plain hname]; simp), if_pos]
      unfold peekType
      rw [if_neg (by rw [hlen]; simp)]
      cases hh : i ++ [t] with
      | nil => simp at hh
      | cons y w => rw [hh] at hw; simp at hw; subst hw; rfl
  obtain ⟨k, hk⟩ := climb hf hc (endTok_mul ht) (endTok_add ht) (endTok_amp ht)
    (.inr (by unfold nextIdx; rw [if_pos (by rw [hlen])]))
  exact parseCalc_of hk

/-- Read a call with the first argument `e`, then a comma and one token: the token is skipped, and the parser goes on
after it with the call. -/
theorem call_skips {name : Str} (hname : PlainName name) {w : List Tok} {e : Node Rt.F} (h : Spells .cmp w e)
    {b c : Tok} (hb : EndTok b) {post : List Tok} :
    Evals (fun f => parseFactor ([⟨.identifier, name⟩, sym .openParen] ++ w ++ sym .comma :: b :: c :: post) f 0)
      (.ok (.call name [e], w.length + 4)) := by
  have hstop : stop ([⟨.identifier, name⟩, sym .openParen] ++ w ++ sym .comma :: b :: c :: post)
      ([(⟨.identifier, name⟩ : Tok), sym .openParen].length + w.length) = w.length + 2 := by
    unfold stop; simp; omega
  have hcc : current ([⟨.identifier, name⟩, sym .openParen] ++ w ++ sym .comma :: b :: c :: post) (w.length + 2) =
      .ok (sym .comma) := by rw [current_ok]; simp
  have hcb : current ([⟨.identifier, name⟩, sym .openParen] ++ w ++ sym .comma :: b :: c :: post) (w.length + 3) =
      .ok b := by rw [current_ok]; simp
  have hcmp := spells_parses h [⟨.identifier, name⟩, sym .openParen] (sym .comma :: b :: c :: post)
    (.ok (e, w.length + 3)) ⟨by simp [sym], fun _ => rfl, fun _ => rfl, fun _ => by simp [sym]⟩ (by
      rw [hstop]
      refine Evals.succ (Evals.const _) (fun f => ?_)
      rw [comparisonLoop, hcc, ev_ok_bind]
      unfold nextIdx
      rw [if_neg (by simp)]
      rfl)
  have hfac : Evals (fun f => parseFactor
      ([⟨.identifier, name⟩, sym .openParen] ++ w ++ sym .comma :: b :: c :: post) f 1) (.ok (e, w.length + 3)) := by
    refine Evals.succ hcmp (fun f => ?_)
    rw [parseFactor, show current ([⟨.identifier, name⟩, sym .openParen] ++ w ++ sym .comma :: b :: c :: post) 1 =
      .ok (sym .openParen) by rw [current_ok]; simp, ev_ok_bind]
    simp only [sym]
    rw [advance_step (by simp)]
    rfl
  have s1 : Evals (fun f => parseTerm
      ([⟨.identifier, name⟩, sym .openParen] ++ w ++ sym .comma :: b :: c :: post) f 1) (.ok (e, w.length + 3)) :=
    Evals.succ (Evals.bind (k := fun r f => termLoop _ f r.1 r.2) hfac
      (Evals.succ (Evals.const _) (fun f => by
        rw [termLoop, hcb, ev_ok_bind, if_neg (by simp [endTok_mul hb])]; rfl))) (fun f => by rw [parseTerm])
  have s2 : Evals (fun f => parseExpr
      ([⟨.identifier, name⟩, sym .openParen] ++ w ++ sym .comma :: b :: c :: post) f 1) (.ok (e, w.length + 3)) :=
    Evals.succ (Evals.bind (k := fun r f => exprLoop _ f r.1 r.2) s1
      (Evals.succ (Evals.const _) (fun f => by
        rw [exprLoop, hcb, ev_ok_bind, if_neg (by simp [endTok_add hb])]; rfl))) (fun f => by rw [parseExpr])
  have hf := call_factor (name := name) (by simp) hname (by rfl) s2 hcb
    (by rcases hb with h | h | h | h <;> simp [h])
  rw [advance_step (by simp)] at hf
  exact hf

theorem right_factor {op : TokenType} (h : rightLevel op = some .factor) :
    isMultiplicative op = true ∧ ∀ x y : Node Rt.F, combine op x y = .binary x op y := by
  cases op <;> first | (cases h; done) | exact ⟨rfl, fun _ _ => rfl⟩

theorem right_term {op : TokenType} (h : rightLevel op = some .term) :
    isAdditive op = true ∧ isMultiplicative op = false ∧ ∀ x y : Node Rt.F, combine op x y = .binary x op y := by
  cases op <;> first | (cases h; done) | exact ⟨rfl, rfl, fun _ _ => rfl⟩

theorem right_not_cmp {op : TokenType} : rightLevel op ≠ some .cmp := by
  intro h; cases op <;> cases h

theorem right_expr {op : TokenType} (h : rightLevel op = some .expr) : op = .ampersand := by
  cases op <;> first | (cases h; done) | rfl

theorem right_concat {op : TokenType} (h : rightLevel op = some .concat) :
    isComparison op = true ∧ isMultiplicative op = false ∧ isAdditive op = false ∧ op ≠ .ampersand ∧
      ∀ x y : Node Rt.F, combine op x y = .comparison x op y := by
  cases op <;> first | (cases h; done) | exact ⟨rfl, rfl, rfl, by decide, fun _ _ => rfl⟩

/-- The part of a calculation after a first operand `x` that ended before index `i`, where an operator stands. -/
theorem climb_op {pre v : List Tok} {x y : Node Rt.F} {op : TokenType} {l : Level} (hl : rightLevel op = some l)
    (h : Spells l v y)
    (hf : Evals (fun f => parseFactor (pre ++ sym op :: v ++ [sym .closeParen]) f 0) (.ok (x, pre.length))) :
    Evals (fun f => parseCalc f (pre ++ sym op :: v ++ [sym .closeParen])) (.ok (combine op x y)) := by
  have hpos := spells_pos h
  have hE : pre ++ sym op :: v ++ [sym .closeParen] = (pre ++ [sym op]) ++ v ++ [sym .closeParen] := by simp
  have hc : current (pre ++ sym op :: v ++ [sym .closeParen]) pre.length = .ok (sym op) := by rw [current_ok]; simp
  have hc2 : current (pre ++ sym op :: v ++ [sym .closeParen]) (pre.length + 1 + v.length) = .ok (sym .closeParen) := by
    have e : pre.length + 1 + v.length = ((pre ++ [sym op]) ++ v).length := by simp; omega
    rw [hE, current_ok, e]; simp
  have hadv : advance (pre ++ sym op :: v ++ [sym .closeParen]) pre.length = (pre ++ [sym op]).length := by
    rw [advance_step]; simp; simp
  have hnext : nextIdx (pre ++ sym op :: v ++ [sym .closeParen]) pre.length = some (pre ++ [sym op]).length := by
    unfold nextIdx; rw [if_neg]; simp; simp
  have hst : stop ((pre ++ [sym op]) ++ v ++ [sym .closeParen]) ((pre ++ [sym op]).length + v.length) = pre.length + 1 + v.length := by
    rw [stop_length (by simp)]; simp
  have hfol : ∀ l, Follow l [sym .closeParen] := fun l => ⟨by simp [sym], fun _ => rfl, fun _ => rfl, fun _ => by simp [sym]⟩
  have e1 : ∀ z : Node Rt.F, Evals (fun f => termLoop (pre ++ sym op :: v ++ [sym .closeParen]) f z (pre.length + 1 + v.length)) (.ok (z, pre.length + 1 + v.length)) := fun z =>
    Evals.succ (Evals.const _) (fun f => by rw [termLoop, hc2, ev_ok_bind, if_neg (by simp [sym, isMultiplicative])]; rfl)
  have e2 : ∀ z : Node Rt.F, Evals (fun f => exprLoop (pre ++ sym op :: v ++ [sym .closeParen]) f z (pre.length + 1 + v.length)) (.ok (z, pre.length + 1 + v.length)) := fun z =>
    Evals.succ (Evals.const _) (fun f => by rw [exprLoop, hc2, ev_ok_bind, if_neg (by simp [sym, isAdditive])]; rfl)
  have e3 : ∀ z : Node Rt.F, Evals (fun f => concatenationLoop (pre ++ sym op :: v ++ [sym .closeParen]) f z (pre.length + 1 + v.length)) (.ok (z, pre.length + 1 + v.length)) := fun z =>
    Evals.succ (Evals.const _) (fun f => by rw [concatenationLoop, hc2, ev_ok_bind, if_neg (by simp [sym])]; rfl)
  have e4 : ∀ z : Node Rt.F, Evals (fun f => comparisonLoop (pre ++ sym op :: v ++ [sym .closeParen]) f z (pre.length + 1 + v.length)) (.ok (z, pre.length + 1 + v.length)) := fun z =>
    Evals.succ (Evals.const _) (fun f => by
      rw [comparisonLoop, hc2, ev_ok_bind]
      unfold nextIdx
      rw [if_pos (by simp; omega)]; rfl)
  have up1 : ∀ (z : Node Rt.F) (k : Nat), Evals (fun f => termLoop (pre ++ sym op :: v ++ [sym .closeParen]) f x pre.length) (.ok (z, k)) →
      Evals (fun f => parseTerm (pre ++ sym op :: v ++ [sym .closeParen]) f 0) (.ok (z, k)) := fun z k t =>
    Evals.succ (Evals.bind (k := fun r f => termLoop _ f r.1 r.2) hf t) (fun f => by rw [parseTerm])
  have up2 : ∀ (a : Node Rt.F) (i : Nat) (z : Node Rt.F) (k : Nat),
      Evals (fun f => parseTerm (pre ++ sym op :: v ++ [sym .closeParen]) f 0) (.ok (a, i)) →
      Evals (fun f => exprLoop (pre ++ sym op :: v ++ [sym .closeParen]) f a i) (.ok (z, k)) →
      Evals (fun f => parseExpr (pre ++ sym op :: v ++ [sym .closeParen]) f 0) (.ok (z, k)) := fun a i z k s t =>
    Evals.succ (Evals.bind (k := fun r f => exprLoop _ f r.1 r.2) s t) (fun f => by rw [parseExpr])
  have up3 : ∀ (a : Node Rt.F) (i : Nat) (z : Node Rt.F) (k : Nat),
      Evals (fun f => parseExpr (pre ++ sym op :: v ++ [sym .closeParen]) f 0) (.ok (a, i)) →
      Evals (fun f => concatenationLoop (pre ++ sym op :: v ++ [sym .closeParen]) f a i) (.ok (z, k)) →
      Evals (fun f => parseConcatenation (pre ++ sym op :: v ++ [sym .closeParen]) f 0) (.ok (z, k)) := fun a i z k s t =>
    Evals.succ (Evals.bind (k := fun r f => concatenationLoop _ f r.1 r.2) s t) (fun f => by rw [parseConcatenation])
  have up4 : ∀ (a : Node Rt.F) (i : Nat) (z : Node Rt.F) (k : Nat),
      Evals (fun f => parseConcatenation (pre ++ sym op :: v ++ [sym .closeParen]) f 0) (.ok (a, i)) →
      Evals (fun f => comparisonLoop (pre ++ sym op :: v ++ [sym .closeParen]) f a i) (.ok (z, k)) →
      Evals (fun f => parseCalc f (pre ++ sym op :: v ++ [sym .closeParen])) (.ok z) := fun a i z k s t =>
    parseCalc_of (k := k) (Evals.succ (Evals.bind (k := fun r f => comparisonLoop _ f r.1 r.2) s t) (fun f => by rw [parseComparison]))
  have stay1 : isMultiplicative op = false → Evals (fun f => termLoop (pre ++ sym op :: v ++ [sym .closeParen]) f x pre.length) (.ok (x, pre.length)) := fun ho =>
    Evals.succ (Evals.const _) (fun f => by rw [termLoop, hc, ev_ok_bind, if_neg (by simp [sym, ho])]; rfl)
  have stay2 : isAdditive op = false → Evals (fun f => exprLoop (pre ++ sym op :: v ++ [sym .closeParen]) f x pre.length) (.ok (x, pre.length)) := fun ho =>
    Evals.succ (Evals.const _) (fun f => by rw [exprLoop, hc, ev_ok_bind, if_neg (by simp [sym, ho])]; rfl)
  have stay3 : op ≠ .ampersand → Evals (fun f => concatenationLoop (pre ++ sym op :: v ++ [sym .closeParen]) f x pre.length) (.ok (x, pre.length)) := fun ho =>
    Evals.succ (Evals.const _) (fun f => by rw [concatenationLoop, hc, ev_ok_bind, if_neg (by simpa [sym] using ho)]; rfl)
  cases l with
  | cmp => exact (right_not_cmp hl).elim
  | factor =>
    obtain ⟨ho, hcomb⟩ := right_factor hl
    have hp := spells_parses h (pre ++ [sym op]) [sym .closeParen] (hfol _)
    rw [hst, ← hE] at hp
    rw [hcomb]
    have t : Evals (fun f => termLoop (pre ++ sym op :: v ++ [sym .closeParen]) f x pre.length) (.ok (.binary x op y, pre.length + 1 + v.length)) := by
      refine Evals.succ (Evals.bind (k := fun (r : Node Rt.F × Nat) f => termLoop _ f (.binary x op r.1) r.2) hp (e1 _)) (fun f => ?_)
      rw [termLoop, hc, ev_ok_bind, if_pos (show isMultiplicative (sym op).ty = true from ho), hadv]
      rfl
    exact up4 _ _ _ _ (up3 _ _ _ _ (up2 _ _ _ _ (up1 _ _ t) (e2 _)) (e3 _)) (e4 _)
  | term =>
    obtain ⟨ho, ho2, hcomb⟩ := right_term hl
    have hp := spells_parses h (pre ++ [sym op]) [sym .closeParen] _ (hfol _) (by rw [hst, ← hE]; exact e1 y)
    rw [← hE] at hp
    rw [hcomb]
    have t : Evals (fun f => exprLoop (pre ++ sym op :: v ++ [sym .closeParen]) f x pre.length) (.ok (.binary x op y, pre.length + 1 + v.length)) := by
      refine Evals.succ (Evals.bind (k := fun (r : Node Rt.F × Nat) f => exprLoop _ f (.binary x op r.1) r.2) hp (e2 _)) (fun f => ?_)
      rw [exprLoop, hc, ev_ok_bind, if_pos (show isAdditive (sym op).ty = true from ho), hadv]
      rfl
    exact up4 _ _ _ _ (up3 _ _ _ _ (up2 _ _ _ _ (up1 _ _ (stay1 ho2)) t) (e3 _)) (e4 _)
  | expr =>
    have ho : op = .ampersand := right_expr hl
    subst ho
    have hp := spells_parses h (pre ++ [sym .ampersand]) [sym .closeParen] _ (hfol _) (by rw [hst, ← hE]; exact e2 y)
    rw [← hE] at hp
    have t : Evals (fun f => concatenationLoop (pre ++ sym .ampersand :: v ++ [sym .closeParen]) f x pre.length) (.ok (.concatenation x y, pre.length + 1 + v.length)) := by
      refine Evals.succ (Evals.bind (k := fun (r : Node Rt.F × Nat) f => concatenationLoop _ f (.concatenation x r.1) r.2) hp (e3 _)) (fun f => ?_)
      rw [concatenationLoop, hc, ev_ok_bind, if_pos (show (sym .ampersand).ty = .ampersand from rfl), hadv]
    exact up4 _ _ _ _ (up3 _ _ _ _ (up2 _ _ _ _ (up1 _ _ (stay1 rfl)) (stay2 rfl)) t) (e4 _)
  | concat =>
    obtain ⟨ho, ho2, ho3, ho4, hcomb⟩ := right_concat hl
    have hp := spells_parses h (pre ++ [sym op]) [sym .closeParen] _ (hfol _) (by rw [hst, ← hE]; exact e3 y)
    rw [← hE] at hp
    rw [hcomb]
    have t : Evals (fun f => comparisonLoop (pre ++ sym op :: v ++ [sym .closeParen]) f x pre.length) (.ok (.comparison x op y, pre.length + 1 + v.length)) := by
      refine Evals.succ (Evals.bind (k := fun (r : Node Rt.F × Nat) f => comparisonLoop _ f (.comparison x op r.1) r.2) hp (e4 _)) (fun f => ?_)
      rw [comparisonLoop, hc, ev_ok_bind, hnext]
      simp only
      rw [if_pos (show isComparison (sym op).ty = true from ho)]
      rfl
    exact up4 _ _ _ _ (up3 _ _ _ _ (up2 _ _ _ _ (up1 _ _ (stay1 ho2)) (stay2 ho3)) (stay3 ho4)) t

end BurnFm
