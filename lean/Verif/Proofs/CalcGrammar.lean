import Verif.Proofs.CalcParser
import Verif.Spec.CalcGrammar

/-! The parser follows the grammar. -/

namespace BurnFm
open Spec

/-- What may come after tokens of a level. -/
def Follow (l : Level) : List Tok → Prop
  | [] => True
  | t :: _ => t.ty ≠ .openParen ∧ (1 < l.rank → isMultiplicative t.ty = false) ∧
      (2 < l.rank → isAdditive t.ty = false) ∧ (3 < l.rank → t.ty ≠ .ampersand)

theorem Follow.weaken {l l' : Level} {post : List Tok} (h : Follow l post) (hr : l'.rank ≤ l.rank) :
    Follow l' post := by
  cases post with
  | nil => trivial
  | cons t r =>
    exact ⟨h.1, fun x => h.2.1 (by omega), fun x => h.2.2.1 (by omega), fun x => h.2.2.2 (by omega)⟩

/-- A token an expression can end with. -/
def EndTok (t : Tok) : Prop := t.ty = .identifier ∨ t.ty = .numericLiteral ∨ t.ty = .string ∨ t.ty = .closeParen

theorem spells_last [Rt] {l : Level} {w : List Tok} {e : Node Rt.F} (h : Spells l w e) :
    ∃ init t, w = init ++ [t] ∧ EndTok t := by
  induction h with
  | number _ => exact ⟨[], _, rfl, .inr (.inl rfl)⟩
  | «variable» _ => exact ⟨[], _, rfl, .inl rfl⟩
  | field _ _ => exact ⟨[], _, rfl, .inl rfl⟩
  | string => exact ⟨[], _, rfl, .inr (.inr (.inl rfl))⟩
  | paren _ _ => exact ⟨_ :: _, _, rfl, .inr (.inr (.inr rfl))⟩
  | ofFactor _ ih => exact ih
  | ofTerm _ ih => exact ih
  | ofExpr _ ih => exact ih
  | ofConcat _ ih => exact ih
  | @mul a b x y op _ _ _ _ ih => obtain ⟨i, t, rfl, ht⟩ := ih; exact ⟨a ++ sym op :: i, t, by simp, ht⟩
  | @add a b x y op _ _ _ _ ih => obtain ⟨i, t, rfl, ht⟩ := ih; exact ⟨a ++ sym op :: i, t, by simp, ht⟩
  | @concatenate a b x y _ _ _ ih => obtain ⟨i, t, rfl, ht⟩ := ih; exact ⟨a ++ sym .ampersand :: i, t, by simp, ht⟩
  | @compare a b x y op _ _ _ _ ih => obtain ⟨i, t, rfl, ht⟩ := ih; exact ⟨a ++ sym op :: i, t, by simp, ht⟩

theorem spells_pos [Rt] {l : Level} {w : List Tok} {e : Node Rt.F} (h : Spells l w e) : 0 < w.length := by
  obtain ⟨i, t, rfl, _⟩ := spells_last h; simp

/-- The index after reading up to position `n`. -/
def stop (ts : List Tok) (n : Nat) : Nat := min n (ts.length - 1)

theorem advance_stop (ts : List Tok) (i : Nat) (h : i < ts.length) : advance ts i = stop ts (i + 1) := by
  unfold stop
  by_cases hl : i = ts.length - 1
  · rw [advance_last hl]; omega
  · rw [advance_step hl]; omega

/-- The current token after reading `w`: an end token of `w` if nothing follows, or the next token. -/
theorem current_stop [Rt] {l : Level} {pre w post : List Tok} {e : Node Rt.F} (h : Spells l w e) :
    ∃ t, current (pre ++ w ++ post) (stop (pre ++ w ++ post) (pre.length + w.length)) = .ok t ∧
      (post = [] ∧ EndTok t ∨ ∃ r, post = t :: r) := by
  cases post with
  | nil =>
    obtain ⟨i, t, rfl, ht⟩ := spells_last h
    refine ⟨t, ?_, .inl ⟨rfl, ht⟩⟩
    rw [current_ok]
    have : stop (pre ++ (i ++ [t]) ++ []) (pre.length + (i ++ [t]).length) = (pre ++ i).length := by
      unfold stop; simp; try omega
    rw [this]
    simp
  | cons t r =>
    refine ⟨t, ?_, .inr ⟨r, rfl⟩⟩
    rw [current_ok]
    have : stop (pre ++ w ++ t :: r) (pre.length + w.length) = (pre ++ w).length := by
      unfold stop; simp; omega
    rw [this]
    simp

theorem endTok_mul {t : Tok} (h : EndTok t) : isMultiplicative t.ty = false := by
  rcases h with h | h | h | h <;> simp [h, isMultiplicative]

theorem endTok_add {t : Tok} (h : EndTok t) : isAdditive t.ty = false := by
  rcases h with h | h | h | h <;> simp [h, isAdditive]

theorem endTok_amp {t : Tok} (h : EndTok t) : t.ty ≠ .ampersand := by
  rcases h with h | h | h | h <;> simp [h]

theorem splitCC_plain {s : Str} (h : PlainName s) : splitCC s = [s] := by
  induction s with
  | nil => rfl
  | cons c s ih =>
    have hc : c ≠ ':' := fun e => h (by simp [e])
    have hs : PlainName s := fun e => h (by simp [e])
    rw [splitCC, ih hs]
    intro cs e
    simp_all

theorem splitCC_append {t : Str} (h : PlainName t) (f : Str) : splitCC (t ++ t!"::" ++ f) = t :: splitCC f := by
  induction t with
  | nil => rfl
  | cons c s ih =>
    have hc : c ≠ ':' := fun e => h (by simp [e])
    have hs : PlainName s := fun e => h (by simp [e])
    have := ih hs
    simp only [List.cons_append] at this ⊢
    rw [splitCC, this]
    intro cs e
    simp_all

theorem splitCC_field {t f : Str} (ht : PlainName t) (hf : PlainName f) :
    splitCC (t ++ t!"::" ++ f) = [t, f] := by
  rw [splitCC_append ht, splitCC_plain hf]

set_option linter.unusedSectionVars false
variable [Rt]

/-- What the induction over the grammar establishes. -/
def ParsesTo : Level → List Tok → Node Rt.F → Prop
  | .factor, w, e => ∀ pre post, Follow .factor post →
      Evals (fun f => parseFactor (pre ++ w ++ post) f pre.length)
        (.ok (e, stop (pre ++ w ++ post) (pre.length + w.length)))
  | .term, w, e => ∀ pre post r, Follow .term post →
      Evals (fun f => termLoop (pre ++ w ++ post) f e (stop (pre ++ w ++ post) (pre.length + w.length))) r →
      Evals (fun f => parseTerm (pre ++ w ++ post) f pre.length) r
  | .expr, w, e => ∀ pre post r, Follow .expr post →
      Evals (fun f => exprLoop (pre ++ w ++ post) f e (stop (pre ++ w ++ post) (pre.length + w.length))) r →
      Evals (fun f => parseExpr (pre ++ w ++ post) f pre.length) r
  | .concat, w, e => ∀ pre post r, Follow .concat post →
      Evals (fun f => concatenationLoop (pre ++ w ++ post) f e (stop (pre ++ w ++ post) (pre.length + w.length))) r →
      Evals (fun f => parseConcatenation (pre ++ w ++ post) f pre.length) r
  | .cmp, w, e => ∀ pre post r, Follow .cmp post →
      Evals (fun f => comparisonLoop (pre ++ w ++ post) f e (stop (pre ++ w ++ post) (pre.length + w.length))) r →
      Evals (fun f => parseComparison (pre ++ w ++ post) f pre.length) r

theorem factor_stop_simple {pre post : List Tok} {t : Tok} :
    advance (pre ++ [t] ++ post) pre.length = stop (pre ++ [t] ++ post) (pre.length + [t].length) :=
  advance_stop _ _ (by simp)

theorem termLoop_exit {pre w post : List Tok} {l : Level} {e' : Node Rt.F} (h : Spells l w e')
    (hf : ∀ t r, post = t :: r → isMultiplicative t.ty = false) (e : Node Rt.F) :
    Evals (fun f => termLoop (pre ++ w ++ post) f e (stop (pre ++ w ++ post) (pre.length + w.length)))
      (.ok (e, stop (pre ++ w ++ post) (pre.length + w.length))) := by
  obtain ⟨t, hc, ht⟩ := current_stop (pre := pre) (post := post) h
  refine Evals.succ (Evals.const _) (fun f => ?_)
  rw [termLoop, hc, ev_ok_bind]
  rw [if_neg]
  · rfl
  · rcases ht with ⟨_, ht⟩ | ⟨r, hr⟩
    · simp [endTok_mul ht]
    · simp [hf t r hr]

theorem exprLoop_exit {pre w post : List Tok} {l : Level} {e' : Node Rt.F} (h : Spells l w e')
    (hf : ∀ t r, post = t :: r → isAdditive t.ty = false) (e : Node Rt.F) :
    Evals (fun f => exprLoop (pre ++ w ++ post) f e (stop (pre ++ w ++ post) (pre.length + w.length)))
      (.ok (e, stop (pre ++ w ++ post) (pre.length + w.length))) := by
  obtain ⟨t, hc, ht⟩ := current_stop (pre := pre) (post := post) h
  refine Evals.succ (Evals.const _) (fun f => ?_)
  rw [exprLoop, hc, ev_ok_bind]
  rw [if_neg]
  · rfl
  · rcases ht with ⟨_, ht⟩ | ⟨r, hr⟩
    · simp [endTok_add ht]
    · simp [hf t r hr]

theorem concatenationLoop_exit {pre w post : List Tok} {l : Level} {e' : Node Rt.F} (h : Spells l w e')
    (hf : ∀ t r, post = t :: r → t.ty ≠ .ampersand) (e : Node Rt.F) :
    Evals (fun f => concatenationLoop (pre ++ w ++ post) f e (stop (pre ++ w ++ post) (pre.length + w.length)))
      (.ok (e, stop (pre ++ w ++ post) (pre.length + w.length))) := by
  obtain ⟨t, hc, ht⟩ := current_stop (pre := pre) (post := post) h
  refine Evals.succ (Evals.const _) (fun f => ?_)
  rw [concatenationLoop, hc, ev_ok_bind]
  rw [if_neg]
  · rfl
  · rcases ht with ⟨_, ht⟩ | ⟨r, hr⟩
    · exact endTok_amp ht
    · exact hf t r hr

/-- After a complete comparison: at the end, or at a closing parenthesis, which is skipped. -/
theorem comparisonLoop_exit_end {pre w : List Tok} {l : Level} {e' : Node Rt.F} (h : Spells l w e') (e : Node Rt.F) :
    Evals (fun f => comparisonLoop (pre ++ w ++ []) f e (stop (pre ++ w ++ []) (pre.length + w.length)))
      (.ok (e, stop (pre ++ w ++ []) (pre.length + w.length))) := by
  obtain ⟨t, hc, _⟩ := current_stop (pre := pre) (post := []) h
  refine Evals.succ (Evals.const _) (fun f => ?_)
  rw [comparisonLoop, hc, ev_ok_bind]
  have : nextIdx (pre ++ w ++ []) (stop (pre ++ w ++ []) (pre.length + w.length)) = none := by
    unfold nextIdx
    rw [if_pos]
    unfold stop; simp
  rw [this]
  rfl

theorem comparisonLoop_exit_paren {pre w post : List Tok} {l : Level} {e' : Node Rt.F} (h : Spells l w e')
    (e : Node Rt.F) :
    Evals (fun f => comparisonLoop (pre ++ w ++ sym .closeParen :: post) f e
        (stop (pre ++ w ++ sym .closeParen :: post) (pre.length + w.length)))
      (.ok (e, stop (pre ++ w ++ sym .closeParen :: post) (pre.length + w.length + 1))) := by
  obtain ⟨t, hc, ht⟩ := current_stop (pre := pre) (post := sym .closeParen :: post) h
  have htt : t = sym .closeParen := by
    rcases ht with ⟨h', _⟩ | ⟨r, hr⟩
    · cases h'
    · injection hr with h1 _; exact h1.symm
  subst htt
  refine Evals.succ (Evals.const _) (fun f => ?_)
  rw [comparisonLoop, hc, ev_ok_bind]
  unfold nextIdx
  split
  · rename_i heq
    split at heq
    · rename_i hl
      rw [pure, Applicative.toPure, Monad.toApplicative]
      have : stop (pre ++ w ++ sym .closeParen :: post) (pre.length + w.length) =
          stop (pre ++ w ++ sym .closeParen :: post) (pre.length + w.length + 1) := by
        unfold stop at *; omega
      rw [this]; rfl
    · cases heq
  · rename_i j heq
    split at heq
    · cases heq
    · rename_i hl
      injection heq with heq
      subst heq
      have : stop (pre ++ w ++ sym .closeParen :: post) (pre.length + w.length) + 1 =
          stop (pre ++ w ++ sym .closeParen :: post) (pre.length + w.length + 1) := by
        unfold stop at *
        simp only [List.length_append, List.length_cons] at *
        omega
      rw [if_neg (by simp [sym, isComparison]), this]
      rfl

theorem pos_of_op {pre a b post : List Tok} {op : Tok} :
    stop (pre ++ (a ++ op :: b) ++ post) (pre.length + a.length) = pre.length + a.length := by
  unfold stop; simp; omega

theorem current_op {pre a b post : List Tok} {op : Tok} :
    current (pre ++ (a ++ op :: b) ++ post) (pre.length + a.length) = .ok op := by
  rw [current_ok, ← List.length_append]; simp

theorem advance_op {pre a b post : List Tok} {op : Tok} (hb : 0 < b.length) :
    advance (pre ++ (a ++ op :: b) ++ post) (pre.length + a.length) = pre.length + a.length + 1 := by
  rw [advance_step]
  simp; omega

theorem next_op {pre a b post : List Tok} {op : Tok} (hb : 0 < b.length) :
    nextIdx (pre ++ (a ++ op :: b) ++ post) (pre.length + a.length) = some (pre.length + a.length + 1) := by
  unfold nextIdx
  rw [if_neg]
  simp; omega

theorem assocA (pre a b post : List Tok) (op : Tok) :
    pre ++ (a ++ op :: b) ++ post = pre ++ a ++ (op :: b ++ post) := by simp

theorem assocB (pre a b post : List Tok) (op : Tok) :
    pre ++ (a ++ op :: b) ++ post = (pre ++ a ++ [op]) ++ b ++ post := by simp

theorem follow_of {l : Level} {post : List Tok} (h : Follow l post) :
    (1 < l.rank → ∀ t r, post = t :: r → isMultiplicative t.ty = false) ∧
    (2 < l.rank → ∀ t r, post = t :: r → isAdditive t.ty = false) ∧
    (3 < l.rank → ∀ t r, post = t :: r → t.ty ≠ .ampersand) := by
  refine ⟨?_, ?_, ?_⟩ <;> intro hr t r he <;> subst he
  · exact h.2.1 hr
  · exact h.2.2.1 hr
  · exact h.2.2.2 hr

theorem spells_parses {l : Level} {w : List Tok} {e : Node Rt.F} (h : Spells l w e) : ParsesTo l w e := by
  induction h with
  | @number s x hx =>
    intro pre post _
    refine Evals.succ (Evals.const _) (fun f => ?_)
    rw [parseFactor, show current (pre ++ [⟨.numericLiteral, s⟩] ++ post) pre.length = .ok ⟨.numericLiteral, s⟩ by
      rw [current_ok]; simp, ev_ok_bind]
    simp only [hx]
    rw [factor_stop_simple]
    rfl
  | @«variable» s hs =>
    intro pre post hf
    refine Evals.succ (Evals.const _) (fun f => ?_)
    rw [parseFactor, show current (pre ++ [⟨.identifier, s⟩] ++ post) pre.length = .ok ⟨.identifier, s⟩ by
      rw [current_ok]; simp, ev_ok_bind]
    simp only
    rw [if_neg (by rw [splitCC_plain hs]; simp), if_neg, factor_stop_simple]
    · rfl
    · unfold peekType
      split
      · simp
      · cases post with
        | nil => simp
        | cons t r =>
          have : t.ty ≠ .openParen := hf.1
          have : (pre ++ [(⟨.identifier, s⟩ : Tok)] ++ t :: r)[pre.length + 1]? = some t := by
            rw [List.getElem?_append_right (by simp)]; simp
          rw [this]
          simpa using hf.1
  | @field t f ht hff =>
    intro pre post _
    refine Evals.succ (Evals.const _) (fun f' => ?_)
    rw [parseFactor, show current (pre ++ [⟨.identifier, t ++ t!"::" ++ f⟩] ++ post) pre.length =
      .ok ⟨.identifier, t ++ t!"::" ++ f⟩ by rw [current_ok]; simp, ev_ok_bind]
    simp only
    rw [if_pos (by rw [splitCC_field ht hff]; rfl), factor_stop_simple]
    rfl
  | @string s =>
    intro pre post _
    refine Evals.succ (Evals.const _) (fun f => ?_)
    rw [parseFactor, show current (pre ++ [⟨.string, s⟩] ++ post) pre.length = .ok ⟨.string, s⟩ by
      rw [current_ok]; simp, ev_ok_bind]
    simp only
    rw [factor_stop_simple]
    rfl
  | @paren ts e hs ih =>
    intro pre post _
    have hE : pre ++ (sym .openParen :: ts ++ [sym .closeParen]) ++ post =
        (pre ++ [sym .openParen]) ++ ts ++ (sym .closeParen :: post) := by simp
    have hp := ih (pre ++ [sym .openParen]) (sym .closeParen :: post) _ (by
      refine ⟨by simp [sym], fun _ => rfl, fun _ => rfl, fun _ => by simp [sym]⟩) (comparisonLoop_exit_paren hs e)
    rw [← hE] at hp
    refine Evals.succ (y := fun f => parseComparison (pre ++ (sym .openParen :: ts ++ [sym .closeParen]) ++ post) f
      (pre ++ [sym .openParen]).length) ?_ (fun f => ?_)
    · rw [show (pre ++ [sym .openParen]).length + ts.length + 1 =
        pre.length + (sym .openParen :: ts ++ [sym .closeParen]).length by simp [Nat.add_assoc, Nat.add_comm 1]] at hp
      exact hp
    · rw [parseFactor, show current (pre ++ (sym .openParen :: ts ++ [sym .closeParen]) ++ post) pre.length =
        .ok (sym .openParen) by rw [current_ok]; simp, ev_ok_bind]
      simp only [sym]
      rw [advance_step]
      · simp
      · simp
  | @ofFactor ts e hs ih =>
    intro pre post r hf hl
    refine Evals.succ (Evals.bind (k := fun r f => termLoop _ f r.1 r.2) (ih pre post (hf.weaken (by simp [Level.rank]))) hl) (fun f => ?_)
    rw [parseTerm]
  | @ofTerm ts e hs ih =>
    intro pre post r hf hl
    refine Evals.succ (Evals.bind (k := fun r f => exprLoop _ f r.1 r.2) (ih pre post _ (hf.weaken (by simp [Level.rank]))
      (termLoop_exit hs ((follow_of hf).1 (by simp [Level.rank])) e)) hl) (fun f => ?_)
    rw [parseExpr]
  | @ofExpr ts e hs ih =>
    intro pre post r hf hl
    refine Evals.succ (Evals.bind (k := fun r f => concatenationLoop _ f r.1 r.2) (ih pre post _ (hf.weaken (by simp [Level.rank]))
      (exprLoop_exit hs ((follow_of hf).2.1 (by simp [Level.rank])) e)) hl) (fun f => ?_)
    rw [parseConcatenation]
  | @ofConcat ts e hs ih =>
    intro pre post r hf hl
    refine Evals.succ (Evals.bind (k := fun r f => comparisonLoop _ f r.1 r.2) (ih pre post _ (hf.weaken (by simp [Level.rank]))
      (concatenationLoop_exit hs ((follow_of hf).2.2 (by simp [Level.rank])) e)) hl) (fun f => ?_)
    rw [parseComparison]
  | @mul a b x y op hop ha hb iha ihb =>
    intro pre post r hf hl
    have h2 := ihb (pre ++ a ++ [sym op]) post (hf.weaken (by simp [Level.rank]))
    rw [← assocB] at h2
    have hlen : (pre ++ a ++ [sym op]).length = pre.length + a.length + 1 := by simp; omega
    rw [hlen] at h2
    have hpos : pre.length + a.length + 1 + b.length = pre.length + (a ++ sym op :: b).length := by simp; omega
    rw [hpos] at h2
    have hm : isMultiplicative op = true := by rcases hop with rfl | rfl <;> rfl
    have h1 := iha pre (sym op :: b ++ post) r (by
      rcases hop with rfl | rfl <;> exact ⟨by simp [sym], by simp [Level.rank], by simp [Level.rank], by simp [Level.rank]⟩)
    rw [← assocA] at h1
    apply h1
    rw [pos_of_op]
    refine Evals.succ (Evals.bind (k := fun r f => termLoop _ f (.binary x op r.1) r.2) h2 hl) (fun f => ?_)
    rw [termLoop, current_op, ev_ok_bind, if_pos (by exact hm), advance_op (spells_pos hb)]
    rfl
  | @add a b x y op hop ha hb iha ihb =>
    intro pre post r hf hl
    have h2 := ihb (pre ++ a ++ [sym op]) post _ (hf.weaken (by simp [Level.rank]))
      (termLoop_exit hb ((follow_of hf).1 (by simp [Level.rank])) y)
    rw [← assocB] at h2
    have hlen : (pre ++ a ++ [sym op]).length = pre.length + a.length + 1 := by simp; omega
    rw [hlen] at h2
    have hpos : pre.length + a.length + 1 + b.length = pre.length + (a ++ sym op :: b).length := by simp; omega
    rw [hpos] at h2
    have hm : isAdditive op = true := by rcases hop with rfl | rfl <;> rfl
    have h1 := iha pre (sym op :: b ++ post) r (by
      rcases hop with rfl | rfl <;> exact ⟨by simp [sym], fun _ => rfl, by simp [Level.rank], by simp [Level.rank]⟩)
    rw [← assocA] at h1
    apply h1
    rw [pos_of_op]
    refine Evals.succ (Evals.bind (k := fun r f => exprLoop _ f (.binary x op r.1) r.2) h2 hl) (fun f => ?_)
    rw [exprLoop, current_op, ev_ok_bind, if_pos (by exact hm), advance_op (spells_pos hb)]
    rfl
  | @concatenate a b x y ha hb iha ihb =>
    intro pre post r hf hl
    have h2 := ihb (pre ++ a ++ [sym .ampersand]) post _ (hf.weaken (by simp [Level.rank]))
      (exprLoop_exit hb ((follow_of hf).2.1 (by simp [Level.rank])) y)
    rw [← assocB] at h2
    have hlen : (pre ++ a ++ [sym .ampersand]).length = pre.length + a.length + 1 := by simp; omega
    rw [hlen] at h2
    have hpos : pre.length + a.length + 1 + b.length = pre.length + (a ++ sym .ampersand :: b).length := by
      simp; omega
    rw [hpos] at h2
    have h1 := iha pre (sym .ampersand :: b ++ post) r ⟨by simp [sym], fun _ => rfl, fun _ => rfl, by simp [Level.rank]⟩
    rw [← assocA] at h1
    apply h1
    rw [pos_of_op]
    refine Evals.succ (Evals.bind (k := fun r f => concatenationLoop _ f (.concatenation x r.1) r.2) h2 hl) (fun f => ?_)
    rw [concatenationLoop, current_op, ev_ok_bind, if_pos (show (sym .ampersand).ty = .ampersand from rfl), advance_op (spells_pos hb)]
  | @compare a b x y op hop ha hb iha ihb =>
    intro pre post r hf hl
    have h2 := ihb (pre ++ a ++ [sym op]) post _ (hf.weaken (by simp [Level.rank]))
      (concatenationLoop_exit hb ((follow_of hf).2.2 (by simp [Level.rank])) y)
    rw [← assocB] at h2
    have hlen : (pre ++ a ++ [sym op]).length = pre.length + a.length + 1 := by simp; omega
    rw [hlen] at h2
    have hpos : pre.length + a.length + 1 + b.length = pre.length + (a ++ sym op :: b).length := by simp; omega
    rw [hpos] at h2
    have hm : isComparison op = true := by
      simp only [List.mem_cons, List.not_mem_nil, or_false] at hop
      rcases hop with rfl | rfl | rfl | rfl | rfl | rfl <;> rfl
    have h1 := iha pre (sym op :: b ++ post) r (by
      simp only [List.mem_cons, List.not_mem_nil, or_false] at hop
      rcases hop with rfl | rfl | rfl | rfl | rfl | rfl <;>
        exact ⟨by simp [sym], fun _ => rfl, fun _ => rfl, fun _ => by simp [sym]⟩)
    rw [← assocA] at h1
    apply h1
    rw [pos_of_op]
    refine Evals.succ (Evals.bind (k := fun r f => comparisonLoop _ f (.comparison x op r.1) r.2) h2 hl) (fun f => ?_)
    rw [comparisonLoop, current_op, ev_ok_bind, next_op (spells_pos hb)]
    simp only
    rw [if_pos (by exact hm)]
    rfl

theorem spells_parseComparison {w : List Tok} {e : Node Rt.F} (h : Spells .cmp w e) :
    Evals (fun f => parseCalc f w) (.ok e) := by
  have hp := spells_parses h [] [] _ trivial (comparisonLoop_exit_end h e)
  have : Evals (fun f => parseComparison ([] ++ w ++ []) f ([] : List Tok).length >>=
      fun r => (pure r.1 : Ev _)) (.ok e) := Evals.bind hp (Evals.const _)
  simpa [parseCalc] using this

theorem spells_parseCalc {w : List Tok} {e : Node Rt.F} (h : Spells .cmp w e) {f : Nat}
    (hf : 10 * w.length + 10 ≤ f) : parseCalc f w = .ok e := by
  obtain ⟨n, hn⟩ := spells_parseComparison h
  have h1 := parseCalc_mono w (show f ≤ max f n by omega)
  rw [show parseCalc (max f n) w = .ok e from hn (max f n) (by omega)] at h1
  refine h1.eq (parseCalc_bounded w ?_ hf)
  intro t ht hty
  obtain ⟨i, t', rfl, he⟩ := spells_last h
  simp at ht
  subst ht
  rcases he with he | he | he | he <;> rw [he] at hty <;> cases hty

end BurnFm
