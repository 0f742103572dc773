import Verif.Spec.Warns
import Verif.Proofs.Means
import Verif.Proofs.CalcNotes

/-! Lemmas about the warnings of calculations, exactly. -/

namespace BurnFm
open Spec

variable {env : CalcEnv}

theorem noted_eq {α : Type} {x : Noted α} {r : Ev α} {ns : List Note} (h1 : x.result = r) (h2 : x.notes = ns) : x = ⟨ns, r⟩ := by
  cases x; cases h1; cases h2; rfl

theorem operandValN_name {s : Str} (h1 : isFloatText s = false) (h2 : isQuoted s = false) (n : Nat) :
    operandValN env (n + 1) s = (match splitCC s with
      | [_, field] => do
        let v ← quiet (liftR (env.db.foundSetRecordField field))
        operandValN env n v
      | _ =>
        match env.depth with
        | 0 => quiet (.error (.panic .overflow))
        | scope + 1 => do
          let vars ← quiet (liftR (idx env.vars scope))
          match SMap.get vars s with
          | none => do
            note (.unknownVariable s)
            pure ⟨[], false⟩
          | some v => operandValN env n v) := by
  rw [operandValN, if_neg (by rw [h1]; decide), if_neg (by rw [h2]; decide)]
  rfl

theorem quiet_bind {α β : Type} (a : α) (f : α → Noted β) : (quiet (.ok a) >>= f) = f a := by
  show (⟨[] ++ (f a).notes, (f a).result⟩ : Noted β) = f a
  rfl

theorem operandValN_stored {s t : Str} (h : StoredUnder env s t) (n : Nat) : operandValN env (n + 1) s = operandValN env n t := by
  cases h with
  | field h1 h2 h3 h4 =>
    rw [operandValN_name h1 h2, h3]
    simp only [(Props.currentValue_iff _ _ _).mpr h4, liftR, quiet_bind]
  | var h1 h2 h3 h4 =>
    rw [operandValN_name h1 h2]
    split
    · rename_i e; exact absurd e (h3 _ _)
    · unfold varValue at h4
      split at h4
      · cases h4
      · rename_i d hd
        rw [hd]
        simp only
        cases hm : env.vars[d]? with
        | none => rw [hm] at h4; cases h4
        | some m =>
          rw [hm] at h4
          simp only [Option.bind_some] at h4
          simp only [idx_of hm, liftR, quiet_bind, h4]

theorem operandValN_warns {s : Str} {ns : List Note} (h : LookupWarns env s ns) : ∀ {n : Nat} {o : Operand},
    operandVal env n s = .ok o → operandValN env n s = ⟨ns, .ok o⟩ := by
  induction h with
  | @value s h =>
    intro n o ho
    cases n with
    | zero => cases ho
    | succ n =>
      refine noted_eq ((operandValN_snd env _ s).trans ho) ?_
      rw [operandValN]
      by_cases h1 : isFloatText s = true
      · rw [if_pos h1]; rfl
      · rw [if_neg h1, if_pos (h.resolve_left h1)]; rfl
  | @unset s h1 h2 h3 h4 h5 =>
    intro n o ho
    cases n with
    | zero => cases ho
    | succ n =>
      refine noted_eq ((operandValN_snd env _ s).trans ho) ?_
      rw [operandValN_name h1 h2]
      split
      · rename_i e; exact absurd e (h3 _ _)
      · obtain ⟨d, m, hd, hm⟩ := h4
        unfold varValue at h5
        rw [hd] at h5 ⊢
        simp only at h5 ⊢
        rw [hm] at h5
        simp only [Option.bind_some] at h5
        simp only [idx_of hm, liftR, quiet_bind, h5]
        rfl
  | @next s t ns hs _ ih =>
    intro n o ho
    cases n with
    | zero => cases ho
    | succ n => rw [operandVal_stored hs] at ho; rw [operandValN_stored hs]; exact ih ho

theorem lookupWarns_total {s v : Str} {b : Bool} (h : Resolves env s v b) : ∃ ns, LookupWarns env s ns := by
  induction h with
  | number h => exact ⟨_, .value (.inl h)⟩
  | quoted _ h => exact ⟨_, .value (.inr h)⟩
  | field h1 h2 h3 h4 _ ih => obtain ⟨ns, ih⟩ := ih; exact ⟨ns, .next (.field h1 h2 h3 h4) ih⟩
  | var h1 h2 h3 h4 _ ih => obtain ⟨ns, ih⟩ := ih; exact ⟨ns, .next (.var h1 h2 h3 h4) ih⟩
  | unset h1 h2 h3 h4 h5 => exact ⟨_, .unset h1 h2 h3 h4 h5⟩

section
variable [Rt]

theorem eval_means {n : Nat} {e : Node Rt.F} {v : Str} (h : evalNode env n e = .ok v) : Means env e v := by
  have hg := given_of_mono (fun n => evalNode_mono env n e) h
  rcases means_total (env := env) e with ⟨w, hw⟩ | ⟨k, hk⟩
  · rwa [given_unique hg (given_means e hw)]
  · exact (given_not_ended hg (ended_fails e hk)).elim

theorem means_unique {e : Node Rt.F} {v w : Str} (h : Means env e v) (h' : Means env e w) : v = w :=
  given_unique (given_means e h) (given_means e h')

theorem resolves_of_eval {n : Nat} {s : Str} {o : Operand} (h : operandVal env n s = .ok o) : Resolves env s o.value o.number :=
  (Props.operand_exact env s o.value o.number).mp ⟨n, h⟩

theorem larger_unique {x y : Str} {b c : Bool} (h : Larger env x y b) (h' : Larger env x y c) : b = c := by
  obtain ⟨o, ho, rfl⟩ := given_minOrder h
  obtain ⟨o', ho', rfl⟩ := given_minOrder h'
  rw [given_unique ho ho']

theorem arithN_numbers {op : TokenType} {a b : Operand} {v : Str} (ha : a.number = true) (hb : b.number = true)
    (h : arith op a b = .ok v) : arithN op a b = ⟨[], .ok v⟩ := by
  refine noted_eq ((arithN_snd op a b).trans h) ?_
  unfold arithN
  split
  · rfl
  · rw [if_neg (by simp [ha, hb])]; rfl

theorem arithN_undefined {op : TokenType} {a b : Operand} {v : Str} (hn : ¬(a.number = true ∧ b.number = true))
    (h : arith op a b = .ok v) : arithN op a b = ⟨[.notNumbers], .ok v⟩ := by
  refine noted_eq ((arithN_snd op a b).trans h) ?_
  unfold arithN
  split
  · rename_i hop
    unfold arith at h
    rw [if_pos hop] at h
    cases h
  · rw [if_pos (by revert hn; cases a.number <;> cases b.number <;> simp)]; rfl

theorem minOrderN_warns {x y : Str} {xs ys : List Note} (hx : LookupWarns env x xs) (hy : LookupWarns env y ys) {n : Nat}
    {o : Ordering} (h : minOrder env n x y = .ok o) : minOrderN env n x y = ⟨xs ++ ys, .ok o⟩ := by
  refine noted_eq ((minOrderN_snd env n x y).trans h) ?_
  unfold minOrder at h
  obtain ⟨p, hp, h⟩ := ev_bind_ok.mp h
  obtain ⟨q, hq, h⟩ := ev_bind_ok.mp h
  unfold minOrderN
  rw [operandValN_warns hx hp, noted_ok_bind]
  show xs ++ (operandValN env n y >>= _).notes = _
  rw [operandValN_warns hy hq, noted_ok_bind]
  show xs ++ (ys ++ Noted.notes _) = _
  have : ∀ z : List Note, z = [] → xs ++ (ys ++ z) = xs ++ ys := by rintro _ rfl; simp
  refine this _ ?_
  split
  · rename_i hc
    rw [if_pos hc] at h
    obtain ⟨a, ha, h⟩ := ev_bind_ok.mp h
    obtain ⟨b, hb, h⟩ := ev_bind_ok.mp h
    rw [ha, quiet_bind, hb, quiet_bind]
    rfl
  · rfl

mutual

theorem evalNodeN_warns : ∀ (e : Node Rt.F) {ns : List Note}, Warns env e ns → ∀ {n : Nat} {v : Str},
    evalNode env n e = .ok v → evalNodeN env n e = ⟨ns, .ok v⟩
  | .number x, _, h, n, v, hv => by
    cases h; rw [evalNode] at hv; rw [evalNodeN]; cases hv; rfl
  | .stringLiteral s, _, h, n, v, hv => by
    cases h; rw [evalNode] at hv; rw [evalNodeN]; cases hv; rfl
  | .variable x, _, h, n, v, hv => by
    cases h with
    | «variable» h =>
      rw [evalNode] at hv
      obtain ⟨o, ho, hv⟩ := ev_bind_ok.mp hv
      cases hv
      rw [evalNodeN, operandValN_warns h ho, noted_ok_bind]
      simp
  | .field x, _, h, n, v, hv => by
    cases h with
    | field h =>
      rw [evalNode] at hv
      obtain ⟨o, ho, hv⟩ := ev_bind_ok.mp hv
      cases hv
      rw [evalNodeN, operandValN_warns h ho, noted_ok_bind]
      simp
  | .concatenation l r, _, h, n, v, hv => by
    cases h with
    | concatenation h1 h2 =>
      rw [evalNode] at hv
      obtain ⟨a, ha, hv⟩ := ev_bind_ok.mp hv
      obtain ⟨b, hb, hv⟩ := ev_bind_ok.mp hv
      cases hv
      rw [evalNodeN, evalNodeN_warns l h1 ha, noted_ok_bind, evalNodeN_warns r h2 hb, noted_ok_bind]
      simp
  | .comparison l op r, _, h, n, v, hv => by
    cases h with
    | comparison h1 h2 =>
      rw [evalNode] at hv
      split at hv
      · rename_i hop
        obtain ⟨a, ha, hv⟩ := ev_bind_ok.mp hv
        obtain ⟨b, hb, hv⟩ := ev_bind_ok.mp hv
        rw [evalNodeN, if_pos hop, evalNodeN_warns l h1 ha, noted_ok_bind, evalNodeN_warns r h2 hb, noted_ok_bind, hv]
        simp
      · cases hv
  | .binary l op r, _, h, n, v, hv => by
    rw [evalNode] at hv
    obtain ⟨a, ha, hv⟩ := ev_bind_ok.mp hv
    obtain ⟨b, hb, hv⟩ := ev_bind_ok.mp hv
    obtain ⟨x, hx, hv⟩ := ev_bind_ok.mp hv
    obtain ⟨y, hy, hv⟩ := ev_bind_ok.mp hv
    cases h with
    | @arithmetic _ _ _ a' b' _ _ _ _ h1 h2 h3 h4 h5 h6 h7 =>
      rw [means_unique h3 (eval_means ha)] at h5 h7
      rw [means_unique h4 (eval_means hb)] at h6 h7
      obtain ⟨⟨v1, hn1⟩, ⟨v2, hn2⟩⟩ := h7
      have e1 := (Props.resolves_unique env _ _ _ _ _ hn1 (resolves_of_eval hx)).2
      have e2 := (Props.resolves_unique env _ _ _ _ _ hn2 (resolves_of_eval hy)).2
      rw [evalNodeN, evalNodeN_warns l h1 ha, noted_ok_bind, evalNodeN_warns r h2 hb, noted_ok_bind, operandValN_warns h5 hx,
        noted_ok_bind, operandValN_warns h6 hy, noted_ok_bind, arithN_numbers e1.symm e2.symm hv]
      simp
    | @undefined _ _ _ a' b' _ _ _ _ h1 h2 h3 h4 h5 h6 h7 =>
      rw [means_unique h3 (eval_means ha)] at h5 h7
      rw [means_unique h4 (eval_means hb)] at h6 h7
      have hn : ¬(x.number = true ∧ y.number = true) := by
        rintro ⟨e1, e2⟩
        have r1 := resolves_of_eval hx
        have r2 := resolves_of_eval hy
        rw [e1] at r1
        rw [e2] at r2
        exact h7 ⟨⟨_, r1⟩, ⟨_, r2⟩⟩
      rw [evalNodeN, evalNodeN_warns l h1 ha, noted_ok_bind, evalNodeN_warns r h2 hb, noted_ok_bind, operandValN_warns h5 hx,
        noted_ok_bind, operandValN_warns h6 hy, noted_ok_bind, arithN_undefined hn hv]
      simp
  | .call name es, _, h, n, v, hv => by
    cases h with
    | @first _ e es _ hn h =>
      simp only [List.mem_cons, List.not_mem_nil, or_false] at hn
      refine noted_eq ((evalNodeN_snd env n _).trans hv) ?_
      rcases hn with rfl | rfl | rfl
      · rw [means_call_abs] at hv
        obtain ⟨a, ha, hv⟩ := ev_bind_ok.mp hv
        rw [evalNodeN, evalArgsN]
        show (evalNodeN env n e >>= _).notes = _
        rw [evalNodeN_warns e h ha, noted_ok_bind]
        split at hv
        · rename_i hf; simp only [hf, if_true]; simp
        · cases hv
      · rw [means_call_acos] at hv
        obtain ⟨a, ha, hv⟩ := ev_bind_ok.mp hv
        rw [evalNodeN, evalArgsN]
        show (evalNodeN env n e >>= _).notes = _
        rw [evalNodeN_warns e h ha, noted_ok_bind]
        split at hv
        · rename_i hf; simp only [hf, if_true]; simp
        · cases hv
      · rw [means_call_char] at hv
        obtain ⟨a, ha, hv⟩ := ev_bind_ok.mp hv
        obtain ⟨c, hc, hv⟩ := ev_bind_ok.mp hv
        rw [evalNodeN, evalArgsN]
        show (evalNodeN env n e >>= _).notes = _
        rw [evalNodeN_warns e h ha, noted_ok_bind]
        split at hv
        · rename_i hf; simp only [hc, quiet_bind, hf, if_true]; simp
        · cases hv
    | @asin e e' es _ _ h1 h2 =>
      refine noted_eq ((evalNodeN_snd env n _).trans hv) ?_
      rw [means_call_asin] at hv
      obtain ⟨a, ha, hv⟩ := ev_bind_ok.mp hv
      obtain ⟨b, hb, hv⟩ := ev_bind_ok.mp hv
      rw [evalNodeN, evalArgsN, evalArgsN]
      show (evalNodeN env n e >>= fun a => evalNodeN env n e' >>= _).notes = _
      rw [evalNodeN_warns e h1 ha, noted_ok_bind]
      show _ ++ (evalNodeN env n e' >>= _).notes = _
      rw [evalNodeN_warns e' h2 hb, noted_ok_bind]
      simp
    | @min e es w _ _ h1 h2 h3 =>
      rw [means_call_min] at hv
      obtain ⟨a, ha, hv⟩ := ev_bind_ok.mp hv
      rw [means_unique h2 (eval_means ha)] at h3
      rw [evalNodeN, evalArgsN]
      show (evalNodeN env n e >>= fun v => minRestN env n v (evalArgsN env n es)) = _
      rw [evalNodeN_warns e h1 ha, noted_ok_bind, minRestN_warns es h3 hv]
    | other hn =>
      refine noted_eq ((evalNodeN_snd env n _).trans hv) ?_
      simp only [List.mem_cons, List.not_mem_nil, or_false, not_or] at hn
      obtain ⟨h1, h2, h3, h4, h5⟩ := hn
      rw [evalNodeN]
      unfold callFunctionN
      rw [if_neg h1, if_neg h2, if_neg h4, if_neg h3, if_neg h5]
      split
      · cases hi : idx (evalArgsN env n es) 0 <;> rfl
      · rfl

theorem minRestN_warns : ∀ (es : List (Node Rt.F)) {w : Str} {ns : List Note}, LeastWarns env w es ns → ∀ {n : Nat} {v : Str},
    minLoop env n es w = .ok v → minRestN env n w (evalArgsN env n es) = ⟨ns, .ok v⟩
  | [], w, _, h, n, v, hv => by
    cases h
    rw [minLoop, evalArgs, List.foldlM_nil] at hv
    cases hv
    rw [evalArgsN, minRestN]
    rfl
  | e :: es, w, _, h, n, v, hv => by
    rw [minLoop_cons] at hv
    obtain ⟨u, hu, hv⟩ := ev_bind_ok.mp hv
    obtain ⟨o, ho, hv⟩ := ev_bind_ok.mp hv
    cases h with
    | @keep _ u' _ _ ns vs us ms h1 h2 h3 h4 h5 h6 =>
      rw [means_unique h2 (eval_means hu)] at h4 h5
      obtain ⟨o', ho', hb⟩ := given_minOrder h5
      have e : o = o' := given_unique (given_of_mono (fun n => minOrder_mono env n w u) ho) ho'
      subst e
      have hg : ¬(o = .gt) := by rintro rfl; cases hb
      rw [if_neg hg] at hv
      rw [evalArgsN, minRestN, evalNodeN_warns e h1 hu, noted_ok_bind, minOrderN_warns h3 h4 ho, noted_ok_bind, if_neg hg,
        minRestN_warns es h6 hv]
      simp
    | @take _ u' _ _ ns vs us ms h1 h2 h3 h4 h5 h6 =>
      rw [means_unique h2 (eval_means hu)] at h4 h5 h6
      obtain ⟨o', ho', hb⟩ := given_minOrder h5
      have e : o = o' := given_unique (given_of_mono (fun n => minOrder_mono env n w u) ho) ho'
      subst e
      have hg : o = .gt := by cases o <;> first | rfl | cases hb
      rw [if_pos hg] at hv
      rw [evalArgsN, minRestN, evalNodeN_warns e h1 hu, noted_ok_bind, minOrderN_warns h3 h4 ho, noted_ok_bind, if_pos hg,
        minRestN_warns es h6 hv]
      simp

end

mutual

theorem warns_total : ∀ (e : Node Rt.F) {v : Str}, Means env e v → ∃ ns, Warns env e ns
  | .number x, _, _ => ⟨_, .number⟩
  | .stringLiteral s, _, _ => ⟨_, .text⟩
  | .variable x, _, h => by
    cases h with
    | «variable» h => obtain ⟨ns, h⟩ := lookupWarns_total h; exact ⟨ns, .variable h⟩
  | .field x, _, h => by
    cases h with
    | field h => obtain ⟨ns, h⟩ := lookupWarns_total h; exact ⟨ns, .field h⟩
  | .concatenation l r, _, h => by
    cases h with
    | concatenation h1 h2 =>
      obtain ⟨ns, w1⟩ := warns_total l h1
      obtain ⟨ms, w2⟩ := warns_total r h2
      exact ⟨_, .concatenation w1 w2⟩
  | .comparison l op r, _, h => by
    have : ∃ a b, Means env l a ∧ Means env r b := by
      cases h with
      | holds _ h1 h2 _ => exact ⟨_, _, h1, h2⟩
      | holdsNot _ h1 h2 _ => exact ⟨_, _, h1, h2⟩
    obtain ⟨a, b, h1, h2⟩ := this
    obtain ⟨ns, w1⟩ := warns_total l h1
    obtain ⟨ms, w2⟩ := warns_total r h2
    exact ⟨_, .comparison w1 w2⟩
  | .binary l op r, _, h => by
    have : ∃ a b a' b' n m, Means env l a ∧ Means env r b ∧ Resolves env a a' n ∧ Resolves env b b' m := by
      cases h with
      | arithmetic _ h1 h2 h3 h4 => exact ⟨_, _, _, _, _, _, h1, h2, h3, h4⟩
      | undefined _ h1 h2 h3 h4 _ => exact ⟨_, _, _, _, _, _, h1, h2, h3, h4⟩
    obtain ⟨a, b, a', b', n, m, h1, h2, h3, h4⟩ := this
    obtain ⟨ns, w1⟩ := warns_total l h1
    obtain ⟨ms, w2⟩ := warns_total r h2
    obtain ⟨ns', w3⟩ := lookupWarns_total h3
    obtain ⟨ms', w4⟩ := lookupWarns_total h4
    by_cases hb : BothNumbers env a b
    · exact ⟨_, .arithmetic w1 w2 h1 h2 w3 w4 hb⟩
    · exact ⟨_, .undefined w1 w2 h1 h2 w3 w4 hb⟩
  | .call name es, _, h => by
    cases h with
    | abs h _ => obtain ⟨ns, h⟩ := warns_total _ h; exact ⟨_, .first (by decide) h⟩
    | acos h _ => obtain ⟨ns, h⟩ := warns_total _ h; exact ⟨_, .first (by decide) h⟩
    | char h _ _ => obtain ⟨ns, h⟩ := warns_total _ h; exact ⟨_, .first (by decide) h⟩
    | asin h1 h2 =>
      obtain ⟨ns, w1⟩ := warns_total _ h1
      obtain ⟨ms, w2⟩ := warns_total _ h2
      exact ⟨_, .asin w1 w2⟩
    | min h1 h2 =>
      obtain ⟨ns, w1⟩ := warns_total _ h1
      obtain ⟨ms, w2⟩ := leastWarns_total _ h2
      exact ⟨_, .min w1 h1 w2⟩
    | get => exact ⟨_, .other (by decide)⟩
    | unimplemented h =>
      refine ⟨_, .other (fun hm => h ?_)⟩
      revert hm
      simp only [functionNames, List.mem_cons, List.not_mem_nil, or_false]
      rintro (h | h | h | h | h) <;> simp [h]

theorem leastWarns_total : ∀ (es : List (Node Rt.F)) {v w : Str}, Least env v es w → ∃ ns, LeastWarns env v es ns
  | [], _, _, _ => ⟨_, .done⟩
  | e :: es, v, _, h => by
    have look : ∀ {u b}, Larger env v u b → (∃ vs, LookupWarns env v vs) ∧ ∃ us, LookupWarns env u us := by
      intro u b h
      cases h with
      | numbers h1 h2 _ => exact ⟨lookupWarns_total h1, lookupWarns_total h2⟩
      | texts h1 h2 _ => exact ⟨lookupWarns_total h1, lookupWarns_total h2⟩
    cases h with
    | keep h1 h2 h3 =>
      obtain ⟨⟨vs, hv⟩, us, hu⟩ := look h2
      obtain ⟨ns, w1⟩ := warns_total e h1
      obtain ⟨ms, w2⟩ := leastWarns_total es h3
      exact ⟨_, .keep w1 h1 hv hu h2 w2⟩
    | take h1 h2 h3 =>
      obtain ⟨⟨vs, hv⟩, us, hu⟩ := look h2
      obtain ⟨ns, w1⟩ := warns_total e h1
      obtain ⟨ms, w2⟩ := leastWarns_total es h3
      exact ⟨_, .take w1 h1 hv hu h2 w2⟩

end

end

end BurnFm
