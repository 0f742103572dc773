import Verif.Spec.Means
import Verif.Props.Resolves
import Verif.Props.Compare
import Verif.Proofs.Fuel
import Mathlib.Data.Fintype.Pigeonhole

/-! Evaluation of calculations: every expression has a value, crashes or goes on for ever. -/

namespace BurnFm
open Spec

/-- With enough fuel the result is `a`; with less there is none. -/
def Given {α : Type} (x : Nat → Ev α) (a : α) : Prop :=
  (∃ n, ∀ m, n ≤ m → x m = .ok a) ∧ ∀ m, x m = .ok a ∨ x m = .error .fuel

/-- There is no result, in the way `k`. -/
def Ended {α : Type} (x : Nat → Ev α) : Ending → Prop
  | .crash => ∃ n e, ∀ m, n ≤ m → x m = .error (.panic e)
  | .endless => ∀ m, x m = .error .fuel

section
variable {α β : Type} {x : Nat → Ev α} {f : Nat → α → Ev β} {a : α} {b : β} {k : Ending}

theorem given_const (a : α) : Given (fun _ => .ok a) a := ⟨⟨0, fun _ _ => rfl⟩, fun _ => .inl rfl⟩

theorem crash_const (e : Panic) : Ended (fun _ => (.error (.panic e) : Ev α)) .crash := ⟨0, e, fun _ _ => rfl⟩

theorem given_bind (h : Given x a) (h' : Given (fun n => f n a) b) : Given (fun n => x n >>= f n) b := by
  obtain ⟨⟨n, hn⟩, hx⟩ := h
  obtain ⟨⟨m, hm⟩, hf⟩ := h'
  refine ⟨⟨max n m, fun i hi => ?_⟩, fun i => ?_⟩
  · show x i >>= f i = _
    rw [hn i (by omega), ev_ok_bind]; exact hm i (by omega)
  · show x i >>= f i = _ ∨ x i >>= f i = _
    rcases hx i with h | h
    · rw [h, ev_ok_bind]; exact hf i
    · rw [h]; exact .inr rfl

theorem ended_left (h : Ended x k) : Ended (fun n => x n >>= f n) k := by
  cases k with
  | crash =>
    obtain ⟨n, e, hn⟩ := h
    exact ⟨n, e, fun m hm => by show x m >>= f m = _; rw [hn m hm]; rfl⟩
  | endless => intro m; show x m >>= f m = _; rw [h m]; rfl

theorem ended_right (h : Given x a) (h' : Ended (fun n => f n a) k) : Ended (fun n => x n >>= f n) k := by
  obtain ⟨⟨n, hn⟩, hx⟩ := h
  cases k with
  | crash =>
    obtain ⟨m, e, hm⟩ := h'
    refine ⟨max n m, e, fun i hi => ?_⟩
    show x i >>= f i = _
    rw [hn i (by omega), ev_ok_bind]; exact hm i (by omega)
  | endless =>
    intro m
    show x m >>= f m = _
    rcases hx m with h | h
    · rw [h, ev_ok_bind]; exact h' m
    · rw [h]; rfl

theorem given_unique {a' : α} (h : Given x a) (h' : Given x a') : a = a' := by
  obtain ⟨⟨n, hn⟩, _⟩ := h
  obtain ⟨⟨m, hm⟩, _⟩ := h'
  have e1 := hn (max n m) (by omega)
  have e2 := hm (max n m) (by omega)
  rw [e1] at e2
  cases e2; rfl

theorem given_not_ended (h : Given x a) (h' : Ended x k) : False := by
  obtain ⟨⟨n, hn⟩, _⟩ := h
  cases k with
  | crash =>
    obtain ⟨m, e, hm⟩ := h'
    have e1 := hn (max n m) (by omega)
    rw [hm (max n m) (by omega)] at e1
    cases e1
  | endless => have := hn n (by omega); rw [h' n] at this; cases this

theorem crash_not_endless (h : Ended x .crash) (h' : Ended x .endless) : False := by
  obtain ⟨m, e, hm⟩ := h
  have := hm m (by omega); rw [h' m] at this; cases this

theorem given_of_mono (hx : ∀ n, LeF (x n) (x (n + 1))) {n : Nat} (h : x n = .ok a) : Given x a := by
  have up : ∀ m, n ≤ m → x m = .ok a := fun m hm =>
    ((mono_le hx hm).eq (by rw [h]; nofun)).symm.trans h
  refine ⟨⟨n, up⟩, fun m => ?_⟩
  rcases Nat.le_total n m with hm | hm
  · exact .inl (up m hm)
  · rcases mono_le hx hm with h' | h'
    · exact .inr h'
    · exact .inl (h'.trans h)

theorem crash_of_mono (hx : ∀ n, LeF (x n) (x (n + 1))) {n : Nat} {e : Panic} (h : x n = .error (.panic e)) :
    Ended x .crash :=
  ⟨n, e, fun _ hm => ((mono_le hx hm).eq (by rw [h]; nofun)).symm.trans h⟩

end

/-! ### Names -/

variable {env : CalcEnv}

theorem given_operand {s v : Str} {b : Bool} (h : Resolves env s v b) : Given (fun n => operandVal env n s) ⟨v, b⟩ := by
  obtain ⟨n, hn⟩ := (Props.operand_exact env s v b).mpr h
  exact given_of_mono (fun n => operandVal_mono env n s) hn

theorem operandVal_name {s : Str} (h1 : isFloatText s = false) (h2 : isQuoted s = false) (n : Nat) :
    operandVal env (n + 1) s = (match splitCC s with
      | [_, field] => do
        let v ← liftR (env.db.foundSetRecordField field)
        operandVal env n v
      | _ =>
        match env.depth with
        | 0 => .error (.panic .overflow)
        | scope + 1 => do
          let vars ← liftR (idx env.vars scope)
          match SMap.get vars s with
          | none => pure ⟨[], false⟩
          | some v => operandVal env n v) := by
  rw [operandVal, if_neg (by rw [h1]; decide), if_neg (by rw [h2]; decide)]
  rfl

theorem operandVal_stored {s t : Str} (h : StoredUnder env s t) (n : Nat) : operandVal env (n + 1) s = operandVal env n t := by
  cases h with
  | field h1 h2 h3 h4 =>
    rw [operandVal_name h1 h2, h3]
    simp only [(Props.currentValue_iff _ _ _).mpr h4, liftR, ev_ok_bind]
  | var h1 h2 h3 h4 =>
    rw [operandVal_name h1 h2]
    split
    · rename_i e; exact absurd e (h3 _ _)
    · unfold varValue at h4
      split at h4
      · cases h4
      · rename_i d hd
        rw [hd]
        simp only
        cases hm : env.vars[d]? with
        | none => rw [hm] at h4; cases h4
        | some m =>
          rw [hm] at h4
          simp only [Option.bind_some] at h4
          simp only [idx_of hm, liftR, ev_ok_bind, h4]

theorem operandVal_dead {s : Str} (h : DeadEnd env s) (n : Nat) : ∃ e, operandVal env (n + 1) s = .error (.panic e) := by
  cases h with
  | @field occ f h1 h2 h3 h4 =>
    rw [operandVal_name h1 h2, h3]
    simp only
    cases hv : env.db.foundSetRecordField f with
    | error e => exact ⟨e, rfl⟩
    | ok v => exact absurd ((Props.currentValue_iff _ _ _).mp hv) (h4 v)
  | var h1 h2 h3 h4 =>
    rw [operandVal_name h1 h2]
    split
    · rename_i e; exact absurd e (h3 _ _)
    · split
      · exact ⟨_, rfl⟩
      · rename_i d hd
        cases hm : env.vars[d]? with
        | none => simp only [idx, hm]; exact ⟨_, rfl⟩
        | some m => exact absurd ⟨d, m, hd, hm⟩ h4

theorem crash_operand {s : Str} (h : Lost env .crash s) : Ended (fun n => operandVal env n s) .crash := by
  obtain ⟨t, h1, h2⟩ := h
  induction h1 with
  | here =>
    obtain ⟨e, he⟩ := operandVal_dead h2 0
    exact crash_of_mono (fun n => operandVal_mono env n _) he
  | next hs _ ih =>
    obtain ⟨n, e, hn⟩ := ih h2
    exact crash_of_mono (fun n => operandVal_mono env n _) ((operandVal_stored hs n).trans (hn n (by omega)))

theorem leadsTo_trans {s t u : Str} (h : LeadsTo env s t) (h' : LeadsTo env t u) : LeadsTo env s u := by
  induction h with
  | here => exact h'
  | next hs _ ih => exact .next hs (ih h')

theorem lost_next {s : Str} (h : Lost env .endless s) : ∃ t, StoredUnder env s t ∧ Lost env .endless t := by
  obtain ⟨t, u, h1, h2, h3⟩ := h
  cases h1 with
  | here => exact ⟨u, h2, s, u, h3, h2, h3⟩
  | next hs ht => exact ⟨_, hs, t, u, ht, h2, h3⟩

theorem endless_operand {s : Str} (h : Lost env .endless s) : Ended (fun n => operandVal env n s) .endless := by
  intro n
  induction n generalizing s with
  | zero => rfl
  | succ n ih =>
    obtain ⟨t, h1, h2⟩ := lost_next h
    exact (operandVal_stored h1 n).trans (ih h2)

theorem ended_operand {k : Ending} {s : Str} (h : Lost env k s) : Ended (fun n => operandVal env n s) k := by
  cases k with
  | crash => exact crash_operand h
  | endless => exact endless_operand h

/-- All the texts that are stored somewhere. -/
def storedTexts (env : CalcEnv) : List Str :=
  [] :: (env.db.tables.flatMap (fun t => t.fields.flatMap (·.records)) ++ env.vars.flatMap (·.map (·.2)))

theorem stored_mem {s t : Str} (h : StoredUnder env s t) : t ∈ storedTexts env := by
  unfold storedTexts
  cases h with
  | field _ _ _ h =>
    obtain ⟨o, tb, r, _, h2, _, h4⟩ := h
    rcases h4 with ⟨_, rfl⟩ | ⟨fld, h4, h5⟩
    · exact List.mem_cons_self
    · refine List.mem_cons_of_mem _ (List.mem_append_left _ ?_)
      exact List.mem_flatMap.mpr ⟨tb, List.mem_of_getElem? h2,
        List.mem_flatMap.mpr ⟨fld, List.mem_of_find?_eq_some h4, List.mem_of_getElem? h5⟩⟩
  | var _ _ _ h =>
    refine List.mem_cons_of_mem _ (List.mem_append_right _ ?_)
    unfold varValue at h
    split at h
    · cases h
    · rename_i d _
      cases hm : env.vars[d]? with
      | none => rw [hm] at h; cases h
      | some m =>
        rw [hm] at h
        simp only [Option.bind_some] at h
        refine List.mem_flatMap.mpr ⟨m, List.mem_of_getElem? hm, ?_⟩
        unfold SMap.get at h
        obtain ⟨p, hp, rfl⟩ := Option.map_eq_some_iff.mp h
        exact List.mem_map.mpr ⟨p, List.mem_of_find?_eq_some hp, rfl⟩

theorem name_total (env : CalcEnv) (s : Str) :
    (∃ v b, Resolves env s v b) ∨ DeadEnd env s ∨ ∃ t, StoredUnder env s t := by
  cases h1 : isFloatText s with
  | true => exact .inl ⟨s, true, Resolves.number h1⟩
  | false =>
    cases h2 : isQuoted s with
    | true => exact .inl ⟨s, false, Resolves.quoted h1 h2⟩
    | false =>
      by_cases h3 : ∃ occ f, splitCC s = [occ, f]
      · obtain ⟨occ, f, h3⟩ := h3
        by_cases h4 : ∃ t, CurrentValue env.db f t
        · obtain ⟨t, h4⟩ := h4
          exact .inr (.inr ⟨t, .field h1 h2 h3 h4⟩)
        · exact .inr (.inl (.field h1 h2 h3 (fun t h => h4 ⟨t, h⟩)))
      · have h3 : ∀ occ f, splitCC s ≠ [occ, f] := fun occ f h => h3 ⟨occ, f, h⟩
        by_cases h4 : Active env
        · cases h5 : varValue env s with
          | none => exact .inl ⟨[], false, Resolves.unset h1 h2 h3 h4 h5⟩
          | some t => exact .inr (.inr ⟨t, .var h1 h2 h3 h5⟩)
        · exact .inr (.inl (.var h1 h2 h3 h4))

theorem resolves_stored {s t v : Str} {b : Bool} (h : StoredUnder env s t) (h' : Resolves env t v b) : Resolves env s v b := by
  cases h with
  | field h1 h2 h3 h4 => exact .field h1 h2 h3 h4 h'
  | var h1 h2 h3 h4 => exact .var h1 h2 h3 h4 h'

theorem operand_total (env : CalcEnv) (s : Str) : (∃ v b, Resolves env s v b) ∨ ∃ k, Lost env k s := by
  by_cases hr : ∃ v b, Resolves env s v b
  · exact .inl hr
  by_cases hd : Lost env .crash s
  · exact .inr ⟨.crash, hd⟩
  refine .inr ⟨.endless, ?_⟩
  let Bad : Str → Prop := fun s => (¬∃ v b, Resolves env s v b) ∧ ¬Lost env .crash s
  have step : ∀ s : {s // Bad s}, ∃ t : {t // Bad t}, StoredUnder env s.1 t.1 := by
    rintro ⟨s, h1, h2⟩
    rcases name_total env s with ⟨v, b, h⟩ | h | ⟨t, h⟩
    · exact absurd ⟨v, b, h⟩ h1
    · exact absurd ⟨s, .here, h⟩ h2
    · refine ⟨⟨t, ?_, ?_⟩, h⟩
      · rintro ⟨v, b, h'⟩; exact h1 ⟨v, b, resolves_stored h h'⟩
      · rintro ⟨u, h', h''⟩; exact h2 ⟨u, .next h h', h''⟩
  choose next hnext using step
  obtain ⟨f, hf0, hf⟩ : ∃ f : Nat → Str, f 0 = s ∧ ∀ n, StoredUnder env (f n) (f (n + 1)) :=
    ⟨fun n => (Nat.rec ⟨s, hr, hd⟩ (fun _ p => next p) n : {s // Bad s}).1, rfl, fun n => hnext _⟩
  have reach : ∀ n i, LeadsTo env (f n) (f (n + i)) := by
    intro n i
    induction i with
    | zero => exact .here
    | succ i ih => exact leadsTo_trans ih (.next (hf (n + i)) .here)
  let g : Nat → {t // t ∈ storedTexts env} := fun n => ⟨f (n + 1), stored_mem (hf n)⟩
  obtain ⟨i, j, hij, he⟩ := Finite.exists_ne_map_eq_of_infinite g
  have key : ∀ i j, i < j → g i = g j → Lost env .endless s := by
    intro i j hij he
    have he : f (i + 1) = f (j + 1) := congrArg Subtype.val he
    refine ⟨f (i + 1), f (i + 1 + 1), ?_, hf _, ?_⟩
    · have := reach 0 (i + 1); rwa [Nat.zero_add, hf0] at this
    · have := reach (i + 1 + 1) (j - i - 1)
      rw [show i + 1 + 1 + (j - i - 1) = j + 1 by omega] at this
      rw [he]
      exact this
  rcases Nat.lt_or_gt_of_ne hij with h | h
  · exact key i j h he
  · exact key j i h he.symm

/-! ### Expressions -/

section
variable [Rt]

omit [Rt] in
theorem arith_op {op : TokenType} : op ∈ [TokenType.plus, .minus, .multiply, .divide] ↔
    (isAdditive op || isMultiplicative op) = true := by cases op <;> decide

omit [Rt] in
theorem comparison_op {op : TokenType} : op ∈ [TokenType.eq, .neq, .lt, .ltq, .gt, .gtq] ↔ isComparison op = true := by
  cases op <;> decide

omit [Rt] in
theorem resolves_number {s v : Str} {b : Bool} (h : Resolves env s v b) : b = true → isFloatText v = true := by
  induction h with
  | number h => exact fun _ => h
  | quoted => nofun
  | field _ _ _ _ _ ih => exact ih
  | var _ _ _ _ _ ih => exact ih
  | unset => nofun

theorem resolves_parse {s v : Str} (h : Resolves env s v true) : parseF64 v = some (Rt.ofText v) := by
  rw [parseF64, if_pos (resolves_number h rfl)]

theorem arith_numbers {op : TokenType} (hop : op ∈ [TokenType.plus, .minus, .multiply, .divide]) {s t a b : Str}
    (ha : Resolves env s a true) (hb : Resolves env t b true) :
    arith op ⟨a, true⟩ ⟨b, true⟩ = .ok (Rt.toText (applyOp op (Rt.ofText a) (Rt.ofText b))) := by
  unfold arith
  rw [if_neg (by revert hop; cases op <;> decide), if_neg (by simp)]
  simp only [resolves_parse ha, resolves_parse hb, unwrap, liftR, ev_ok_bind]
  revert hop
  cases op <;> first | (intro _; rfl) | (intro h; exact absurd h (by decide))

theorem arith_undefined {op : TokenType} (hop : op ∈ [TokenType.plus, .minus, .multiply, .divide]) {a b : Str} {n m : Bool}
    (h : (n && m) = false) : arith op ⟨a, n⟩ ⟨b, m⟩ = .ok t!"undefined" := by
  unfold arith
  rw [if_neg (by revert hop; cases op <;> decide), if_pos (by revert h; cases n <;> cases m <;> simp)]
  rfl

theorem arith_other {op : TokenType} (hop : op ∉ [TokenType.plus, .minus, .multiply, .divide]) (x y : Operand) :
    arith op x y = .error (.panic .explicit) := by
  unfold arith
  rw [if_pos (by revert hop; cases op <;> decide)]

omit [Rt] in
theorem strLe_bytes (a b : Str) : (strLe a b = true) ↔ textBytes a ≤ textBytes b := strLe_utf8 a b

theorem compare_holds {op : TokenType} (hop : op ∈ [TokenType.eq, .neq, .lt, .ltq, .gt, .gtq]) {a b : Str}
    (h : TextRel op a b) : compareTexts op a b = .ok t!"true" := by
  have hab := strLe_bytes a b
  have hba := strLe_bytes b a
  revert hop h
  cases op <;> intro hop h <;> first | exact absurd hop (by decide) | skip
  all_goals simp only [TextRel] at h
  all_goals simp only [compareTexts]
  · simp [h, boolText]; rfl
  · simp [h, boolText]; rfl
  · rw [hba.mpr h]; rfl
  · rw [hab.mpr h]; rfl
  · rw [Bool.eq_false_iff.mpr (fun e => List.not_le.mpr h (hab.mp e))]; rfl
  · rw [Bool.eq_false_iff.mpr (fun e => List.not_le.mpr h (hba.mp e))]; rfl

theorem compare_holdsNot {op : TokenType} (hop : op ∈ [TokenType.eq, .neq, .lt, .ltq, .gt, .gtq]) {a b : Str}
    (h : ¬TextRel op a b) : compareTexts op a b = .ok t!"false" := by
  have hab := strLe_bytes a b
  have hba := strLe_bytes b a
  revert hop h
  cases op <;> intro hop h <;> first | exact absurd hop (by decide) | skip
  all_goals simp only [TextRel] at h
  all_goals simp only [compareTexts]
  · simp [h, boolText]; rfl
  · simp only [not_not] at h; simp [h, boolText]; rfl
  · rw [Bool.eq_false_iff.mpr (fun e => h (hba.mp e))]; rfl
  · rw [Bool.eq_false_iff.mpr (fun e => h (hab.mp e))]; rfl
  · rw [hab.mpr (List.not_lt.mp h)]; rfl
  · rw [hba.mpr (List.not_lt.mp h)]; rfl

theorem given_minOrder {x y : Str} {b : Bool} (h : Larger env x y b) :
    ∃ o, Given (fun n => minOrder env n x y) o ∧ b = (o == .gt) := by
  cases h with
  | @numbers a c o h1 h2 h3 =>
    refine ⟨o, ?_, rfl⟩
    unfold minOrder
    refine given_bind (given_operand h1) (given_bind (given_operand h2) ?_)
    simp only [resolves_parse h1, resolves_parse h2, unwrap, liftR, ev_ok_bind, h3, Bool.and_self, if_true]
    exact given_const _
  | @texts a c n m h1 h2 h3 =>
    refine ⟨if strLe a c then (if strLe c a then .eq else .lt) else .gt, ?_, ?_⟩
    · unfold minOrder
      refine given_bind (given_operand h1) (given_bind (given_operand h2) ?_)
      simp only [h3]; exact given_const _
    · have hac := strLe_bytes a c
      have e : decide (textBytes c < textBytes a) = !strLe a c := by
        rw [Bool.eq_iff_iff, decide_eq_true_iff, ← List.not_le, ← hac]
        cases strLe a c <;> simp
      rw [e]
      cases strLe a c <;> cases strLe c a <;> rfl

theorem ended_minOrder {x y : Str} {k : Ending} (h : Unordered env x y k) : Ended (fun n => minOrder env n x y) k := by
  unfold minOrder
  cases h with
  | left h => exact ended_left (ended_operand h)
  | right h1 h2 => exact ended_right (given_operand h1) (ended_left (ended_operand h2))
  | nan h1 h2 h3 =>
    refine ended_right (given_operand h1) (ended_right (given_operand h2) ?_)
    simp only [resolves_parse h1, resolves_parse h2, unwrap, liftR, ev_ok_bind, h3, Bool.and_self, if_true]
    exact crash_const _

theorem order_total (x y : Str) : (∃ b, Larger env x y b) ∨ ∃ k, Unordered env x y k := by
  rcases operand_total env x with ⟨a, n, h1⟩ | ⟨k, h⟩
  · rcases operand_total env y with ⟨b, m, h2⟩ | ⟨k, h⟩
    · cases hnm : (n && m) with
      | false => exact .inl ⟨_, .texts h1 h2 hnm⟩
      | true =>
        obtain ⟨rfl, rfl⟩ := Bool.and_eq_true_iff.mp hnm
        cases hc : Rt.cmp (Rt.ofText a) (Rt.ofText b) with
        | none => exact .inr ⟨_, .nan h1 h2 hc⟩
        | some o => exact .inl ⟨_, .numbers h1 h2 hc⟩
    · exact .inr ⟨k, .right h1 h⟩
  · exact .inr ⟨k, .left h⟩

/-- The loop of `Min`. -/
def minLoop (env : CalcEnv) (n : Nat) (es : List (Node Rt.F)) (v : Str) : Ev Str :=
  (evalArgs env n es).foldlM (fun best b => do
    let w ← b
    let o ← minOrder env n best w
    pure (if o = .gt then w else best)) v

theorem minLoop_cons (n : Nat) (e : Node Rt.F) (es : List (Node Rt.F)) (v : Str) :
    minLoop env n (e :: es) v = evalNode env n e >>= fun w => minOrder env n v w >>= fun o =>
      minLoop env n es (if o = .gt then w else v) := by
  unfold minLoop
  rw [evalArgs, List.foldlM_cons]
  cases evalNode env n e with
  | error e => rfl
  | ok w =>
    simp only [ev_ok_bind]
    cases minOrder env n v w <;> rfl

theorem means_call_abs (n : Nat) (e : Node Rt.F) (es : List (Node Rt.F)) : evalNode env n (.call t!"Abs" (e :: es)) =
    evalNode env n e >>= fun v => if isFloatText v then pure (Rt.absText v) else .error (.panic .unwrap) := by
  rw [evalNode, evalArgs]; rfl

theorem means_call_acos (n : Nat) (e : Node Rt.F) (es : List (Node Rt.F)) : evalNode env n (.call t!"Acos" (e :: es)) =
    evalNode env n e >>= fun v => if isFloatText v then pure (Rt.acosText v) else .error (.panic .unwrap) := by
  rw [evalNode, evalArgs]; rfl

theorem means_call_asin (n : Nat) (e : Node Rt.F) (es : List (Node Rt.F)) : evalNode env n (.call t!"Asin" (e :: es)) =
    evalNode env n e >>= fun v => match es with
      | [] => .error (.panic .index)
      | e' :: _ => evalNode env n e' >>= fun w => pure (if strLe v w then v else w) := by
  rw [evalNode, evalArgs]
  cases es with
  | nil => rw [evalArgs]; rfl
  | cons e' es => rw [evalArgs]; rfl

theorem means_call_char (n : Nat) (e : Node Rt.F) (es : List (Node Rt.F)) : evalNode env n (.call t!"Char" (e :: es)) =
    evalNode env n e >>= fun v => liftR (unwrap (parseUnsigned (2 ^ 32) v)) >>= fun c =>
      if c.isValidChar then pure ['"', Char.ofNat c, '"'] else .error (.panic .unwrap) := by
  rw [evalNode, evalArgs]; rfl

theorem means_call_min (n : Nat) (e : Node Rt.F) (es : List (Node Rt.F)) : evalNode env n (.call t!"Min" (e :: es)) =
    evalNode env n e >>= fun v => minLoop env n es v := by
  rw [evalNode, evalArgs]; rfl

theorem means_call_get (n : Nat) (e : Node Rt.F) (es : List (Node Rt.F)) : evalNode env n (.call t!"Get" (e :: es)) =
    .ok t!"Unknown argument for Get()" := by
  rw [evalNode, evalArgs]; rfl

theorem means_call_none {name : Str} (h : name ∈ functionNames) : ∃ e, ∀ n, evalNode env n (.call name []) =
    .error (.panic e) := by
  simp only [functionNames, List.mem_cons, List.not_mem_nil, or_false] at h
  rcases h with rfl | rfl | rfl | rfl | rfl | rfl <;>
    exact ⟨_, fun n => by rw [evalNode, evalArgs]; rfl⟩

theorem means_call_other (n : Nat) {name : Str} (h : name ∉ functionNames) (es : List (Node Rt.F)) :
    evalNode env n (.call name es) = .ok (t!"Unimplemented function: " ++ name) := by
  simp only [functionNames, List.mem_cons, List.not_mem_nil, or_false, not_or] at h
  obtain ⟨h1, h2, h3, h4, h5, h6⟩ := h
  rw [evalNode]
  unfold callFunction
  rw [if_neg h1, if_neg h2, if_neg h3, if_neg h4, if_neg h5, if_neg h6]
  rfl

mutual

theorem given_means : ∀ (e : Node Rt.F) {v : Str}, Means env e v → Given (fun n => evalNode env n e) v
  | .number x, _, h => by cases h; simp only [evalNode]; exact given_const _
  | .stringLiteral s, _, h => by cases h; simp only [evalNode]; exact given_const _
  | .variable x, _, h => by
    cases h with
    | «variable» h => simp only [evalNode]; exact given_bind (given_operand h) (given_const _)
  | .field x, _, h => by
    cases h with
    | field h => simp only [evalNode]; exact given_bind (given_operand h) (given_const _)
  | .concatenation l r, _, h => by
    cases h with
    | concatenation h1 h2 =>
      simp only [evalNode]
      exact given_bind (given_means l h1) (given_bind (given_means r h2) (given_const _))
  | .comparison l op r, _, h => by
    cases h with
    | holds hop h1 h2 h3 =>
      simp only [evalNode, comparison_op.mp hop, if_true]
      refine given_bind (given_means l h1) (given_bind (given_means r h2) ?_)
      simp only [compare_holds hop h3]
      exact given_const _
    | holdsNot hop h1 h2 h3 =>
      simp only [evalNode, comparison_op.mp hop, if_true]
      refine given_bind (given_means l h1) (given_bind (given_means r h2) ?_)
      simp only [compare_holdsNot hop h3]
      exact given_const _
  | .binary l op r, _, h => by
    cases h with
    | arithmetic hop h1 h2 h3 h4 =>
      simp only [evalNode]
      refine given_bind (given_means l h1) (given_bind (given_means r h2) (given_bind (given_operand h3)
        (given_bind (given_operand h4) ?_)))
      simp only [arith_numbers hop h3 h4]
      exact given_const _
    | undefined hop h1 h2 h3 h4 h5 =>
      simp only [evalNode]
      refine given_bind (given_means l h1) (given_bind (given_means r h2) (given_bind (given_operand h3)
        (given_bind (given_operand h4) ?_)))
      simp only [arith_undefined hop h5]
      exact given_const _
  | .call name [], _, h => by
    cases h with
    | unimplemented h => simp only [means_call_other _ h]; exact given_const _
  | .call name (e :: es), _, h => by
    cases h with
    | abs h1 h2 =>
      simp only [means_call_abs]
      refine given_bind (given_means e h1) ?_
      simp only [h2, if_true]
      exact given_const _
    | acos h1 h2 =>
      simp only [means_call_acos]
      refine given_bind (given_means e h1) ?_
      simp only [h2, if_true]
      exact given_const _
    | @asin _ e' es v w h1 h2 =>
      simp only [means_call_asin]
      refine given_bind (given_means e h1) (given_bind (given_means e' h2) ?_)
      have e : (if textBytes v ≤ textBytes w then v else w) = if strLe v w then v else w := by
        by_cases hl : textBytes v ≤ textBytes w
        · rw [if_pos hl, if_pos ((strLe_bytes v w).mpr hl)]
        · rw [if_neg hl, if_neg (fun h => hl ((strLe_bytes v w).mp h))]
      rw [e]
      exact given_const _
    | char h1 h2 h3 =>
      simp only [means_call_char]
      refine given_bind (given_means e h1) ?_
      simp only [h2, unwrap, liftR, ev_ok_bind]
      rw [if_pos h3]
      exact given_const _
    | min h1 h2 =>
      simp only [means_call_min]
      exact given_bind (given_means e h1) (given_least es h2)
    | get => simp only [means_call_get]; exact given_const _
    | unimplemented h => simp only [means_call_other _ h]; exact given_const _

theorem given_least : ∀ (es : List (Node Rt.F)) {v w : Str}, Least env v es w → Given (fun n => minLoop env n es v) w
  | [], _, _, h => by cases h; simp only [minLoop, evalArgs, List.foldlM_nil]; exact given_const _
  | e :: es, _, _, h => by
    simp only [minLoop_cons]
    cases h with
    | keep h1 h2 h3 =>
      obtain ⟨o, ho, hb⟩ := given_minOrder h2
      refine given_bind (given_means e h1) (given_bind ho ?_)
      rw [if_neg (by rintro rfl; cases hb)]
      exact given_least es h3
    | take h1 h2 h3 =>
      obtain ⟨o, ho, hb⟩ := given_minOrder h2
      refine given_bind (given_means e h1) (given_bind ho ?_)
      rw [if_pos (by cases o <;> first | rfl | cases hb)]
      exact given_least es h3

end

mutual

theorem ended_fails {k : Ending} : ∀ (e : Node Rt.F), Fails env k e → Ended (fun n => evalNode env n e) k
  | .number x, h => by cases h
  | .stringLiteral s, h => by cases h
  | .variable x, h => by
    cases h with
    | «variable» h => simp only [evalNode]; exact ended_left (ended_operand h)
  | .field x, h => by
    cases h with
    | field h => simp only [evalNode]; exact ended_left (ended_operand h)
  | .concatenation l r, h => by
    simp only [evalNode]
    cases h with
    | concatenationLeft h => exact ended_left (ended_fails l h)
    | concatenationRight h1 h2 => exact ended_right (given_means l h1) (ended_left (ended_fails r h2))
  | .comparison l op r, h => by
    cases h with
    | noComparison hop =>
      have : isComparison op = false := Bool.eq_false_iff.mpr (fun h => hop (comparison_op.mpr h))
      simp only [evalNode, this]
      exact crash_const _
    | comparisonLeft hop h =>
      simp only [evalNode, comparison_op.mp hop, if_true]
      exact ended_left (ended_fails l h)
    | comparisonRight hop h1 h2 =>
      simp only [evalNode, comparison_op.mp hop, if_true]
      exact ended_right (given_means l h1) (ended_left (ended_fails r h2))
  | .binary l op r, h => by
    simp only [evalNode]
    cases h with
    | arithmeticLeft h => exact ended_left (ended_fails l h)
    | arithmeticRight h1 h2 => exact ended_right (given_means l h1) (ended_left (ended_fails r h2))
    | operandLeft h1 h2 h3 =>
      exact ended_right (given_means l h1) (ended_right (given_means r h2) (ended_left (ended_operand h3)))
    | operandRight h1 h2 h3 h4 =>
      exact ended_right (given_means l h1) (ended_right (given_means r h2) (ended_right (given_operand h3)
        (ended_left (ended_operand h4))))
    | noArithmetic hop h1 h2 h3 h4 =>
      refine ended_right (given_means l h1) (ended_right (given_means r h2) (ended_right (given_operand h3)
        (ended_right (given_operand h4) ?_)))
      simp only [arith_other hop]
      exact crash_const _
  | .call name [], h => by
    cases h with
    | noArguments h =>
      obtain ⟨e, he⟩ := means_call_none (env := env) h
      simp only [he]
      exact crash_const _
  | .call name (e :: es), h => by
    cases h with
    | firstArgument h1 h2 h3 =>
      simp only [functionNames, List.mem_cons, List.not_mem_nil, or_false] at h1
      rcases h1 with rfl | rfl | rfl | rfl | rfl | rfl
      · simp only [means_call_abs]; exact ended_left (ended_fails e h3)
      · simp only [means_call_acos]; exact ended_left (ended_fails e h3)
      · simp only [means_call_asin]; exact ended_left (ended_fails e h3)
      · simp only [means_call_char]; exact ended_left (ended_fails e h3)
      · simp only [means_call_min]; exact ended_left (ended_fails e h3)
      · exact absurd rfl h2
    | noNumber h1 h2 h3 =>
      simp only [List.mem_cons, List.not_mem_nil, or_false] at h1
      rcases h1 with rfl | rfl
      · simp only [means_call_abs]
        refine ended_right (given_means e h2) ?_
        simp only [h3]
        exact crash_const _
      · simp only [means_call_acos]
        refine ended_right (given_means e h2) ?_
        simp only [h3]
        exact crash_const _
    | asinOne h =>
      simp only [means_call_asin]
      exact ended_right (given_means e h) (crash_const _)
    | @asinSecond _ _ e' es v h1 h2 =>
      simp only [means_call_asin]
      exact ended_right (given_means e h1) (ended_left (ended_fails e' h2))
    | @noCharacter _ _ v h1 h2 =>
      simp only [means_call_char]
      refine ended_right (given_means e h1) ?_
      cases hp : parseUnsigned (2 ^ 32) v with
      | none => exact crash_const _
      | some n =>
        simp only [unwrap, liftR, ev_ok_bind]
        rw [if_neg (h2 n hp)]
        exact crash_const _
    | min h1 h2 =>
      simp only [means_call_min]
      exact ended_right (given_means e h1) (ended_noLeast es h2)

theorem ended_noLeast {k : Ending} : ∀ (es : List (Node Rt.F)) {v : Str}, NoLeast env k v es →
    Ended (fun n => minLoop env n es v) k
  | [], _, h => by cases h
  | e :: es, _, h => by
    simp only [minLoop_cons]
    cases h with
    | argument h => exact ended_left (ended_fails e h)
    | order h1 h2 => exact ended_right (given_means e h1) (ended_left (ended_minOrder h2))
    | keep h1 h2 h3 =>
      obtain ⟨o, ho, hb⟩ := given_minOrder h2
      refine ended_right (given_means e h1) (ended_right ho ?_)
      rw [if_neg (by rintro rfl; cases hb)]
      exact ended_noLeast es h3
    | take h1 h2 h3 =>
      obtain ⟨o, ho, hb⟩ := given_minOrder h2
      refine ended_right (given_means e h1) (ended_right ho ?_)
      rw [if_pos (by cases o <;> first | rfl | cases hb)]
      exact ended_noLeast es h3

end

mutual

theorem means_total : ∀ e : Node Rt.F, (∃ v, Means env e v) ∨ ∃ k, Fails env k e
  | .number x => .inl ⟨_, .number⟩
  | .stringLiteral s => .inl ⟨_, .text⟩
  | .variable x => by
    rcases operand_total env x with ⟨v, b, h⟩ | ⟨k, h⟩
    · exact .inl ⟨v, .variable h⟩
    · exact .inr ⟨k, .variable h⟩
  | .field x => by
    rcases operand_total env x with ⟨v, b, h⟩ | ⟨k, h⟩
    · exact .inl ⟨v, .field h⟩
    · exact .inr ⟨k, .field h⟩
  | .concatenation l r => by
    rcases means_total l with ⟨a, h1⟩ | ⟨k, h⟩
    · rcases means_total r with ⟨b, h2⟩ | ⟨k, h⟩
      · exact .inl ⟨_, .concatenation h1 h2⟩
      · exact .inr ⟨k, .concatenationRight h1 h⟩
    · exact .inr ⟨k, .concatenationLeft h⟩
  | .comparison l op r => by
    by_cases hop : op ∈ [TokenType.eq, .neq, .lt, .ltq, .gt, .gtq]
    · rcases means_total l with ⟨a, h1⟩ | ⟨k, h⟩
      · rcases means_total r with ⟨b, h2⟩ | ⟨k, h⟩
        · by_cases h : TextRel op a b
          · exact .inl ⟨_, .holds hop h1 h2 h⟩
          · exact .inl ⟨_, .holdsNot hop h1 h2 h⟩
        · exact .inr ⟨k, .comparisonRight hop h1 h⟩
      · exact .inr ⟨k, .comparisonLeft hop h⟩
    · exact .inr ⟨_, .noComparison hop⟩
  | .binary l op r => by
    rcases means_total l with ⟨a, h1⟩ | ⟨k, h⟩
    · rcases means_total r with ⟨b, h2⟩ | ⟨k, h⟩
      · rcases operand_total env a with ⟨a', n, h3⟩ | ⟨k, h⟩
        · rcases operand_total env b with ⟨b', m, h4⟩ | ⟨k, h⟩
          · by_cases hop : op ∈ [TokenType.plus, .minus, .multiply, .divide]
            · cases hnm : (n && m) with
              | false => exact .inl ⟨_, .undefined hop h1 h2 h3 h4 hnm⟩
              | true =>
                obtain ⟨rfl, rfl⟩ := Bool.and_eq_true_iff.mp hnm
                exact .inl ⟨_, .arithmetic hop h1 h2 h3 h4⟩
            · exact .inr ⟨_, .noArithmetic hop h1 h2 h3 h4⟩
          · exact .inr ⟨k, .operandRight h1 h2 h3 h⟩
        · exact .inr ⟨k, .operandLeft h1 h2 h⟩
      · exact .inr ⟨k, .arithmeticRight h1 h⟩
    · exact .inr ⟨k, .arithmeticLeft h⟩
  | .call name es => by
    by_cases hn : name ∈ functionNames
    · cases es with
      | nil => exact .inr ⟨_, .noArguments hn⟩
      | cons e es =>
        by_cases hg : name = t!"Get"
        · subst hg; exact .inl ⟨_, .get⟩
        rcases means_total e with ⟨v, h1⟩ | ⟨k, h⟩
        · simp only [functionNames, List.mem_cons, List.not_mem_nil, or_false] at hn
          rcases hn with rfl | rfl | rfl | rfl | rfl | rfl
          · cases hv : isFloatText v with
            | true => exact .inl ⟨_, .abs h1 hv⟩
            | false => exact .inr ⟨_, .noNumber (by decide) h1 hv⟩
          · cases hv : isFloatText v with
            | true => exact .inl ⟨_, .acos h1 hv⟩
            | false => exact .inr ⟨_, .noNumber (by decide) h1 hv⟩
          · cases es with
            | nil => exact .inr ⟨_, .asinOne h1⟩
            | cons e' es =>
              rcases means_total e' with ⟨w, h2⟩ | ⟨k, h⟩
              · exact .inl ⟨_, .asin h1 h2⟩
              · exact .inr ⟨k, .asinSecond h1 h⟩
          · by_cases hc : ∃ n, parseUnsigned (2 ^ 32) v = some n ∧ n.isValidChar
            · obtain ⟨n, hp, hv⟩ := hc
              exact .inl ⟨_, .char h1 hp hv⟩
            · exact .inr ⟨_, .noCharacter h1 (fun n hp hv => hc ⟨n, hp, hv⟩)⟩
          · rcases least_total es v with ⟨w, h2⟩ | ⟨k, h⟩
            · exact .inl ⟨w, .min h1 h2⟩
            · exact .inr ⟨k, .min h1 h⟩
          · exact absurd rfl hg
        · exact .inr ⟨k, .firstArgument hn hg h⟩
    · exact .inl ⟨_, .unimplemented hn⟩

theorem least_total : ∀ (es : List (Node Rt.F)) (v : Str), (∃ w, Least env v es w) ∨ ∃ k, NoLeast env k v es
  | [], v => .inl ⟨v, .done⟩
  | e :: es, v => by
    rcases means_total e with ⟨u, h1⟩ | ⟨k, h⟩
    · rcases order_total (env := env) v u with ⟨b, h2⟩ | ⟨k, h⟩
      · cases b with
        | false =>
          rcases least_total es v with ⟨w, h3⟩ | ⟨k, h⟩
          · exact .inl ⟨w, .keep h1 h2 h3⟩
          · exact .inr ⟨k, .keep h1 h2 h⟩
        | true =>
          rcases least_total es u with ⟨w, h3⟩ | ⟨k, h⟩
          · exact .inl ⟨w, .take h1 h2 h3⟩
          · exact .inr ⟨k, .take h1 h2 h⟩
      · exact .inr ⟨k, .order h1 h⟩
    · exact .inr ⟨k, .argument h⟩

end

end

end BurnFm
