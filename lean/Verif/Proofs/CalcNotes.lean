import Verif.Spec.CalcNotes
import Verif.Proofs.CalcEval
import Verif.Proofs.Ev
import Mathlib.Data.List.Forall2

/-! Lemmas about the warnings of calculations. -/

namespace BurnFm
open Spec

section erase

theorem noted_bind {α β : Type} (x : Noted α) (f : α → Noted β) : x >>= f = Noted.andThen x f := rfl

@[simp] theorem noted_bind_snd {α β : Type} (x : Noted α) (f : α → Noted β) :
    (x >>= f).result = x.result >>= fun a => (f a).result := by
  rcases x with ⟨ns, e | a⟩ <;> rfl

@[simp] theorem noted_pure {α : Type} (a : α) : (pure a : Noted α) = ⟨[], .ok a⟩ := rfl

@[simp] theorem quiet_fst {α : Type} (r : Ev α) : (quiet r).notes = [] := rfl

@[simp] theorem quiet_snd {α : Type} (r : Ev α) : (quiet r).result = r := rfl

@[simp] theorem note_snd (n : Note) : (note n).result = .ok () := rfl

theorem noted_ite_snd {α : Type} (c : Prop) [Decidable c] (x y : Noted α) :
    (if c then x else y).result = if c then x.result else y.result := by split <;> rfl

theorem noted_ok_bind {α β : Type} (ns : List Note) (a : α) (f : α → Noted β) :
    @Bind.bind Noted _ α β ⟨ns, .ok a⟩ f = ⟨ns ++ (f a).notes, (f a).result⟩ := rfl

theorem liftR_bind {α β : Type} (x : Res α) (f : α → Res β) : liftR (x >>= f) = liftR x >>= fun a => liftR (f a) := by
  cases x <;> rfl

theorem liftR_ite {α : Type} (c : Prop) [Decidable c] (x y : Res α) :
    liftR (if c then x else y) = if c then liftR x else liftR y := by split <;> rfl

theorem calcLexN_snd [Rt] : ∀ (s : Str) (m : CalcMode) (buf : Str) (acc : List Tok),
    (calcLexN m buf acc s).result = liftR (calcLex m buf acc s)
  | [], _, _, _ => rfl
  | c :: rest, m, buf, acc => by
    have ih := fun m buf acc => calcLexN_snd rest m buf acc
    unfold calcLexN calcLex
    cases m with
    | skip => exact ih _ _ _
    | str => simp only [noted_ite_snd, liftR_ite, ih]
    | fieldSkip => exact ih _ _ _
    | field =>
      cases rest with
      | nil => exact ih _ _ _
      | cons d r => simp only [noted_ite_snd, liftR_ite, ih]
    | normal =>
      simp only [noted_ite_snd, liftR_ite, ih]
      cases symbolToken c with
      | some ty => simp only [noted_bind_snd, quiet_snd, liftR_bind, ih]
      | none =>
        simp only [noted_ite_snd, liftR_ite, noted_bind_snd, quiet_snd, liftR_bind, ih, note_snd]
        rfl

theorem operandValN_snd (env : CalcEnv) : ∀ (fuel : Nat) (val : Str), (operandValN env fuel val).result = operandVal env fuel val
  | 0, _ => rfl
  | fuel + 1, val => by
    have ih := fun v => operandValN_snd env fuel v
    unfold operandValN operandVal
    simp only [noted_ite_snd]
    split
    · rfl
    · split
      · rfl
      · have hvar : (match env.depth with
            | 0 => quiet (.error (.panic .overflow))
            | scope + 1 => do
              let vars ← quiet (liftR (idx env.vars scope))
              match SMap.get vars val with
              | none => do
                note (.unknownVariable val)
                pure ⟨[], false⟩
              | some v => operandValN env fuel v : Noted Operand).result = (match env.depth with
            | 0 => .error (.panic .overflow)
            | scope + 1 => do
              let vars ← liftR (idx env.vars scope)
              match SMap.get vars val with
              | none => pure ⟨[], false⟩
              | some v => operandVal env fuel v : Ev Operand) := by
          cases env.depth with
          | zero => rfl
          | succ scope =>
            simp only [noted_bind_snd, quiet_snd]
            congr 1
            funext vars
            cases SMap.get vars val with
            | none => rfl
            | some v => exact ih v
        generalize splitCC val = p
        rcases p with _ | ⟨a, _ | ⟨b, _ | ⟨c, r⟩⟩⟩
        · exact hvar
        · exact hvar
        · simp only [noted_bind_snd, quiet_snd, ih]
        · exact hvar

theorem arithN_snd [Rt] (op : TokenType) (a b : Operand) : (arithN op a b).result = arith op a b := by
  unfold arithN
  simp only [noted_ite_snd]
  split
  · unfold arith; rw [if_pos ‹_›]; rfl
  · split
    · unfold arith; rw [if_neg ‹_›, if_pos ‹_›]; rfl
    · rfl

theorem minOrderN_snd [Rt] (env : CalcEnv) (fuel : Nat) (x y : Str) : (minOrderN env fuel x y).result = minOrder env fuel x y := by
  unfold minOrderN minOrder
  simp only [noted_bind_snd, operandValN_snd, noted_ite_snd, quiet_snd]
  rfl

theorem minRestN_snd [Rt] (env : CalcEnv) (fuel : Nat) : ∀ (rest : List (Noted Str)) (best : Str),
    (minRestN env fuel best rest).result = (rest.map Noted.result).foldlM (fun best b => do
        let w ← b
        let o ← minOrder env fuel best w
        pure (if o = .gt then w else best)) best
  | [], _ => rfl
  | b :: rest, best => by
    simp only [minRestN, noted_bind_snd, minOrderN_snd, minRestN_snd env fuel rest, List.map_cons, List.foldlM_cons, bind_assoc,
      pure_bind]

theorem idx_map_snd (args : List (Noted Str)) (i : Nat) (f : Ev Str → Ev Str) :
    (liftR (idx args i) >>= fun a => f a.result) = (liftR (idx (args.map Noted.result) i) >>= f) := by
  unfold idx
  rw [List.getElem?_map]
  cases args[i]? <;> rfl

theorem callFunctionN_snd [Rt] (env : CalcEnv) (fuel : Nat) (name : Str) (args : List (Noted Str)) :
    (callFunctionN env fuel name args).result = callFunction env fuel name (args.map Noted.result) := by
  have h := idx_map_snd args
  unfold callFunctionN callFunction
  simp only [noted_ite_snd, noted_bind_snd, quiet_snd]
  split
  · rw [← h]; rfl
  · split
    · rw [← h]; rfl
    · split
      · rw [← h 0]
        congr 1
        funext a
        congr 1
        funext v
        rw [← h 1]
        rfl
      · split
        · rw [← h]; rfl
        · split
          · cases args with
            | nil => rfl
            | cons a rest => simp only [noted_bind_snd, minRestN_snd, List.map_cons]
          · split
            · rw [← h 0 (fun _ => pure t!"Unknown argument for Get()")]; rfl
            · rfl

mutual

theorem evalNodeN_snd [Rt] (env : CalcEnv) (fuel : Nat) : ∀ e : Node Rt.F, (evalNodeN env fuel e).result = evalNode env fuel e
  | .binary l op r => by
    simp only [evalNodeN, evalNode, noted_bind_snd, evalNodeN_snd env fuel l, evalNodeN_snd env fuel r, operandValN_snd, arithN_snd]
  | .concatenation l r => by
    simp only [evalNodeN, evalNode, noted_bind_snd, evalNodeN_snd env fuel l, evalNodeN_snd env fuel r]; rfl
  | .comparison l op r => by
    simp only [evalNodeN, evalNode, noted_ite_snd, noted_bind_snd, evalNodeN_snd env fuel l, evalNodeN_snd env fuel r, quiet_snd]
  | .call name args => by simp only [evalNodeN, evalNode, callFunctionN_snd, evalArgsN_snd env fuel args]
  | .number x => by simp only [evalNodeN, evalNode]; rfl
  | .variable name => by simp only [evalNodeN, evalNode, noted_bind_snd, operandValN_snd]; rfl
  | .field name => by simp only [evalNodeN, evalNode, noted_bind_snd, operandValN_snd]; rfl
  | .stringLiteral s => by simp only [evalNodeN, evalNode]; rfl

theorem evalArgsN_snd [Rt] (env : CalcEnv) (fuel : Nat) : ∀ es : List (Node Rt.F),
    (evalArgsN env fuel es).map Noted.result = evalArgs env fuel es
  | [] => by simp only [evalArgsN, evalArgs, List.map_nil]
  | e :: es => by simp only [evalArgsN, evalArgs, List.map_cons, evalNodeN_snd env fuel e, evalArgsN_snd env fuel es]

end

theorem evalCalcN_snd [Rt] (env : CalcEnv) (fuel : Nat) (s : Str) : (evalCalcN env fuel s).result = evalCalc env fuel s := by
  unfold evalCalcN evalCalc lexCalc
  simp only [noted_bind_snd, calcLexN_snd, quiet_snd, evalNodeN_snd]

end erase

/-! ### A property of all warnings -/

/-- All warnings have the property. -/
def AllNotes (P : Note → Prop) {α : Type} (c : Noted α) : Prop := ∀ n ∈ c.notes, P n

theorem AllNotes.quiet {P : Note → Prop} {α : Type} (r : Ev α) : AllNotes P (quiet r) := nofun

theorem AllNotes.pure {P : Note → Prop} {α : Type} (a : α) : AllNotes P (pure a : Noted α) := nofun

theorem AllNotes.note {P : Note → Prop} {n : Note} (h : P n) : AllNotes P (note n) := by
  intro m hm
  have : m = n := by simpa [BurnFm.note] using hm
  exact this ▸ h

theorem AllNotes.bind {P : Note → Prop} {α β : Type} {x : Noted α} {f : α → Noted β} (hx : AllNotes P x)
    (hf : ∀ a, x.result = .ok a → AllNotes P (f a)) : AllNotes P (x >>= f) := by
  rcases x with ⟨ns, e | a⟩
  · exact hx
  · intro n hn
    rw [noted_ok_bind] at hn
    rcases List.mem_append.mp hn with h | h
    · exact hx n h
    · exact hf a rfl n h

theorem AllNotes.ite {P : Note → Prop} {α : Type} {c : Prop} [Decidable c] {x y : Noted α} (hx : c → AllNotes P x)
    (hy : ¬ c → AllNotes P y) : AllNotes P (if c then x else y) := by
  split
  · exact hx ‹_›
  · exact hy ‹_›

/-- Only variables without a value are named. -/
theorem operandValN_all (P : Note → Prop) (env : CalcEnv) (hP : ∀ x, Active env → varValue env x = none → P (.unknownVariable x)) :
    ∀ (fuel : Nat) (val : Str), AllNotes P (operandValN env fuel val)
  | 0, _ => .quiet _
  | fuel + 1, val => by
    have ih := operandValN_all P env hP fuel
    unfold operandValN
    refine .ite (fun _ => .pure _) fun _ => .ite (fun _ => .pure _) fun _ => ?_
    split
    · exact .bind (.quiet _) fun v _ => ih v
    · split
      · exact .quiet _
      · rename_i scope hscope
        refine .bind (.quiet _) fun vars hvars => ?_
        have hv : env.vars[scope]? = some vars := by
          rw [quiet_snd] at hvars
          unfold idx at hvars
          cases h : env.vars[scope]? with
          | none => rw [h] at hvars; exact nomatch hvars
          | some m => rw [h] at hvars; injection hvars with hm; rw [hm]
        split
        · rename_i hnone
          refine .bind (.note (hP _ ⟨scope, vars, hscope, hv⟩ ?_)) fun _ _ => .pure _
          unfold varValue
          rw [hscope]
          simp only [hv, Option.bind_some, hnone]
        · exact ih _

theorem arithN_all [Rt] (P : Note → Prop) (hP : P .notNumbers) (op : TokenType) (a b : Operand) : AllNotes P (arithN op a b) :=
  .ite (fun _ => .quiet _) fun _ => .ite (fun _ => .bind (.note hP) fun _ _ => .pure _) fun _ => .quiet _

theorem minOrderN_all [Rt] {P : Note → Prop} {env : CalcEnv} {fuel : Nat} (h : ∀ v, AllNotes P (operandValN env fuel v))
    (x y : Str) : AllNotes P (minOrderN env fuel x y) :=
  .bind (h x) fun _ _ => .bind (h y) fun _ _ => .ite
    (fun _ => .bind (.quiet _) fun _ _ => .bind (.quiet _) fun _ _ => .quiet _) fun _ => .pure _

theorem minRestN_all [Rt] {P : Note → Prop} {env : CalcEnv} {fuel : Nat} (h : ∀ v, AllNotes P (operandValN env fuel v)) :
    ∀ (rest : List (Noted Str)) (best : Str), (∀ a ∈ rest, AllNotes P a) → AllNotes P (minRestN env fuel best rest)
  | [], _, _ => .pure _
  | b :: rest, best, hr => by
    unfold minRestN
    exact .bind (hr b (by simp)) fun _ _ => .bind (minOrderN_all h _ _) fun _ _ =>
      minRestN_all h rest _ fun a ha => hr a (by simp [ha])

theorem callFunctionN_all [Rt] {P : Note → Prop} {env : CalcEnv} {fuel : Nat} (h : ∀ v, AllNotes P (operandValN env fuel v))
    (name : Str) (args : List (Noted Str)) (ha : ∀ a ∈ args, AllNotes P a) : AllNotes P (callFunctionN env fuel name args) := by
  have hidx : ∀ i a, (quiet (liftR (idx args i))).result = .ok a → AllNotes P a := by
    intro i a hi
    unfold idx at hi
    cases hg : args[i]? with
    | none => rw [hg] at hi; exact nomatch hi
    | some b =>
      rw [hg] at hi
      injection hi with hb
      exact hb ▸ ha b (List.mem_of_getElem? hg)
  unfold callFunctionN
  refine .ite (fun _ => .bind (.quiet _) fun a h1 => .bind (hidx 0 a h1) fun _ _ => .ite (fun _ => .pure _) fun _ => .quiet _)
    fun _ => ?_
  refine .ite (fun _ => .bind (.quiet _) fun a h1 => .bind (hidx 0 a h1) fun _ _ => .ite (fun _ => .pure _) fun _ => .quiet _)
    fun _ => ?_
  refine .ite (fun _ => .bind (.quiet _) fun a h1 => .bind (hidx 0 a h1) fun _ _ => .bind (.quiet _) fun b h2 =>
    .bind (hidx 1 b h2) fun _ _ => .pure _) fun _ => ?_
  refine .ite (fun _ => .bind (.quiet _) fun a h1 => .bind (hidx 0 a h1) fun _ _ => .bind (.quiet _) fun _ _ =>
    .ite (fun _ => .pure _) fun _ => .quiet _) fun _ => ?_
  refine .ite (fun _ => ?_) fun _ => .ite (fun _ => .bind (.quiet _) fun _ _ => .pure _) fun _ => .pure _
  cases args with
  | nil => exact .quiet _
  | cons a rest => exact .bind (ha a (by simp)) fun _ _ => minRestN_all h rest _ fun b hb => ha b (by simp [hb])

mutual

theorem evalNodeN_all [Rt] {P : Note → Prop} {env : CalcEnv} {fuel : Nat} (h : ∀ v, AllNotes P (operandValN env fuel v))
    (hP : P .notNumbers) : ∀ e : Node Rt.F, AllNotes P (evalNodeN env fuel e)
  | .binary l op r => by
    unfold evalNodeN
    exact .bind (evalNodeN_all h hP l) fun _ _ => .bind (evalNodeN_all h hP r) fun _ _ => .bind (h _) fun _ _ =>
      .bind (h _) fun _ _ => arithN_all P hP _ _ _
  | .concatenation l r => by
    unfold evalNodeN
    exact .bind (evalNodeN_all h hP l) fun _ _ => .bind (evalNodeN_all h hP r) fun _ _ => .pure _
  | .comparison l op r => by
    unfold evalNodeN
    exact .ite (fun _ => .bind (evalNodeN_all h hP l) fun _ _ => .bind (evalNodeN_all h hP r) fun _ _ => .quiet _)
      fun _ => .quiet _
  | .call name args => by
    unfold evalNodeN
    exact callFunctionN_all h name _ (evalArgsN_all h hP args)
  | .number x => by unfold evalNodeN; exact .pure _
  | .variable name => by unfold evalNodeN; exact .bind (h _) fun _ _ => .pure _
  | .field name => by unfold evalNodeN; exact .bind (h _) fun _ _ => .pure _
  | .stringLiteral s => by unfold evalNodeN; exact .pure _

theorem evalArgsN_all [Rt] {P : Note → Prop} {env : CalcEnv} {fuel : Nat} (h : ∀ v, AllNotes P (operandValN env fuel v))
    (hP : P .notNumbers) : ∀ es : List (Node Rt.F), ∀ a ∈ evalArgsN env fuel es, AllNotes P a
  | [] => by unfold evalArgsN; exact nofun
  | e :: es => by
    unfold evalArgsN
    intro a ha
    rcases List.mem_cons.mp ha with rfl | ha
    · exact evalNodeN_all h hP e
    · exact evalArgsN_all h hP es a ha

end

/-- The lexer warns of colons only. -/
theorem calcLexN_all [Rt] (P : Note → Prop) : ∀ (s : Str) (m : CalcMode) (buf : Str) (acc : List Tok),
    (':' ∈ s → P .invalidColon) → AllNotes P (calcLexN m buf acc s)
  | [], _, _, _, _ => by unfold calcLexN; exact .quiet _
  | c :: rest, m, buf, acc, hP => by
    have ih := fun m buf acc => calcLexN_all P rest m buf acc (fun h => hP (List.mem_cons_of_mem _ h))
    unfold calcLexN
    cases m with
    | skip => exact ih _ _ _
    | str => exact .ite (fun _ => ih _ _ _) fun _ => ih _ _ _
    | fieldSkip => exact ih _ _ _
    | field =>
      cases rest with
      | nil => exact ih _ _ _
      | cons d r => exact .ite (fun _ => ih _ _ _) fun _ => ih _ _ _
    | normal =>
      refine .ite (fun _ => ih _ _ _) fun _ => .ite (fun _ => .bind (.quiet _) fun _ _ => ih _ _ _) fun _ => ?_
      cases symbolToken c with
      | some ty => exact .bind (.quiet _) fun _ _ => ih _ _ _
      | none =>
        refine .ite (fun _ => .bind (.quiet _) fun _ _ => .bind (.quiet _) fun _ _ => .ite (fun _ => ih _ _ _) fun _ => ih _ _ _)
          fun _ => ?_
        refine .ite (fun _ => .bind (.quiet _) fun _ _ => .bind (.quiet _) fun _ _ => .ite (fun _ => ih _ _ _) fun _ => ih _ _ _)
          fun _ => ?_
        refine .ite (fun _ => .bind (.quiet _) fun _ _ => .bind (.quiet _) fun _ _ => .ite (fun _ => ih _ _ _) fun _ => ih _ _ _)
          fun _ => ?_
        refine .ite (fun _ => .bind (.quiet _) fun _ _ => .bind (.quiet _) fun _ _ => .ite (fun _ => ih _ _ _) fun _ => ih _ _ _)
          fun _ => ?_
        refine .ite (fun _ => .bind (.quiet _) fun _ _ => ih _ _ _) fun _ => .ite (fun hc => ?_) fun _ => ih _ _ _
        exact .ite (fun _ => ih _ _ _) fun _ => .bind (.note (hP (by simp [hc]))) fun _ _ => ih _ _ _

/-! ### Two states that differ in variables that are not used -/

/-- If no warning names a variable that `U` rejects, the second computation does what the first one does. -/
def Same (U : Str → Prop) {α : Type} (c c' : Noted α) : Prop := (∀ x, Note.unknownVariable x ∈ c.notes → U x) → c' = c

theorem Same.rfl' {U : Str → Prop} {α : Type} (c : Noted α) : Same U c c := fun _ => rfl

theorem Same.bind {U : Str → Prop} {α β : Type} {x x' : Noted α} {f f' : α → Noted β} (hx : Same U x x')
    (hf : ∀ a, x.result = .ok a → Same U (f a) (f' a)) : Same U (x >>= f) (x' >>= f') := by
  intro h
  rcases x with ⟨ns, e | a⟩
  · rw [hx h]
    rfl
  · rw [noted_ok_bind] at h
    rw [hx fun y hy => h y (List.mem_append_left _ hy), noted_ok_bind, noted_ok_bind,
      hf a rfl fun y hy => h y (List.mem_append_right _ hy)]

theorem Same.ite {U : Str → Prop} {α : Type} {c : Prop} [Decidable c] {x x' y y' : Noted α} (hx : c → Same U x x')
    (hy : ¬ c → Same U y y') : Same U (if c then x else y) (if c then x' else y') := by
  by_cases hc : c
  · simp only [if_pos hc]; exact hx hc
  · simp only [if_neg hc]; exact hy hc

theorem operandValN_same {env env' : CalcEnv} (hm : MoreVariables env env') : ∀ (fuel : Nat) (val : Str),
    Same (fun x => varValue env' x = none) (operandValN env fuel val) (operandValN env' fuel val)
  | 0, _ => .rfl' _
  | fuel + 1, val => by
    have ih := operandValN_same hm fuel
    unfold operandValN
    refine .ite (fun _ => .rfl' _) fun _ => .ite (fun _ => .rfl' _) fun _ => ?_
    rw [hm.db, hm.depth]
    split
    · exact .bind (.rfl' _) fun v _ => ih v
    · cases hd : env.depth with
      | zero => exact .rfl' _
      | succ scope =>
        by_cases hs : Active env
        · have hs' := hm.active.mpr hs
          obtain ⟨d, m, hd1, e1⟩ := hs
          obtain ⟨d', m', hd2, e2⟩ := hs'
          obtain rfl : d = scope := by omega
          obtain rfl : d' = d := by rw [hm.depth] at hd2; omega
          have v1 : ∀ x, varValue env x = SMap.get m x := by
            intro x; unfold varValue; rw [hd]; simp only [e1, Option.bind_some]
          have v2 : ∀ x, varValue env' x = SMap.get m' x := by
            intro x; unfold varValue; rw [hm.depth, hd]; simp only [e2, Option.bind_some]
          simp only [idx, e1, e2]
          intro h
          have q : ∀ m : SMap Str, quiet (liftR (Except.ok m : Res (SMap Str))) = ⟨[], .ok m⟩ := fun _ => rfl
          simp only [q, noted_ok_bind, List.nil_append] at h ⊢
          cases hg : SMap.get m val with
          | some v =>
            have := hm.kept val v (by rw [v1, hg])
            rw [v2] at this
            rw [this]
            rw [hg] at h
            simp only at h ⊢
            exact ih v h
          | none =>
            rw [hg] at h
            have : varValue env' val = none := h val (by simp [note, noted_bind, Noted.andThen])
            rw [v2] at this
            rw [this]
        · have hs' : ¬ Active env' := fun h => hs (hm.active.mp h)
          have e1 : env.vars[scope]? = none := by
            cases h : env.vars[scope]? with
            | none => rfl
            | some m => exact absurd ⟨scope, m, hd, h⟩ hs
          have e2 : env'.vars[scope]? = none := by
            cases h : env'.vars[scope]? with
            | none => rfl
            | some m => exact absurd ⟨scope, m, hm.depth.trans hd, h⟩ hs'
          simp only [idx, e1, e2]
          exact .bind (.rfl' _) fun _ h => nomatch h

theorem minOrderN_same [Rt] {U : Str → Prop} {env env' : CalcEnv} {fuel : Nat}
    (h : ∀ v, Same U (operandValN env fuel v) (operandValN env' fuel v)) (x y : Str) :
    Same U (minOrderN env fuel x y) (minOrderN env' fuel x y) :=
  .bind (h x) fun _ _ => .bind (h y) fun _ _ => .rfl' _

theorem minRestN_same [Rt] {U : Str → Prop} {env env' : CalcEnv} {fuel : Nat}
    (h : ∀ v, Same U (operandValN env fuel v) (operandValN env' fuel v)) :
    ∀ {rest rest' : List (Noted Str)}, List.Forall₂ (Same U) rest rest' → ∀ best : Str,
      Same U (minRestN env fuel best rest) (minRestN env' fuel best rest')
  | _, _, .nil, _ => .rfl' _
  | _, _, .cons hb hr, best => by
    unfold minRestN
    exact .bind hb fun _ _ => .bind (minOrderN_same h _ _) fun _ _ => minRestN_same h hr _

theorem idxN_same {U : Str → Prop} {α : Type} {f f' : Noted Str → Noted α} :
    ∀ {args args' : List (Noted Str)}, List.Forall₂ (Same U) args args' → ∀ i : Nat,
      (∀ a a', Same U a a' → Same U (f a) (f' a')) →
      Same U (quiet (liftR (idx args i)) >>= f) (quiet (liftR (idx args' i)) >>= f')
  | _, _, .nil, i, _ => .bind (.rfl' _) fun a ha => by
      unfold idx at ha
      rw [List.getElem?_nil] at ha
      exact nomatch ha
  | a :: _, a' :: _, .cons ha hr, 0, hf => by
    show Same U (@Bind.bind Noted _ _ _ ⟨[], .ok a⟩ f) (@Bind.bind Noted _ _ _ ⟨[], .ok a'⟩ f')
    rw [noted_ok_bind, noted_ok_bind]
    exact hf a a' ha
  | _ :: _, _ :: _, .cons _ hr, i + 1, hf => by
    have := idxN_same hr i hf
    unfold idx at this ⊢
    rw [List.getElem?_cons_succ, List.getElem?_cons_succ]
    exact this

theorem callFunctionN_same [Rt] {U : Str → Prop} {env env' : CalcEnv} {fuel : Nat}
    (h : ∀ v, Same U (operandValN env fuel v) (operandValN env' fuel v)) (name : Str) {args args' : List (Noted Str)}
    (ha : List.Forall₂ (Same U) args args') : Same U (callFunctionN env fuel name args) (callFunctionN env' fuel name args') := by
  unfold callFunctionN
  refine .ite (fun _ => idxN_same ha 0 fun a a' h1 => .bind h1 fun _ _ => .rfl' _) fun _ => ?_
  refine .ite (fun _ => idxN_same ha 0 fun a a' h1 => .bind h1 fun _ _ => .rfl' _) fun _ => ?_
  refine .ite (fun _ => idxN_same ha 0 fun a a' h1 => .bind h1 fun _ _ => idxN_same ha 1 fun b b' h2 => .bind h2 fun _ _ => .rfl' _)
    fun _ => ?_
  refine .ite (fun _ => idxN_same ha 0 fun a a' h1 => .bind h1 fun _ _ => .rfl' _) fun _ => ?_
  refine .ite (fun _ => ?_) fun _ => .ite (fun _ => idxN_same ha 0 fun _ _ _ => .rfl' _) fun _ => .rfl' _
  cases ha with
  | nil => exact .rfl' _
  | cons h1 hr => exact .bind h1 fun _ _ => minRestN_same h hr _

mutual

theorem evalNodeN_same [Rt] {U : Str → Prop} {env env' : CalcEnv} {fuel : Nat}
    (h : ∀ v, Same U (operandValN env fuel v) (operandValN env' fuel v)) :
    ∀ e : Node Rt.F, Same U (evalNodeN env fuel e) (evalNodeN env' fuel e)
  | .binary l op r => by
    unfold evalNodeN
    exact .bind (evalNodeN_same h l) fun _ _ => .bind (evalNodeN_same h r) fun _ _ => .bind (h _) fun _ _ =>
      .bind (h _) fun _ _ => .rfl' _
  | .concatenation l r => by
    unfold evalNodeN
    exact .bind (evalNodeN_same h l) fun _ _ => .bind (evalNodeN_same h r) fun _ _ => .rfl' _
  | .comparison l op r => by
    unfold evalNodeN
    exact .ite (fun _ => .bind (evalNodeN_same h l) fun _ _ => .bind (evalNodeN_same h r) fun _ _ => .rfl' _) fun _ => .rfl' _
  | .call name args => by
    unfold evalNodeN
    exact callFunctionN_same h name (evalArgsN_same h args)
  | .number x => by unfold evalNodeN; exact .rfl' _
  | .variable name => by unfold evalNodeN; exact .bind (h _) fun _ _ => .rfl' _
  | .field name => by unfold evalNodeN; exact .bind (h _) fun _ _ => .rfl' _
  | .stringLiteral s => by unfold evalNodeN; exact .rfl' _

theorem evalArgsN_same [Rt] {U : Str → Prop} {env env' : CalcEnv} {fuel : Nat}
    (h : ∀ v, Same U (operandValN env fuel v) (operandValN env' fuel v)) :
    ∀ es : List (Node Rt.F), List.Forall₂ (Same U) (evalArgsN env fuel es) (evalArgsN env' fuel es)
  | [] => by unfold evalArgsN; exact .nil
  | e :: es => by unfold evalArgsN; exact .cons (evalNodeN_same h e) (evalArgsN_same h es)

end

theorem evalCalcN_same [Rt] {env env' : CalcEnv} (hm : MoreVariables env env') (fuel : Nat) (s : Str) :
    Same (fun x => varValue env' x = none) (evalCalcN env fuel s) (evalCalcN env' fuel s) := by
  unfold evalCalcN
  exact .bind (.rfl' _) fun _ _ => .bind (.rfl' _) fun _ _ => evalNodeN_same (operandValN_same hm fuel) _

/-! ### Single lookups -/

theorem operandN_settled (env : CalcEnv) {v : Str} (h : Settled v) (f : Nat) : (operandValN env (f + 1) v).notes = [] := by
  rcases h with h | h
  · rw [operandValN, if_pos h]; rfl
  · rw [operandValN, if_neg (by simp [not_float_quoted h]), if_pos h]; rfl

theorem operandN_lookup {env : CalcEnv} {name : Str} (hn : VarName name) {d : Nat} {m : SMap Str}
    (hd : env.depth = d + 1) (hm : env.vars[d]? = some m) (f : Nat) :
    operandValN env (f + 1) name =
      match SMap.get m name with
      | none => ⟨[.unknownVariable name], .ok ⟨[], false⟩⟩
      | some v => operandValN env f v := by
  rw [operandValN, if_neg (by simp [hn.notNumber]), if_neg (by simp [hn.notQuoted]), splitCC_plain hn.plain]
  simp only [hd]
  rw [idx_of hm]
  have q : quiet (liftR (Except.ok m : Res (SMap Str))) = ⟨[], .ok m⟩ := rfl
  rw [q, noted_ok_bind]
  cases SMap.get m name <;> rfl

theorem operandN_var {env : CalcEnv} {name v : Str} (hn : VarName name) (hv : varValue env name = some v) (f : Nat) :
    operandValN env (f + 1) name = operandValN env f v := by
  unfold varValue at hv
  split at hv
  · cases hv
  · rename_i d hd
    cases hm : env.vars[d]? with
    | none => rw [hm] at hv; cases hv
    | some m =>
      rw [hm] at hv
      simp only [Option.bind_some] at hv
      rw [operandN_lookup hn hd hm, hv]

theorem operandN_unset {env : CalcEnv} {name : Str} (hn : VarName name) (ha : Active env)
    (hv : varValue env name = none) (f : Nat) :
    operandValN env (f + 1) name = ⟨[.unknownVariable name], .ok ⟨[], false⟩⟩ := by
  obtain ⟨d, m, hd, hm⟩ := ha
  unfold varValue at hv
  rw [hd] at hv
  simp only [hm, Option.bind_some] at hv
  rw [operandN_lookup hn hd hm, hv]

/-- What a plain name that is no value prints: at most its own name, if what it holds is settled. -/
theorem operandN_plain_names {env : CalcEnv} {name : Str} (hp : PlainName name)
    (hs : ∀ v, varValue env name = some v → Settled v) : ∀ (fuel : Nat) (x : Str),
    Note.unknownVariable x ∈ (operandValN env fuel name).notes → x = name
  | 0, x, h => nomatch h
  | fuel + 1, x, h => by
    by_cases h1 : isFloatText name = true
    · rw [operandN_settled env (.inl h1)] at h; exact nomatch h
    by_cases h2 : isQuoted name = true
    · rw [operandN_settled env (.inr h2)] at h; exact nomatch h
    have hn : VarName name := ⟨hp, by simpa using h1, by simpa using h2⟩
    by_cases ha : Active env
    · cases hv : varValue env name with
      | none => rw [operandN_unset hn ha hv] at h; simpa using h
      | some v =>
        rw [operandN_var hn hv] at h
        cases fuel with
        | zero => exact nomatch h
        | succ f => rw [operandN_settled env (hs v hv)] at h; exact nomatch h
    · exact absurd (operandValN_all (fun _ => Active env) env (fun _ h _ => h) _ _ _ h) ha

theorem operandN_field_names {env : CalcEnv} {t f : Str} (ht : PlainName t) (hf : PlainName f)
    (hs : ∀ v, env.db.foundSetRecordField f = .ok v → Settled v) : ∀ (fuel : Nat) (x : Str),
    Note.unknownVariable x ∉ (operandValN env fuel (t ++ t!"::" ++ f)).notes
  | 0, x => nofun
  | fuel + 1, x => by
    have hnf : isFloatText (t ++ t!"::" ++ f) = false := not_float_of_char (c := ':') (by simp) (by decide)
    intro h
    cases hq : isQuoted (t ++ t!"::" ++ f) with
    | true => rw [operandN_settled env (.inr hq)] at h; exact nomatch h
    | false =>
      rw [operandValN, if_neg (by rw [hnf]; simp), if_neg (by rw [hq]; simp), splitCC_field ht hf] at h
      simp only at h
      cases hv : env.db.foundSetRecordField f with
      | error e => rw [hv] at h; exact nomatch h
      | ok v =>
        rw [hv] at h
        have q : quiet (liftR (Except.ok v : Res Str)) = ⟨[], .ok v⟩ := rfl
        rw [q, noted_ok_bind] at h
        cases fuel with
        | zero => exact nomatch h
        | succ g =>
          simp only [operandN_settled env (hs v hv), List.append_nil] at h
          exact nomatch h

theorem noted_mem_bind {α β : Type} {x : Noted α} {f : α → Noted β} {n : Note} :
    n ∈ (x >>= f).notes ↔ n ∈ x.notes ∨ ∃ a, x.result = .ok a ∧ n ∈ (f a).notes := by
  rcases x with ⟨ns, e | a⟩
  · constructor
    · exact fun h => .inl h
    · rintro (h | ⟨a, h, -⟩)
      · exact h
      · exact nomatch h
  · rw [noted_ok_bind]
    simp

theorem operandN_no_notNumbers (env : CalcEnv) (fuel : Nat) (v : Str) : Note.notNumbers ∉ (operandValN env fuel v).notes :=
  fun h => operandValN_all (· ≠ .notNumbers) env (fun _ _ _ h => nomatch h) fuel v _ h rfl

/-- Arithmetic warns exactly if an operand is no number. -/
theorem arithN_notes [Rt] {op : TokenType} (hop : op ∈ [TokenType.plus, .minus, .multiply, .divide]) (a b : Operand) :
    (arithN op a b).notes = if a.number && b.number then [] else [.notNumbers] := by
  have hop' : (!isAdditive op && !isMultiplicative op) = false := by
    simp only [List.mem_cons, List.not_mem_nil, or_false] at hop
    rcases hop with rfl | rfl | rfl | rfl <;> rfl
  unfold arithN
  rw [hop']
  cases a.number <;> cases b.number <;> rfl

theorem notNumbers_iff [Rt] {env : CalcEnv} {fuel : Nat} {e : Node Rt.F} (he : Expression e) : ∀ {v : Str},
    evalNode env fuel e = .ok v →
    (Note.notNumbers ∈ (evalNodeN env fuel e).notes ↔
      ∃ l op r, Occurs (.binary l op r) e ∧ ¬ (IsNumber env fuel l ∧ IsNumber env fuel r)) := by
  induction he with
  | number =>
    intro v _
    simp only [evalNodeN, noted_pure, List.not_mem_nil, false_iff]
    rintro ⟨l, op, r, h, -⟩
    exact nomatch h
  | string =>
    intro v _
    simp only [evalNodeN, noted_pure, List.not_mem_nil, false_iff]
    rintro ⟨l, op, r, h, -⟩
    exact nomatch h
  | «variable» hp =>
    intro v _
    simp only [evalNodeN, noted_mem_bind, operandN_no_notNumbers, noted_pure, List.not_mem_nil, and_false, exists_false, or_self,
      false_iff]
    rintro ⟨l, op, r, h, -⟩
    exact nomatch h
  | field ht hf =>
    intro v _
    simp only [evalNodeN, noted_mem_bind, operandN_no_notNumbers, noted_pure, List.not_mem_nil, and_false, exists_false, or_self,
      false_iff]
    rintro ⟨l, op, r, h, -⟩
    exact nomatch h
  | @concatenate x y hx hy ihx ihy =>
    intro v hv
    rw [evalNode] at hv
    obtain ⟨a, ha, hv⟩ := ev_bind_ok.mp hv
    obtain ⟨b, hb, hv⟩ := ev_bind_ok.mp hv
    have ha' : (evalNodeN env fuel x).result = .ok a := by rw [evalNodeN_snd, ha]
    simp only [evalNodeN, noted_mem_bind, ha', noted_pure, List.not_mem_nil, and_false, exists_false, or_false,
      Except.ok.injEq, exists_eq_left', ihx ha, ihy hb]
    constructor
    · rintro (⟨l, op, r, h, h'⟩ | ⟨l, op, r, h, h'⟩)
      · exact ⟨l, op, r, .concatLeft h, h'⟩
      · exact ⟨l, op, r, .concatRight h, h'⟩
    · rintro ⟨l, op, r, h, h'⟩
      cases h with
      | concatLeft h => exact .inl ⟨l, op, r, h, h'⟩
      | concatRight h => exact .inr ⟨l, op, r, h, h'⟩
  | @compare x y op hop hx hy ihx ihy =>
    intro v hv
    have hc : isComparison op = true := by
      simp only [List.mem_cons, List.not_mem_nil, or_false] at hop
      rcases hop with rfl | rfl | rfl | rfl | rfl | rfl <;> rfl
    rw [evalNode, if_pos hc] at hv
    obtain ⟨a, ha, hv⟩ := ev_bind_ok.mp hv
    obtain ⟨b, hb, hv⟩ := ev_bind_ok.mp hv
    have ha' : (evalNodeN env fuel x).result = .ok a := by rw [evalNodeN_snd, ha]
    rw [evalNodeN, if_pos hc]
    simp only [noted_mem_bind, ha', quiet_fst, List.not_mem_nil, and_false, exists_false, or_false,
      Except.ok.injEq, exists_eq_left', ihx ha, ihy hb]
    constructor
    · rintro (⟨l, op, r, h, h'⟩ | ⟨l, op, r, h, h'⟩)
      · exact ⟨l, op, r, .compareLeft h, h'⟩
      · exact ⟨l, op, r, .compareRight h, h'⟩
    · rintro ⟨l, op, r, h, h'⟩
      cases h with
      | compareLeft h => exact .inl ⟨l, op, r, h, h'⟩
      | compareRight h => exact .inr ⟨l, op, r, h, h'⟩
  | @arith x y op hop hx hy ihx ihy =>
    intro v hv
    rw [evalNode] at hv
    obtain ⟨a, ha, hv⟩ := ev_bind_ok.mp hv
    obtain ⟨b, hb, hv⟩ := ev_bind_ok.mp hv
    obtain ⟨p, hp, hv⟩ := ev_bind_ok.mp hv
    obtain ⟨q, hq, hv⟩ := ev_bind_ok.mp hv
    have ha' : (evalNodeN env fuel x).result = .ok a := by rw [evalNodeN_snd, ha]
    have hb' : (evalNodeN env fuel y).result = .ok b := by rw [evalNodeN_snd, hb]
    have hp' : (operandValN env fuel a).result = .ok p := by rw [operandValN_snd, hp]
    have hq' : (operandValN env fuel b).result = .ok q := by rw [operandValN_snd, hq]
    have nx : IsNumber env fuel x ↔ p.number = true := by
      constructor
      · rintro ⟨a', o, h1, h2, h3⟩
        rw [ha] at h1; injection h1 with h1; subst h1
        rw [hp] at h2; injection h2 with h2; exact h2 ▸ h3
      · exact fun h => ⟨a, p, ha, hp, h⟩
    have ny : IsNumber env fuel y ↔ q.number = true := by
      constructor
      · rintro ⟨a', o, h1, h2, h3⟩
        rw [hb] at h1; injection h1 with h1; subst h1
        rw [hq] at h2; injection h2 with h2; exact h2 ▸ h3
      · exact fun h => ⟨b, q, hb, hq, h⟩
    have hlast : Note.notNumbers ∈ (arithN op p q).notes ↔ ¬ (IsNumber env fuel x ∧ IsNumber env fuel y) := by
      rw [arithN_notes hop, nx, ny]
      cases p.number <;> cases q.number <;> simp
    simp only [evalNodeN, noted_mem_bind, ha', hb', hp', hq', operandN_no_notNumbers, false_or,
      Except.ok.injEq, exists_eq_left', ihx ha, ihy hb, hlast]
    constructor
    · rintro (⟨l, op, r, h, h'⟩ | ⟨l, op, r, h, h'⟩ | h)
      · exact ⟨l, op, r, .arithLeft h, h'⟩
      · exact ⟨l, op, r, .arithRight h, h'⟩
      · exact ⟨x, op, y, .here, h⟩
    · rintro ⟨l, op', r, h, h'⟩
      cases h with
      | here => exact .inr (.inr h')
      | arithLeft h => exact .inl ⟨l, op', r, h, h'⟩
      | arithRight h => exact .inr (.inl ⟨l, op', r, h, h'⟩)

/-- Without arithmetic, only names of the expression are printed. -/
theorem names_occur [Rt] {env : CalcEnv} {fuel : Nat} {e : Node Rt.F} (he : Expression e)
    (hna : ∀ l op r, ¬ Occurs (.binary l op r) e) (hs : SettledIn env e) :
    ∀ x, Note.unknownVariable x ∈ (evalNodeN env fuel e).notes → Occurs (.variable x) e := by
  induction he with
  | number => intro x h; simp [evalNodeN] at h
  | string => intro x h; simp [evalNodeN] at h
  | «variable» hp =>
    intro x h
    simp only [evalNodeN, noted_mem_bind, noted_pure, List.not_mem_nil, and_false, exists_false, or_false] at h
    rw [operandN_plain_names hp (fun v hv => hs.1 _ v .here hv) fuel x h]
    exact .here
  | field ht hf =>
    intro x h
    simp only [evalNodeN, noted_mem_bind, noted_pure, List.not_mem_nil, and_false, exists_false, or_false] at h
    exact absurd h (operandN_field_names ht hf (fun v hv => hs.2 _ _ v .here hv) fuel x)
  | arith hop hx hy ihx ihy => exact absurd .here (hna _ _ _)
  | @concatenate a b hx hy ihx ihy =>
    intro x h
    simp only [evalNodeN, noted_mem_bind, noted_pure, List.not_mem_nil, and_false, exists_false, or_false] at h
    rcases h with h | ⟨_, _, h⟩
    · exact .concatLeft (ihx (fun l op r h => hna l op r (.concatLeft h))
        ⟨fun x v h => hs.1 x v (.concatLeft h), fun t f v h => hs.2 t f v (.concatLeft h)⟩ x h)
    · exact .concatRight (ihy (fun l op r h => hna l op r (.concatRight h))
        ⟨fun x v h => hs.1 x v (.concatRight h), fun t f v h => hs.2 t f v (.concatRight h)⟩ x h)
  | @compare a b op hop hx hy ihx ihy =>
    intro x h
    rw [evalNodeN] at h
    split at h
    · simp only [noted_mem_bind, quiet_fst, List.not_mem_nil, and_false, exists_false, or_false] at h
      rcases h with h | ⟨_, _, h⟩
      · exact .compareLeft (ihx (fun l op r h => hna l op r (.compareLeft h))
          ⟨fun x v h => hs.1 x v (.compareLeft h), fun t f v h => hs.2 t f v (.compareLeft h)⟩ x h)
      · exact .compareRight (ihy (fun l op r h => hna l op r (.compareRight h))
          ⟨fun x v h => hs.1 x v (.compareRight h), fun t f v h => hs.2 t f v (.compareRight h)⟩ x h)
    · exact nomatch h

/-! ### Colons -/

/-- The first colon outside of quotes, if it is a single one, is reported. -/
theorem colon_reported [Rt] (post : Str) (hpost : post.head? ≠ some ':') : ∀ (pre : Str) (m : CalcMode) (buf : Str) (acc ts : List Tok),
    ':' ∉ pre → '"' ∉ pre → (m = .normal ∨ m = .skip ∧ (pre ++ ':' :: post).head? = some '=') →
    calcLex m buf acc (pre ++ ':' :: post) = .ok ts →
    Note.invalidColon ∈ (calcLexN m buf acc (pre ++ ':' :: post)).notes
  | [], m, buf, acc, ts, _, _, hm, _ => by
    rcases hm with rfl | ⟨-, h⟩
    · rw [List.nil_append, calcLexN]
      have e1 : (isSpace ':' && buf.isEmpty) = false := by rw [show isSpace ':' = false from by decide]; rfl
      have e2 : symbolToken ':' = none := by decide
      rw [e2, e1]
      simp only [Bool.false_eq_true, if_false, if_true, hpost]
      simp [noted_mem_bind, note]
    · simp at h
  | c :: pre, m, buf, acc, ts, h1, h2, hm, hok => by
    have h1' : ':' ∉ pre := fun h => h1 (List.mem_cons_of_mem _ h)
    have h2' : '"' ∉ pre := fun h => h2 (List.mem_cons_of_mem _ h)
    have hc1 : c ≠ ':' := fun h => h1 (h ▸ List.mem_cons_self ..)
    have hc2 : c ≠ '"' := fun h => h2 (h ▸ List.mem_cons_self ..)
    have ihn := fun buf acc h => colon_reported post hpost pre .normal buf acc ts h1' h2' (.inl rfl) h
    have ihs := fun buf acc hh h => colon_reported post hpost pre .skip buf acc ts h1' h2' (.inr ⟨rfl, hh⟩) h
    rw [List.cons_append] at hok ⊢
    rcases hm with rfl | ⟨rfl, -⟩
    · unfold calcLex at hok
      unfold calcLexN
      simp only at hok ⊢
      split at hok
      · rw [if_pos ‹_›]; exact ihn _ _ hok
      rw [if_neg ‹_›]
      split at hok
      · rw [if_pos ‹_›]
        obtain ⟨acc', ha, hok⟩ := bind_ok.mp hok
        rw [noted_mem_bind, ha]
        exact .inr ⟨acc', rfl, ihn _ _ hok⟩
      rw [if_neg ‹_›]
      cases hsym : symbolToken c with
      | some ty =>
        rw [hsym] at hok
        obtain ⟨acc', ha, hok⟩ := bind_ok.mp hok
        simp only
        rw [noted_mem_bind, ha]
        exact .inr ⟨acc', rfl, ihn _ _ hok⟩
      | none =>
        rw [hsym] at hok
        simp only at hok ⊢
        have two : ∀ {f : Char → List Tok → Res (List Tok)} {g : Char → List Tok → Noted (List Tok)},
            (do let acc' ← flushInto buf acc; let d ← unwrap (pre ++ ':' :: post).head?; f d acc') = .ok ts →
            (∀ d acc', (pre ++ ':' :: post).head? = some d → f d acc' = .ok ts → Note.invalidColon ∈ (g d acc').notes) →
            Note.invalidColon ∈ (do let acc' ← quiet (liftR (flushInto buf acc))
                                    let d ← quiet (liftR (unwrap (pre ++ ':' :: post).head?)); g d acc').notes := by
          intro f g hk hfg
          obtain ⟨acc', ha, hk⟩ := bind_ok.mp hk
          obtain ⟨d, hd, hk⟩ := bind_ok.mp hk
          rw [noted_mem_bind, ha]
          refine .inr ⟨acc', rfl, ?_⟩
          rw [noted_mem_bind, hd]
          refine .inr ⟨d, rfl, hfg d acc' ?_ hk⟩
          cases hh : (pre ++ ':' :: post).head? with
          | none => rw [hh] at hd; exact nomatch hd
          | some d' => rw [hh] at hd; injection hd with hd; rw [hd]
        split at hok
        · rw [if_pos ‹_›]
          refine two (f := fun d acc' => if d = '=' then calcLex .skip [] (acc' ++ [⟨.neq, []⟩]) (pre ++ ':' :: post)
            else calcLex .normal [] acc' (pre ++ ':' :: post)) hok fun d acc' hd hk => ?_
          by_cases he : d = '='
          · rw [if_pos he] at hk ⊢; exact ihs _ _ (by rw [hd, he]) hk
          · rw [if_neg he] at hk ⊢; exact ihn _ _ hk
        rw [if_neg ‹_›]
        split at hok
        · rw [if_pos ‹_›]
          refine two (f := fun d acc' => if d = '=' then calcLex .normal [] (acc' ++ [⟨.eq, []⟩]) (pre ++ ':' :: post)
            else calcLex .normal [] acc' (pre ++ ':' :: post)) hok fun d acc' hd hk => ?_
          by_cases he : d = '='
          · rw [if_pos he] at hk ⊢; exact ihn _ _ hk
          · rw [if_neg he] at hk ⊢; exact ihn _ _ hk
        rw [if_neg ‹_›]
        split at hok
        · rw [if_pos ‹_›]
          refine two (f := fun d acc' => if d = '=' then calcLex .normal [] (acc' ++ [⟨.ltq, []⟩]) (pre ++ ':' :: post)
            else calcLex .normal [] (acc' ++ [⟨.lt, []⟩]) (pre ++ ':' :: post)) hok fun d acc' hd hk => ?_
          by_cases he : d = '='
          · rw [if_pos he] at hk ⊢; exact ihn _ _ hk
          · rw [if_neg he] at hk ⊢; exact ihn _ _ hk
        rw [if_neg ‹_›]
        split at hok
        · rw [if_pos ‹_›]
          refine two (f := fun d acc' => if d = '=' then calcLex .normal [] (acc' ++ [⟨.gtq, []⟩]) (pre ++ ':' :: post)
            else calcLex .normal [] (acc' ++ [⟨.gt, []⟩]) (pre ++ ':' :: post)) hok fun d acc' hd hk => ?_
          by_cases he : d = '='
          · rw [if_pos he] at hk ⊢; exact ihn _ _ hk
          · rw [if_neg he] at hk ⊢; exact ihn _ _ hk
        rw [if_neg ‹_›]
        simp only [if_neg hc2, if_neg hc1] at hok ⊢
        exact ihn _ _ hok
    · exact ihn _ _ hok

end BurnFm
