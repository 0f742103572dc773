import Verif.Spec.ScriptProvenance
import Verif.Proofs.ProvenanceGraph

/-! The steps of decompiled scripts. -/

namespace BurnFm
open Spec

theorem chunks28_pieces (n : Nat) : ∀ b : Bytes, (b.length + 27) / 28 = n → chunks28 b = pieces b := by
  induction n with
  | zero =>
    intro b h
    have : b = [] := List.eq_nil_of_length_eq_zero (by omega)
    subst this
    rw [chunks28_nil]; rfl
  | succ n ih =>
    intro b h
    have hb : b ≠ [] := by rintro rfl; simp at h
    have hl : 0 < b.length := List.length_pos_iff.mpr hb
    rw [chunks28_cons hb]
    by_cases h28 : b.length ≤ 28
    · rw [List.drop_eq_nil_of_le h28, chunks28_nil]
      unfold pieces
      rw [show (b.length + 27) / 28 = 1 by omega]
      rfl
    · rw [ih (b.drop 28) (by rw [List.length_drop]; omega)]
      unfold pieces
      rw [List.length_drop, h, show (b.length - 28 + 27) / 28 = n by omega, List.range_succ_eq_map, List.map_cons, List.map_map]
      congr 1
      apply List.map_congr_left
      intro i _
      simp only [Function.comp, List.drop_drop]
      congr 2
      omega

/-- The steps of script `k` so far. -/
def stepsIn (k : Nat) (st : DState) : List ScriptStep := ((st.file.scripts.get k).map (·.instructions)).getD []

theorem stepsIn_setSteps {k : Nat} {st : DState} {sc : FScript} (h : st.file.scripts.get k = some sc) (l : List ScriptStep) :
    stepsIn k (st.setSteps k l) = l := by
  unfold stepsIn DState.setSteps
  dsimp only
  rw [HMap.get_modify, if_pos rfl, h]
  rfl

theorem stepsIn_setSteps_ne {k id : Nat} {st : DState} (h : k ≠ id) (l : List ScriptStep) : stepsIn k (st.setSteps id l) = stepsIn k st := by
  unfold stepsIn DState.setSteps
  dsimp only
  rw [HMap.get_modify, if_neg h]

theorem stepsIn_of {k : Nat} {st : DState} {sc : FScript} (h : st.file.scripts.get k = some sc) : stepsIn k st = sc.instructions := by
  unfold stepsIn; rw [h]; rfl

theorem insertAt_ok {α : Type} {xs ys : List α} {n : Nat} {x : α} (h : insertAt xs n x = .ok ys) : ys = xs.insertIdx n x := by
  unfold insertAt at h
  split at h
  · rename_i hn
    cases h
    induction xs generalizing n with
    | nil => simp at hn; subst hn; rfl
    | cons a xs ih =>
      cases n with
      | zero => rfl
      | succ n => simp at hn; simp [List.insertIdx_succ_cons, ih hn]
  · cases h

/-- How a record is read. -/
def readStep (names : Nat → Option Str) (r : Bytes) : Option ScriptStep := stepOf instructionMap getPathInt names r

theorem scriptName_fun {st st' : DState} (h : ∀ j, scriptName j st' = scriptName j st) : (fun j => scriptName j st') = fun j => scriptName j st :=
  funext h

theorem inline_steps {id : Nat} : ∀ (cs : List Bytes) {st st' : DState},
    cs.foldlM (fun (st : DState) ins =>
      if 21 ≤ ins.length then do
        match ← decodeStep st.file.scripts ins with
        | none => return st
        | some step =>
          let sc ← unwrap (st.file.scripts.get id)
          return st.setSteps id (sc.instructions ++ [step])
      else return st) st = .ok st' →
    stepsIn id st' = stepsIn id st ++ (cs.filter fun r => 21 ≤ r.length).filterMap (readStep fun j => scriptName j st) ∧
    (∀ k, k ≠ id → stepsIn k st' = stepsIn k st) := by
  intro cs
  induction cs with
  | nil => intro st st' h; cases h; simp
  | cons c cs ih =>
    intro st st' h
    rw [List.foldlM_cons] at h
    obtain ⟨u, h1, h2⟩ := bind_ok.mp h
    obtain ⟨i1, i2⟩ := ih h2
    by_cases hc : 21 ≤ c.length
    · rw [if_pos hc] at h1
      rw [List.filter_cons_of_pos (by simpa using hc)]
      obtain ⟨o, h3, h4⟩ := bind_ok.mp h1
      have h5 : o = readStep (fun j => scriptName j st) c := decodeStep_spec h3
      cases o with
      | none =>
        cases h4
        rw [List.filterMap_cons_none h5.symm]
        exact ⟨i1, i2⟩
      | some s =>
        dsimp only at h4
        obtain ⟨sc, h6, h7⟩ := bind_ok.mp h4
        cases h7
        have h6 := (unwrap_ok).mp h6
        rw [List.filterMap_cons_some h5.symm]
        rw [stepsIn_setSteps h6, scriptName_fun (fun j => scriptName_setSteps)] at i1
        refine ⟨by rw [i1, stepsIn_of h6]; simp, fun k hk => ?_⟩
        rw [i2 k hk, stepsIn_setSteps_ne hk]
    · rw [if_neg hc] at h1
      cases h1
      rw [List.filter_cons_of_neg (by simpa using hc)]
      exact ⟨i1, i2⟩

theorem long_steps {id : Nat} : ∀ (cs : List Bytes) {st st' : DState},
    cs.foldlM (fun (st : DState) ins =>
      if 21 ≤ ins.length then do
        match ← decodeStep st.file.scripts ins with
        | none => return st
        | some step =>
          let sc ← unwrap (st.file.scripts.get id)
          let steps ← insertAt sc.instructions step.index step
          return st.setSteps id steps
      else return st) st = .ok st' →
    stepsIn id st' = ((cs.filter fun r => 21 ≤ r.length).filterMap (readStep fun j => scriptName j st)).foldl
      (fun l s => l.insertIdx s.index s) (stepsIn id st) ∧
    (∀ k, k ≠ id → stepsIn k st' = stepsIn k st) := by
  intro cs
  induction cs with
  | nil => intro st st' h; cases h; simp
  | cons c cs ih =>
    intro st st' h
    rw [List.foldlM_cons] at h
    obtain ⟨u, h1, h2⟩ := bind_ok.mp h
    obtain ⟨i1, i2⟩ := ih h2
    by_cases hc : 21 ≤ c.length
    · rw [if_pos hc] at h1
      rw [List.filter_cons_of_pos (by simpa using hc)]
      obtain ⟨o, h3, h4⟩ := bind_ok.mp h1
      have h5 : o = readStep (fun j => scriptName j st) c := decodeStep_spec h3
      cases o with
      | none =>
        cases h4
        rw [List.filterMap_cons_none h5.symm]
        exact ⟨i1, i2⟩
      | some s =>
        dsimp only at h4
        obtain ⟨sc, h6, h7⟩ := bind_ok.mp h4
        obtain ⟨l, h8, h7⟩ := bind_ok.mp h7
        cases h7
        have h6 := (unwrap_ok).mp h6
        rw [List.filterMap_cons_some h5.symm]
        rw [stepsIn_setSteps h6, scriptName_fun (fun j => scriptName_setSteps), insertAt_ok h8] at i1
        refine ⟨by rw [i1, stepsIn_of h6]; rfl, fun k hk => ?_⟩
        rw [i2 k hk, stepsIn_setSteps_ne hk]
    · rw [if_neg hc] at h1
      cases h1
      rw [List.filter_cons_of_neg (by simpa using hc)]
      exact ⟨i1, i2⟩

theorem codeDir_iff {k : Nat} {path : List Nat} : codeDir k path = true ↔ classify path = .script k := by
  constructor
  · intro h
    unfold codeDir at h
    rw [Bool.and_eq_true, beq_iff_eq, beq_iff_eq] at h
    obtain ⟨h1, h2⟩ := h
    match path, h1 with
    | a :: b :: c :: rest, h1 =>
      simp at h1
      obtain ⟨rfl, rfl, rfl⟩ := h1
      have h3 := areaOf_scripts c rest
      cases hc : classify (17 :: 5 :: c :: rest) with
      | segment x => have := of_classify_segment hc; rw [this] at h2; cases h2
      | stepExpr x y => have := of_classify_stepExpr hc; rw [this] at h2; cases h2
      | stepName x y => have := of_classify_stepName hc; rw [this] at h2; cases h2
      | stepValue x y => have := of_classify_stepValue hc; rw [this] at h2; cases h2
      | scriptMeta x => obtain ⟨_, _, this⟩ := of_classify_scriptMeta hc; cases this
      | script x => obtain ⟨⟨_, this⟩, _⟩ := of_classify_code hc; cases this; rfl
      | _ => rw [hc] at h3; cases h3
  · intro h
    obtain ⟨⟨rest, rfl⟩, h2⟩ := of_classify_code h
    simp [codeDir, h2]

/-- Steps given by an event outside the segments. -/
theorem script_event {st st' : DState} {id k : Nat} {e : Event} (hc : classify e.path = .script id)
    (h : armScript st id (toChunk e) = .ok st') :
    stepsIn k st' = placed (readStep fun j => scriptName j st) k e (stepsIn k st) := by
  have hk : k ≠ id → placed (readStep fun j => scriptName j st) k e (stepsIn k st) = stepsIn k st := by
    intro hne
    unfold placed
    rw [if_neg]
    intro h2
    rw [codeDir_iff, hc] at h2
    cases h2
    exact hne rfl
  have hd : codeDir id e.path = true := codeDir_iff.mpr hc
  unfold armScript at h
  cases hw : e.what with
  | kv n b =>
    rw [if_neg (by simp [toChunk, hw]), if_neg (by simp [toChunk, hw])] at h
    split at h
    · rename_i h4
      have h4 : n = 4 := by simpa [toChunk, hw] using h4
      obtain ⟨b', hb, h⟩ := bind_ok.mp h
      have hb : b = b' := by simpa [toChunk, hw, unwrap] using hb
      subst hb
      obtain ⟨q1, q2⟩ := inline_steps _ h
      by_cases hki : k = id
      · subst hki
        rw [q1, chunks28_pieces _ _ rfl]
        simp [placed, hd, hw, h4]
      · rw [hk hki, q2 k hki]
    · rename_i h4
      have h4 : n ≠ 4 := by simpa [toChunk, hw] using h4
      cases h
      simp [placed, hw, h4]
  | segment n b =>
    rw [if_neg (by simp [toChunk, hw])] at h
    split at h
    · rename_i h4
      have h4 : n = 4 := by simpa [toChunk, hw] using h4
      obtain ⟨b', hb, h⟩ := bind_ok.mp h
      have hb : b = b' := by simpa [toChunk, hw, unwrap] using hb
      subst hb
      obtain ⟨q1, q2⟩ := long_steps _ h
      by_cases hki : k = id
      · subst hki
        rw [q1, chunks28_pieces _ _ rfl]
        simp [placed, hd, hw, h4]
      · rw [hk hki, q2 k hki]
    · rename_i h4
      have h4 : n ≠ 4 := by simpa [toChunk, hw] using h4
      rw [if_neg (by simp [toChunk, hw])] at h
      cases h
      simp [placed, hw, h4]
  | push => rw [if_pos (by simp [toChunk, hw])] at h; cases h; simp [placed, hw]
  | pop => rw [if_pos (by simp [toChunk, hw])] at h; cases h; simp [placed, hw]
  | data b =>
    rw [if_neg (by simp [toChunk, hw]), if_neg (by simp [toChunk, hw]), if_neg (by simp [toChunk, hw])] at h
    cases h; simp [placed, hw]
  | longKv a b =>
    rw [if_neg (by simp [toChunk, hw]), if_neg (by simp [toChunk, hw]), if_neg (by simp [toChunk, hw])] at h
    cases h; simp [placed, hw]

/-- The script and the number of the step an event gives a parameter to. -/
def paramTarget (e : Event) : Option (Nat × Nat) :=
  match e.path, e.what with
  | [17, 5, k, 5, i, 128], .kv n _ => if n = 1 then some (k, i) else none
  | [17, 5, k, 5, i, 128, 5], .kv n _ => if n = 5 then some (k, i) else none
  | [17, 5, k, 5, i, 129, 5], .kv n _ => if n = 5 then some (k, i) else none
  | _, _ => none

/-- The text of a calculation. -/
def storedText (b : Bytes) : Option Str := (decompileCalculation b).toOption

theorem storedText_ok {b : Bytes} {t : Str} (h : decompileCalculation b = .ok t) : storedText b = some t := by
  unfold storedText; rw [h]; rfl

theorem paramTarget_at {k i : Nat} {op : Instruction} {e : Event} (h : parameterAt fmStringDecrypt storedText k i op e ≠ none) :
    paramTarget e = some (k, i) := by
  unfold parameterAt at h
  obtain ⟨path, what⟩ := e
  cases what with
  | kv n b =>
    dsimp only at h
    split at h
    · rename_i h1; obtain ⟨rfl, rfl⟩ := h1; rfl
    · split at h
      · rename_i h1; obtain ⟨rfl, rfl⟩ := h1; rfl
      · split at h
        · rename_i h1; obtain ⟨rfl, rfl⟩ := h1; rfl
        · exact absurd rfl h
  | _ => exact absurd rfl h

theorem paramTarget_place {e : Event} {k i : Nat} (h : paramTarget e = some (k, i)) :
    classify e.path = .stepName k i ∨ classify e.path = .stepExpr k i ∨ classify e.path = .stepValue k i := by
  unfold paramTarget at h
  split at h
  · rename_i hp _
    split at h
    · cases h; rw [hp]; exact .inl (classify_stepName _ _)
    · cases h
  · rename_i hp _
    split at h
    · cases h; rw [hp]; exact .inr (.inl (classify_stepExpr _ _))
    · cases h
  · rename_i hp _
    split at h
    · cases h; rw [hp]; exact .inr (.inr (classify_stepValue _ _))
    · cases h
  · cases h

theorem placed_other {step : Bytes → Option ScriptStep} {k : Nat} {e : Event} {l : List ScriptStep} (h : classify e.path ≠ .script k) :
    placed step k e l = l := by
  unfold placed
  rw [if_neg]
  intro h2
  exact h (codeDir_iff.mp h2)

/-- How a parameter for step `i` changes the steps. -/
def Param (k i : Nat) (e : Event) (l l' : List ScriptStep) : Prop :=
  ∃ s, l.find? (fun x => x.index == i) = some s ∧
    l' = match parameterAt fmStringDecrypt storedText k i s.opcode e with
      | none => l
      | some t => pushSwitch (fun x => x.index == i) t l

/-- What an event does to the steps of script `k`. -/
def StepsEffect (k : Nat) (e : Event) (st st' : DState) : Prop :=
  (paramTarget e = none → stepsIn k st' = placed (readStep fun j => scriptName j st) k e (stepsIn k st)) ∧
  ∀ id i, paramTarget e = some (id, i) → (k ≠ id → stepsIn k st' = stepsIn k st) ∧ (k = id → Param k i e (stepsIn k st) (stepsIn k st'))

theorem effect_same {k : Nat} {e : Event} {st st' : DState} (h : stepsIn k st' = stepsIn k st) (hc : classify e.path ≠ .script k)
    (hp : paramTarget e = none) : StepsEffect k e st st' :=
  ⟨fun _ => by rw [placed_other hc, h], fun id i h2 => by rw [hp] at h2; cases h2⟩

theorem effect_param {k id i : Nat} {e : Event} {st st' : DState} (ht : paramTarget e = some (id, i))
    (h1 : k ≠ id → stepsIn k st' = stepsIn k st) (h2 : k = id → Param k i e (stepsIn k st) (stepsIn k st')) : StepsEffect k e st st' :=
  ⟨fun h => by simp [ht] at h, fun _ _ h => by simp only [ht, Option.some.injEq, Prod.mk.injEq] at h; obtain ⟨rfl, rfl⟩ := h; exact ⟨h1, h2⟩⟩

theorem effect_name {k id i : Nat} {e : Event} {st st' : DState} (hc : classify e.path = .stepName id i)
    (h : armStepName st id i (toChunk e) = .ok st') : StepsEffect k e st st' := by
  have hne : classify e.path ≠ .script k := by rw [hc]; simp
  obtain ⟨path, what⟩ := e
  have hp := of_classify_stepName hc
  dsimp only at hp
  subst hp
  unfold armStepName at h
  cases what with
  | kv n b =>
    split at h
    · rename_i hn
      have hn : n = 1 := by simpa [toChunk] using hn
      subst hn
      obtain ⟨sc, hsc, h⟩ := bind_ok.mp h
      have hsc := unwrap_ok.mp hsc
      split at h
      · cases h
      · rename_i s hs
        refine effect_param rfl ?_ ?_
        · intro hk
          split at h
          · cases h; exact stepsIn_setSteps_ne hk _
          · cases h; rfl
        · rintro rfl
          refine ⟨s, by rw [stepsIn_of hsc]; exact hs, ?_⟩
          split at h
          · rename_i ho
            cases h
            rw [stepsIn_setSteps hsc, stepsIn_of hsc]
            simp [parameterAt, ho, dataOr, toChunk]
          · rename_i ho
            cases h
            simp [parameterAt, ho]
    · rename_i hn
      have hn : n ≠ 1 := by simpa [toChunk] using hn
      cases h
      exact effect_same rfl hne (by simp [paramTarget, hn])
  | _ => rw [if_neg (by simp [toChunk])] at h; cases h; exact effect_same rfl hne (by simp [paramTarget])

theorem effect_expr {k id i : Nat} {e : Event} {st st' : DState} (hc : classify e.path = .stepExpr id i)
    (h : armStepExpr st id i (toChunk e) = .ok st') : StepsEffect k e st st' := by
  have hne : classify e.path ≠ .script k := by rw [hc]; simp
  obtain ⟨path, what⟩ := e
  have hp := of_classify_stepExpr hc
  dsimp only at hp
  subst hp
  unfold armStepExpr at h
  cases what with
  | kv n b =>
    split at h
    · rename_i hn
      have hn : n = 5 := by simpa [toChunk] using hn
      subst hn
      obtain ⟨sc, hsc, h⟩ := bind_ok.mp h
      have hsc := unwrap_ok.mp hsc
      split at h
      · cases h
      · rename_i s hs
        refine effect_param rfl ?_ ?_
        · intro hk
          split at h
          · cases h; exact stepsIn_setSteps_ne hk _
          · split at h
            · obtain ⟨d, _, h⟩ := bind_ok.mp h
              obtain ⟨t, _, h⟩ := bind_ok.mp h
              cases h; exact stepsIn_setSteps_ne hk _
            · cases h; rfl
        · rintro rfl
          refine ⟨s, by rw [stepsIn_of hsc]; exact hs, ?_⟩
          split at h
          · rename_i ho
            cases h
            rw [stepsIn_setSteps hsc, stepsIn_of hsc]
            simp [parameterAt, ho, dataOr, toChunk]
          · rename_i ho
            split at h
            · rename_i ho'
              have h : (decompileCalculation b >>= fun text =>
                pure (st.setSteps k (pushSwitch (fun x => x.index == i) text sc.instructions)) : Res DState) = .ok st' := h
              obtain ⟨t, ht, h⟩ := bind_ok.mp h
              cases h
              rw [stepsIn_setSteps hsc, stepsIn_of hsc]
              simp [parameterAt, ho', storedText_ok ht]
            · rename_i ho'
              cases h
              simp [parameterAt, ho, ho']
    · rename_i hn
      have hn : n ≠ 5 := by simpa [toChunk] using hn
      cases h
      exact effect_same rfl hne (by simp [paramTarget, hn])
  | _ => rw [if_neg (by simp [toChunk])] at h; cases h; exact effect_same rfl hne (by simp [paramTarget])

theorem effect_value {k id i : Nat} {e : Event} {st st' : DState} (hc : classify e.path = .stepValue id i)
    (h : armStepValue st id i (toChunk e) = .ok st') : StepsEffect k e st st' := by
  have hne : classify e.path ≠ .script k := by rw [hc]; simp
  obtain ⟨path, what⟩ := e
  have hp := of_classify_stepValue hc
  dsimp only at hp
  subst hp
  unfold armStepValue at h
  have other : ∀ {r : Res DState}, r = .ok st' → r = (if st.file.scripts.contains id then return st else .error .unwrap) → st' = st := by
    intro r h h2
    rw [h2] at h
    split at h <;> cases h
    rfl
  cases what with
  | kv n b =>
    split at h
    · rename_i hn
      have hn : n = 5 := by simpa [toChunk] using hn
      subst hn
      rw [show unwrap (toChunk ⟨[17, 5, id, 5, i, 129, 5], .kv 5 b⟩).data = .ok b from rfl, ok_bind] at h
      obtain ⟨t, ht, h⟩ := bind_ok.mp h
      obtain ⟨sc, hsc, h⟩ := bind_ok.mp h
      have hsc := unwrap_ok.mp hsc
      split at h
      · cases h
      · rename_i s hs
        cases h
        refine effect_param rfl (fun hk => stepsIn_setSteps_ne hk _) ?_
        rintro rfl
        refine ⟨s, by rw [stepsIn_of hsc]; exact hs, ?_⟩
        rw [stepsIn_setSteps hsc, stepsIn_of hsc]
        simp [parameterAt, storedText_ok ht]
    · rename_i hn
      have hn : n ≠ 5 := by simpa [toChunk] using hn
      have := other h rfl
      subst this
      exact effect_same rfl hne (by simp [paramTarget, hn])
  | _ =>
    rw [if_neg (by simp [toChunk])] at h
    have := other h rfl
    subst this
    exact effect_same rfl hne (by simp [paramTarget])

theorem meta_steps {k id : Nat} {st : DState} {ch : Chunk} : Gives (fun s => stepsIn k s = stepsIn k st) (armScriptMeta st id ch) := by
  unfold armScriptMeta
  split
  · refine .bind fun d _ => ?_
    split
    · refine .pure ?_
      unfold stepsIn
      dsimp only
      rw [HMap.get_modify]
      split
      · rename_i h; rw [h]; cases st.file.scripts.get id <;> rfl
      · rfl
    · rename_i hn
      refine .pure ?_
      unfold stepsIn
      dsimp only
      rw [HMap.get_insert]
      split
      · rename_i h
        rw [h]
        rw [HMap.contains_eq] at hn
        cases hg : st.file.scripts.get id with
        | none => rfl
        | some sc => rw [hg] at hn; exact absurd rfl hn
      · rfl
  · exact .pure rfl

theorem event_steps {p : Profile} {k : Nat} {e : Event} {st st' : DState} (h : edispatch p st e = .ok st') : StepsEffect k e st st' := by
  by_cases hs : ∃ id, classify e.path = .script id
  · obtain ⟨id, hc⟩ := hs
    unfold edispatch dispatch at h
    rw [hc] at h
    refine ⟨fun _ => script_event hc h, fun id' i ht => ?_⟩
    rcases paramTarget_place ht with h1 | h1 | h1 <;> rw [hc] at h1 <;> cases h1
  by_cases hp : paramTarget e = none
  · by_cases hx : (∃ id i, classify e.path = .stepName id i) ∨ (∃ id i, classify e.path = .stepExpr id i) ∨ ∃ id i, classify e.path = .stepValue id i
    · unfold edispatch dispatch at h
      rcases hx with ⟨id, i, hc⟩ | ⟨id, i, hc⟩ | ⟨id, i, hc⟩ <;> rw [hc] at h
      · exact effect_name hc h
      · exact effect_expr hc h
      · exact effect_value hc h
    · refine effect_same ?_ (fun hc => hs ⟨k, hc⟩) hp
      have key : Gives (fun s => stepsIn k s = stepsIn k st) (edispatch p st e) := by
        unfold edispatch dispatch
        cases hc : classify e.path with
        | script id => exact absurd ⟨id, hc⟩ hs
        | stepName a b => exact absurd (.inl ⟨a, b, hc⟩) hx
        | stepExpr a b => exact absurd (.inr (.inl ⟨a, b, hc⟩)) hx
        | stepValue a b => exact absurd (.inr (.inr ⟨a, b, hc⟩)) hx
        | scriptMeta d => exact meta_steps
        | other => exact .ok rfl
        | tableMeta d => dsimp only; unfold armTableMeta; gives
        | field d f => dsimp only; unfold armField; gives
        | relationship => dsimp only; unfold armRelationship; gives
        | occurrence => dsimp only; unfold armOccurrence; gives
        | join => dsimp only; unfold armJoin; gives
        | layout => dsimp only; unfold armLayout; gives
        | segment => dsimp only; unfold armSegments; gives
        | sourceNames => dsimp only; unfold armSourceNames; gives
        | source => dsimp only; unfold armSource; gives
      exact key st' h
  · obtain ⟨⟨id, i⟩, ht⟩ := Option.ne_none_iff_exists'.mp hp
    unfold edispatch dispatch at h
    rcases paramTarget_place ht with hc | hc | hc <;> rw [hc] at h
    · exact effect_name hc h
    · exact effect_expr hc h
    · exact effect_value hc h

end BurnFm
