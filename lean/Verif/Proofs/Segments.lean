import Verif.Proofs.SchemaFile
import Verif.Spec.Segments

/-! Joining the segments of scripts. -/

namespace BurnFm

theorem chunks28_nil : chunks28 [] = [] := by rw [chunks28.eq_def]; rfl

theorem chunks28_cons {b : Bytes} (h : b ≠ []) : chunks28 b = b.take 28 :: chunks28 (b.drop 28) := by
  rw [chunks28.eq_def, dif_neg h]

theorem chunks28_short {b : Bytes} (h : b.length < 28) : (chunks28 b).filter (fun r => 28 ≤ r.length) = [] := by
  by_cases hb : b = []
  · subst hb; rw [chunks28_nil]; rfl
  · rw [chunks28_cons hb, List.drop_eq_nil_of_le (by omega), chunks28_nil]
    simp; omega

theorem chunks28_records : ∀ (n : Nat) (b : Bytes), b.length / 28 = n →
    (chunks28 b).filter (fun r => 28 ≤ r.length) = Spec.records b := by
  intro n
  induction n with
  | zero =>
    intro b h
    rw [chunks28_short (by omega)]
    unfold Spec.records
    rw [h]; rfl
  | succ n ih =>
    intro b h
    have hb : b ≠ [] := by rintro rfl; simp at h
    have hl : 28 ≤ b.length := by omega
    rw [chunks28_cons hb, List.filter_cons_of_pos (by simp; omega), ih (b.drop 28) (by rw [List.length_drop]; omega)]
    unfold Spec.records
    rw [List.length_drop, h, show (b.length - 28) / 28 = n by omega, List.range_succ_eq_map, List.map_cons, List.map_map]
    congr 1
    apply List.map_congr_left
    intro i _
    simp only [Function.comp, List.drop_drop]
    congr 2
    omega

theorem decodeStep_spec {scripts : HMap FScript} {r : Bytes} {o : Option ScriptStep} (h : decodeStep scripts r = .ok o) :
    o = Spec.stepOf instructionMap getPathInt (fun j => (scripts.get j).map (·.name)) r := by
  unfold decodeStep at h
  obtain ⟨b, h1, h⟩ := bind_ok.mp h
  obtain ⟨op, h2, h⟩ := bind_ok.mp h
  have e1 : r.getD 21 0 = b := by rw [List.getD_eq_getElem?_getD, (idx_ok).mp h1]; rfl
  have e2 : instructionMap.getD b.toNat none = op := by rw [List.getD_eq_getElem?_getD, (idx_ok).mp h2]; rfl
  unfold Spec.stepOf
  rw [e1, e2]
  cases op with
  | none => cases h; rfl
  | some op =>
    dsimp only at h
    obtain ⟨sw, h3, h⟩ := bind_ok.mp h
    obtain ⟨l, h4, h⟩ := bind_ok.mp h
    obtain ⟨n, h5, h⟩ := bind_ok.mp h
    cases h
    have e4 : r.getD 0 0 = l := by rw [List.getD_eq_getElem?_getD, (idx_ok).mp h4]; rfl
    rw [slice_ok] at h5
    have e5 : n = (r.take (l.toNat + 1)).drop 2 := by rw [h5.2.2, List.drop_take]
    rw [Option.map_some, e4, ← e5]
    congr 2
    split at h3
    · rename_i hp
      obtain ⟨k, h6, h3⟩ := bind_ok.mp h3
      obtain ⟨sc, h7, h3⟩ := bind_ok.mp h3
      cases h3
      have e6 : r.getD 8 0 = k := by rw [List.getD_eq_getElem?_getD, (idx_ok).mp h6]; rfl
      rw [if_pos hp, e6]
      dsimp only
      rw [(unwrap_ok).mp h7]
      rfl
    · rename_i hp
      cases h3
      rw [if_neg hp]

/-- Steps added to one script, everything else as before. -/
def Adds (k : Nat) (steps : List ScriptStep) (m m' : HMap FScript) : Prop :=
  ∀ j, m'.get j = (m.get j).map fun sc => if j = k then { sc with instructions := sc.instructions ++ steps } else sc

theorem Adds.refl (k : Nat) (m : HMap FScript) : Adds k [] m m := by
  intro j
  cases h : m.get j with
  | none => rfl
  | some sc => simp

theorem Adds.trans {k : Nat} {a b : List ScriptStep} {m m' m'' : HMap FScript} (h1 : Adds k a m m') (h2 : Adds k b m' m'') :
    Adds k (a ++ b) m m'' := by
  intro j
  rw [h2 j, h1 j, Option.map_map]
  congr 1
  funext sc
  simp only [Function.comp]
  split <;> simp

theorem Adds.names {k : Nat} {a : List ScriptStep} {m m' : HMap FScript} (h : Adds k a m m') (j : Nat) :
    (m'.get j).map (·.name) = (m.get j).map (·.name) := by
  rw [h j, Option.map_map]
  congr 1
  funext sc
  simp only [Function.comp]
  split <;> rfl

theorem adds_setSteps {k : Nat} {st : DState} {sc : FScript} (h : st.file.scripts.get k = some sc) (s : ScriptStep) :
    Adds k [s] st.file.scripts (st.setSteps k (sc.instructions ++ [s])).file.scripts := by
  intro j
  unfold DState.setSteps
  dsimp only
  rw [HMap.get_modify]
  by_cases hj : j = k
  · subst hj; simp [h]
  · simp [hj]

theorem assembleScript_spec {k : Nat} {segs : HMap Bytes} {st st' : DState} (h : assembleScript st k segs = .ok st') :
    st'.segments = st.segments ∧ Adds k ((Spec.records ((sortByKey segs).flatMap (·.2))).filterMap
      (Spec.stepOf instructionMap getPathInt fun j => (st.file.scripts.get j).map (·.name))) st.file.scripts st'.file.scripts := by
  unfold assembleScript at h
  rw [← chunks28_records _ _ rfl]
  generalize chunks28 ((sortByKey segs).flatMap (·.2)) = cs at h
  induction cs generalizing st with
  | nil => cases h; exact ⟨rfl, Adds.refl _ _⟩
  | cons c cs ih =>
    rw [List.foldlM_cons] at h
    obtain ⟨u, h1, h2⟩ := bind_ok.mp h
    obtain ⟨i1, i2⟩ := ih h2
    by_cases hc : c.length < 28
    · rw [if_pos hc] at h1
      cases h1
      rw [List.filter_cons_of_neg (by simpa using hc)]
      exact ⟨i1, i2⟩
    · rw [if_neg hc] at h1
      rw [List.filter_cons_of_pos (by simpa using hc)]
      obtain ⟨o, h3, h4⟩ := bind_ok.mp h1
      have h5 := decodeStep_spec h3
      cases o with
      | none =>
        cases h4
        rw [List.filterMap_cons_none h5.symm]
        exact ⟨i1, i2⟩
      | some s =>
        dsimp only at h4
        obtain ⟨sc, h6, h7⟩ := bind_ok.mp h4
        cases h7
        have h8 := adds_setSteps ((unwrap_ok).mp h6) s
        rw [List.filterMap_cons_some h5.symm]
        refine ⟨i1, ?_⟩
        have e : (fun j => ((st.setSteps k (sc.instructions ++ [s])).file.scripts.get j).map (·.name)) =
            fun j => (st.file.scripts.get j).map (·.name) := funext fun j => h8.names j
        rw [e] at i2
        exact h8.trans i2

theorem sortByKey_eq {segs l : HMap Bytes} (hp : l.Perm segs) (hs : l.Pairwise (fun a b => a.1 < b.1)) : sortByKey segs = l := by
  unfold sortByKey
  have h1 : (segs.mergeSort fun a b => decide (a.1 ≤ b.1)).Perm l := (List.mergeSort_perm _ _).trans hp.symm
  have h2 : (segs.mergeSort fun a b => decide (a.1 ≤ b.1)).Pairwise (fun a b => a.1 ≤ b.1) := by
    have := List.pairwise_mergeSort (le := fun (a b : Nat × Bytes) => decide (a.1 ≤ b.1)) (fun a b c => by simp; omega) (fun a b => by simp; omega) segs
    exact this.imp (by simp)
  refine List.Perm.eq_of_pairwise ?_ h2 (hs.imp Nat.le_of_lt) h1
  intro a b ha hb h3 h4
  have hab : a.1 = b.1 := by omega
  have ha' : a ∈ l := h1.mem_iff.mp ha
  have hl : ∀ {l : HMap Bytes}, l.Pairwise (fun a b => a.1 < b.1) → ∀ a ∈ l, ∀ b ∈ l, a.1 = b.1 → a = b := by
    intro l hl
    induction l with
    | nil => simp
    | cons x l ih =>
      obtain ⟨q1, q2⟩ := List.pairwise_cons.mp hl
      intro a ha b hb hab
      rcases List.mem_cons.mp ha with ha | ha <;> rcases List.mem_cons.mp hb with hb | hb
      · rw [ha, hb]
      · have := q1 b hb; rw [ha] at hab; omega
      · have := q1 a ha; rw [hb] at hab; omega
      · exact ih q2 a ha b hb hab
  exact hl hs a ha' b hb hab

/-- If the result is a state, `P` holds of it. -/
def Gives (P : DState → Prop) (r : Res DState) : Prop := ∀ st', r = .ok st' → P st'

theorem Gives.ok {P : DState → Prop} {st : DState} (h : P st) : Gives P (.ok st) := by intro st' e; cases e; exact h
theorem Gives.pure {P : DState → Prop} {st : DState} (h : P st) : Gives P (pure st) := Gives.ok h
theorem Gives.err {P : DState → Prop} {e : Panic} : Gives P (.error e) := by intro st' h; cases h
theorem Gives.bind {α : Type} {P : DState → Prop} {x : Res α} {g : α → Res DState} (h : ∀ a, x = .ok a → Gives P (g a)) : Gives P (x >>= g) := by
  intro st' e
  obtain ⟨a, h1, e⟩ := bind_ok.mp e
  exact h a h1 st' e
theorem Gives.fold {α : Type} {P : DState → Prop} {l : List α} {f : DState → α → Res DState} {s : DState}
    (h : ∀ s a, P s → Gives P (f s a)) (hs : P s) : Gives P (l.foldlM f s) := by
  induction l generalizing s with
  | nil => exact .ok hs
  | cons a l ih =>
    rw [List.foldlM_cons]
    intro st' e
    obtain ⟨u, h1, h2⟩ := bind_ok.mp e
    exact ih (h s a hs u h1) st' h2

macro "gives" : tactic => `(tactic| repeat' (first
  | exact Gives.err
  | exact Gives.ok rfl
  | exact Gives.pure rfl
  | exact Gives.ok (by assumption)
  | exact Gives.pure (by assumption)
  | (refine Gives.bind (fun _ _ => ?_))
  | split
  | dsimp only))

theorem armScript_segments {st : DState} {id : Nat} {ch : Chunk} : Gives (fun s => s.segments = st.segments) (armScript st id ch) := by
  unfold armScript
  split
  · exact .pure rfl
  · split
    · refine .bind fun d _ => .fold (fun s b hs => ?_) rfl
      gives
    · split
      · refine .bind fun d _ => .fold (fun s b hs => ?_) rfl
        gives
      · exact .pure rfl

theorem dispatch_segments_other {p : Profile} {st st' : DState} {path : DirPath} {ch : Chunk}
    (h : dispatch p st path ch = .ok st') (h1 : ∀ d, classify path ≠ .segment d) : st'.segments = st.segments := by
  have key : Gives (fun s => s.segments = st.segments) (dispatch p st path ch) := by
    unfold dispatch
    cases hc : classify path with
    | segment d => exact absurd hc (h1 d)
    | script id => exact armScript_segments
    | other => exact .ok rfl
    | tableMeta d => dsimp only; unfold armTableMeta; gives
    | field d f => dsimp only; unfold armField; gives
    | relationship => dsimp only; unfold armRelationship; gives
    | occurrence => dsimp only; unfold armOccurrence; gives
    | join => dsimp only; unfold armJoin; gives
    | layout => dsimp only; unfold armLayout; gives
    | stepExpr => dsimp only; unfold armStepExpr; gives
    | stepName => dsimp only; unfold armStepName; gives
    | stepValue => dsimp only; unfold armStepValue; gives
    | scriptMeta => dsimp only; unfold armScriptMeta; gives
    | sourceNames => dsimp only; unfold armSourceNames; gives
    | source => dsimp only; unfold armSource; gives
  exact key st' h

/-- Script `k` has no steps yet. -/
def NoSteps (k : Nat) (m : HMap FScript) : Prop := ∀ sc, m.get k = some sc → sc.instructions = []

theorem noSteps_setSteps {k : Nat} {st : DState} (h : NoSteps k st.file.scripts) {j : Nat} {steps : List ScriptStep}
    (hs : j = k → steps = []) : NoSteps k (st.setSteps j steps).file.scripts := by
  intro sc hsc
  unfold DState.setSteps at hsc
  dsimp only at hsc
  rw [HMap.get_modify] at hsc
  by_cases hj : k = j
  · subst hj
    rw [if_pos rfl] at hsc
    cases hg : st.file.scripts.get k with
    | none => rw [hg] at hsc; cases hsc
    | some sc' => rw [hg] at hsc; cases hsc; exact hs rfl
  · rw [if_neg hj] at hsc
    exact h sc hsc

theorem noSteps_find {k : Nat} {m : HMap FScript} (h : NoSteps k m) {j : Nat} {sc : FScript} (hg : unwrap (m.get j) = .ok sc)
    {f : ScriptStep → Bool} {i : ScriptStep} (hf : sc.instructions.find? f = some i) : j ≠ k := by
  rintro rfl
  rw [h sc ((unwrap_ok).mp hg)] at hf
  cases hf

theorem noSteps_stepExpr {k : Nat} {st : DState} {script step : Nat} {ch : Chunk} (hn : NoSteps k st.file.scripts) :
    Gives (fun s => NoSteps k s.file.scripts) (armStepExpr st script step ch) := by
  unfold armStepExpr
  split
  · refine .bind fun sc hsc => ?_
    split
    · exact .err
    · rename_i i hi
      have hne := noSteps_find hn hsc hi
      split
      · exact .pure (noSteps_setSteps hn fun e => absurd e hne)
      · split
        · refine .bind fun _ _ => .bind fun _ _ => .pure (noSteps_setSteps hn fun e => absurd e hne)
        · exact .pure hn
  · exact .pure hn

theorem noSteps_stepName {k : Nat} {st : DState} {script step : Nat} {ch : Chunk} (hn : NoSteps k st.file.scripts) :
    Gives (fun s => NoSteps k s.file.scripts) (armStepName st script step ch) := by
  unfold armStepName
  split
  · refine .bind fun sc hsc => ?_
    split
    · exact .err
    · rename_i i hi
      have hne := noSteps_find hn hsc hi
      split
      · exact .pure (noSteps_setSteps hn fun e => absurd e hne)
      · exact .pure hn
  · exact .pure hn

theorem noSteps_stepValue {k : Nat} {st : DState} {script step : Nat} {ch : Chunk} (hn : NoSteps k st.file.scripts) :
    Gives (fun s => NoSteps k s.file.scripts) (armStepValue st script step ch) := by
  unfold armStepValue
  split
  · refine .bind fun _ _ => .bind fun _ _ => .bind fun sc hsc => ?_
    split
    · exact .err
    · rename_i i hi
      have hne := noSteps_find hn hsc hi
      exact .pure (noSteps_setSteps hn fun e => absurd e hne)
  · split
    · exact .pure hn
    · exact .err

theorem noSteps_meta {k : Nat} {st : DState} {id : Nat} {ch : Chunk} (hn : NoSteps k st.file.scripts) :
    Gives (fun s => NoSteps k s.file.scripts) (armScriptMeta st id ch) := by
  unfold armScriptMeta
  split
  · refine .bind fun d _ => ?_
    split
    · refine .pure ?_
      intro sc hsc
      dsimp only at hsc
      rw [HMap.get_modify] at hsc
      split at hsc
      · rename_i e
        subst e
        cases hg : st.file.scripts.get k with
        | none => rw [hg] at hsc; cases hsc
        | some sc' => rw [hg] at hsc; cases hsc; exact hn sc' hg
      · exact hn sc hsc
    · refine .pure ?_
      intro sc hsc
      dsimp only at hsc
      rw [HMap.get_insert] at hsc
      split at hsc
      · cases hsc; rfl
      · exact hn sc hsc
  · exact .pure hn

theorem noSteps_script {k : Nat} {st : DState} {id : Nat} {ch : Chunk} (hn : NoSteps k st.file.scripts)
    (h : id = k → ch.segmentIdx ≠ some 4 ∧ ch.refSimple ≠ some 4) :
    Gives (fun s => NoSteps k s.file.scripts) (armScript st id ch) := by
  unfold armScript
  split
  · exact .pure hn
  · split
    · rename_i h4
      have hne : id ≠ k := fun e => (h e).1 h4
      refine .bind fun d _ => .fold (fun s b hs => ?_) hn
      split
      · refine .bind fun o _ => ?_
        split
        · exact .pure hs
        · exact .bind fun _ _ => .bind fun _ _ => .pure (noSteps_setSteps hs fun e => absurd e hne)
      · exact .pure hs
    · split
      · rename_i h4
        have hne : id ≠ k := fun e => (h e).2 h4
        refine .bind fun d _ => .fold (fun s b hs => ?_) hn
        split
        · refine .bind fun o _ => ?_
          split
          · exact .pure hs
          · exact .bind fun _ _ => .pure (noSteps_setSteps hs fun e => absurd e hne)
        · exact .pure hs
      · exact .pure hn

theorem noSteps_dispatch {k : Nat} {p : Profile} {st st' : DState} {path : DirPath} {ch : Chunk}
    (h : dispatch p st path ch = .ok st') (hn : NoSteps k st.file.scripts)
    (h4 : classify path = .script k → ch.segmentIdx ≠ some 4 ∧ ch.refSimple ≠ some 4) : NoSteps k st'.file.scripts := by
  have key : Gives (fun s => NoSteps k s.file.scripts) (dispatch p st path ch) := by
    unfold dispatch
    cases hc : classify path with
    | segment d => dsimp only; unfold armSegments; gives
    | script id => exact noSteps_script hn fun e => h4 (e ▸ hc)
    | other => exact .ok hn
    | tableMeta d => dsimp only; unfold armTableMeta; gives
    | field d f => dsimp only; unfold armField; gives
    | relationship => dsimp only; unfold armRelationship; gives
    | occurrence => dsimp only; unfold armOccurrence; gives
    | join => dsimp only; unfold armJoin; gives
    | layout => dsimp only; unfold armLayout; gives
    | stepExpr => exact noSteps_stepExpr hn
    | stepName => exact noSteps_stepName hn
    | stepValue => exact noSteps_stepValue hn
    | scriptMeta => exact noSteps_meta hn
    | sourceNames => dsimp only; unfold armSourceNames; gives
    | source => dsimp only; unfold armSource; gives
  exact key st' h

theorem take2_eq {path : List Nat} {a b : Nat} (h : path.length = 4) (h2 : path.take 2 = [a, b]) :
    path = [a, b, path.getD 2 0, path.getD 3 0] := by
  match path, h with
  | [x, y, z, w], _ => simp at h2; simp [h2]

theorem of_classify_segment {path : DirPath} {k : Nat} (h : classify path = .segment k) : path = [17, 5, k, 4] := by
  unfold classify at h
  dsimp only at h
  repeat' (refine ite_elim h (fun hx h => ?_) (fun h => ?_))
  all_goals try (cases h; done)
  cases h
  have := take2_eq hx.1 hx.2.1
  rw [hx.2.2] at this
  exact this

theorem classify_segment (k : Nat) : classify [17, 5, k, 4] = .segment k := by simp [classify]

theorem of_classify_script {path : DirPath} {k : Nat} (h : classify path = .script k) :
    path.take 3 = [17, 5, k] ∧ path ≠ [17, 5, k, 4] := by
  refine ⟨?_, fun e => by rw [e, classify_segment] at h; cases h⟩
  unfold classify at h
  dsimp only at h
  repeat' (refine ite_elim h (fun hx h => ?_) (fun h => ?_))
  all_goals try (cases h; done)
  cases h
  match path, hx with
  | x :: y :: z :: l, hx => simp at hx; simp [hx]

theorem Shape.segCases {ch : Chunk} (h : Shape ch) :
    (ch.ctype = .pathPush ∧ meaning ch = some .push) ∨
    (ch.ctype = .dataSegment ∧ ∃ n d, ch.segmentIdx = some n ∧ ch.data = some d ∧ meaning ch = some (.segment n d)) ∨
    (ch.ctype ≠ .pathPush ∧ ch.ctype ≠ .dataSegment ∧ ch.segmentIdx = none ∧ meaning ch ≠ some .push ∧ ∀ k v, meaning ch ≠ some (.segment k v)) := by
  obtain ⟨h1, h2, h3, h4⟩ := h
  unfold meaning
  cases hc : ch.ctype <;> cases hr : ch.refSimple <;> cases hd : ch.data <;> cases hs : ch.segmentIdx <;> cases hl : ch.refData <;>
    simp_all

theorem Shape.refSimple {ch : Chunk} (h : Shape ch) {k : Nat} (hk : ch.refSimple = some k) : ∃ v, meaning ch = some (.kv k v) := by
  obtain ⟨h1, h2, h3, h4⟩ := h
  have hc := h1.mpr (by rw [hk]; simp)
  unfold meaning
  cases hd : ch.data <;> simp_all

/-- What an event does to the segments of script `k`. -/
def segStep (k : Nat) (m : Option (HMap Bytes)) (e : Spec.Event) : Option (HMap Bytes) :=
  if Spec.describesSegments k e then
    match e.what with
    | .push => some (m.getD [])
    | .segment n d => m.map fun s => s.insert n.toNat d
    | _ => m
  else m

theorem describesSegments_path {k : Nat} {e : Spec.Event} (h : e.path ≠ [17, 5, k, 4]) : Spec.describesSegments k e = false := by
  unfold Spec.describesSegments
  simp [h]

theorem dispatch_segments {p : Profile} {st st' : DState} {ch : Chunk} (k : Nat) (hs : Shape ch) (h : dispatch p st ch.path ch = .ok st')
    (hn : (st.segments.map (·.1)).Nodup) :
    (st'.segments.map (·.1)).Nodup ∧ st'.segments.get k = match meaning ch with
      | none => st.segments.get k
      | some w => segStep k (st.segments.get k) ⟨ch.path, w⟩ := by
  by_cases hc : ∃ d, classify ch.path = .segment d
  · obtain ⟨d, hc⟩ := hc
    have hp := of_classify_segment hc
    unfold dispatch at h
    rw [hc] at h
    dsimp only at h
    unfold armSegments at h
    have hdk : d ≠ k → ∀ w, Spec.describesSegments k ⟨ch.path, w⟩ = false := fun hne w =>
      describesSegments_path (by rw [hp]; simpa using hne)
    rcases hs.segCases with ⟨h1, h2⟩ | ⟨h1, n, v, h2, h3, h4⟩ | ⟨h1, h2, h3, h4, h5⟩
    · rw [if_pos h1] at h
      rw [h2]
      dsimp only
      split at h
      · rename_i hx
        cases h
        refine ⟨hn, ?_⟩
        unfold segStep
        split
        · rename_i hdesc
          dsimp only
          have : d = k := Classical.byContradiction fun hne => by rw [hdk hne] at hdesc; cases hdesc
          subst this
          rw [HMap.contains_eq] at hx
          cases hg : st.segments.get d with
          | none => rw [hg] at hx; cases hx
          | some m => rfl
        · rfl
      · rename_i hx
        cases h
        refine ⟨HMap.nodup_insert _ hn, ?_⟩
        dsimp only
        rw [HMap.get_insert]
        unfold segStep
        by_cases hdk' : d = k
        · subst hdk'
          rw [if_pos rfl, if_pos (by simp [Spec.describesSegments, hp])]
          dsimp only
          rw [HMap.contains_eq] at hx
          cases hg : st.segments.get d with
          | none => rfl
          | some m => rw [hg] at hx; exact absurd rfl hx
        · rw [if_neg (fun e => hdk' e.symm), hdk hdk']
          simp
    · rw [if_neg (by rw [h1]; simp), if_pos h1, h2] at h
      rw [h4]
      obtain ⟨n', h5, h⟩ := bind_ok.mp h
      cases h5
      split at h
      · rename_i hx
        obtain ⟨v', h6, h⟩ := bind_ok.mp h
        rw [h3] at h6
        cases h6
        cases h
        refine ⟨by dsimp only; rw [HMap.keys_modify]; exact hn, ?_⟩
        dsimp only
        rw [HMap.get_modify]
        unfold segStep
        by_cases hdk' : d = k
        · subst hdk'
          rw [if_pos rfl, if_pos (by simp [Spec.describesSegments, hp])]
        · rw [if_neg (fun e => hdk' e.symm), hdk hdk']
          simp
      · cases h
    · rw [if_neg h1, if_neg h2] at h
      cases h
      refine ⟨hn, ?_⟩
      cases hm : meaning ch with
      | none => rfl
      | some w =>
        dsimp only
        unfold segStep
        rw [hm] at h4 h5
        cases w <;> simp_all
  · have h1 := dispatch_segments_other h (fun d hd => hc ⟨d, hd⟩)
    rw [h1]
    refine ⟨hn, ?_⟩
    cases hm : meaning ch with
    | none => rfl
    | some w =>
      dsimp only
      unfold segStep
      rw [describesSegments_path (fun e => hc ⟨k, by rw [show ch.path = [17, 5, k, 4] from e, classify_segment]⟩)]
      simp

theorem run_segments {p : Profile} {chs : List Chunk} (k : Nat) (hs : ∀ ch ∈ chs, Shape ch)
    (h4 : ∀ e ∈ eventsOf chs, Spec.givesSteps k e = false) :
    ∀ {st st' : DState}, runChunks p st chs = .ok st' → (st.segments.map (·.1)).Nodup → NoSteps k st.file.scripts →
      (st'.segments.map (·.1)).Nodup ∧ NoSteps k st'.file.scripts ∧
      st'.segments.get k = (eventsOf chs).foldl (segStep k) (st.segments.get k) := by
  induction chs with
  | nil => intro st st' h hn h0; cases h; exact ⟨hn, h0, rfl⟩
  | cons ch chs ih =>
    intro st st' h hn h0
    rw [runChunks_cons] at h
    obtain ⟨u, h1, h2⟩ := bind_ok.mp h
    have e : eventsOf (ch :: chs) = ((meaning ch).map fun w => (⟨ch.path, w⟩ : Spec.Event)).toList ++ eventsOf chs := by
      unfold eventsOf
      rw [List.filterMap_cons]
      cases meaning ch <;> rfl
    have hsh := hs ch (by simp)
    obtain ⟨g1, g2⟩ := dispatch_segments k hsh h1 hn
    have g3 : NoSteps k u.file.scripts := by
      refine noSteps_dispatch h1 h0 fun hc => ?_
      obtain ⟨c1, c2⟩ := of_classify_script hc
      constructor
      · intro hx
        rcases hsh.segCases with ⟨q1, q2⟩ | ⟨q1, n, v, q2, q3, q4⟩ | ⟨q1, q2, q3, q4, q5⟩
        · have := hsh.seg.mpr (by rw [hx]; simp)
          rw [q1] at this; cases this
        · rw [q2] at hx
          cases hx
          have := h4 ⟨ch.path, .segment 4 v⟩ (by rw [e, q4]; simp)
          simp [Spec.givesSteps, c1, c2] at this
        · rw [q3] at hx; cases hx
      · intro hx
        obtain ⟨v, hv⟩ := hsh.refSimple hx
        have := h4 ⟨ch.path, .kv 4 v⟩ (by rw [e, hv]; simp)
        simp [Spec.givesSteps, c1, c2] at this
    obtain ⟨i1, i2, i3⟩ := ih (fun c hc => hs c (by simp [hc])) (fun e' he => h4 e' (by rw [e]; exact List.mem_append_right _ he)) h2 g1 g3
    refine ⟨i1, i2, ?_⟩
    rw [i3, g2, e, List.foldl_append]
    cases meaning ch <;> rfl

theorem segStep_filter (k : Nat) (es : List Spec.Event) : ∀ m : Option (HMap Bytes),
    es.foldl (segStep k) m = (es.filter (Spec.describesSegments k)).foldl (segStep k) m := by
  induction es with
  | nil => intro m; rfl
  | cons e es ih =>
    intro m
    rw [List.foldl_cons, ih, List.filter_cons]
    split
    · rfl
    · rename_i h
      unfold segStep
      rw [if_neg h]

theorem segStep_all (k : Nat) (segs : List (UInt8 × Bytes)) : ∀ m : HMap Bytes,
    (m ++ segs.map fun s => (s.1.toNat, s.2)).Pairwise (fun a b => a.1 ≠ b.1) →
    (segs.map fun s => (⟨[17, 5, k, 4], .segment s.1 s.2⟩ : Spec.Event)).foldl (segStep k) (some m) =
      some (m ++ segs.map fun s => (s.1.toNat, s.2)) := by
  induction segs with
  | nil => intro m _; simp
  | cons s segs ih =>
    intro m hp
    rw [List.map_cons, List.foldl_cons]
    have hm : HMap.contains m s.1.toNat = false := by
      unfold HMap.contains
      rw [List.any_eq_false]
      intro x hx
      have := (List.pairwise_append.mp hp).2.2 x hx (s.1.toNat, s.2) (by simp)
      simpa using this
    have e : segStep k (some m) ⟨[17, 5, k, 4], .segment s.1 s.2⟩ = some (m ++ [(s.1.toNat, s.2)]) := by
      unfold segStep
      rw [if_pos (by simp [Spec.describesSegments])]
      dsimp only [Option.map_some]
      rw [HMap.insert_new hm]
    rw [e, ih (m ++ [(s.1.toNat, s.2)]) (by simpa using hp)]
    simp

/-- The steps of a script according to its segments. -/
def stepsOf (names : Nat → Option Str) (segs : HMap Bytes) : List ScriptStep :=
  (Spec.records ((sortByKey segs).flatMap (·.2))).filterMap (Spec.stepOf instructionMap getPathInt names)

theorem assemble_fold {names : Nat → Option Str} (L : HMap (HMap Bytes)) : ∀ {st st' : DState},
    L.foldlM (fun s e => assembleScript s e.1 e.2) st = .ok st' → (L.map (·.1)).Nodup →
    (∀ j, (st.file.scripts.get j).map (·.name) = names j) →
    (∀ j, (st'.file.scripts.get j).map (·.name) = names j) ∧
    ∀ k, (st'.file.scripts.get k).map (·.instructions) =
      (st.file.scripts.get k).map fun sc => sc.instructions ++ ((L.get k).map (stepsOf names)).getD [] := by
  induction L with
  | nil =>
    intro st st' h _ hnm
    cases h
    refine ⟨hnm, fun k => ?_⟩
    rw [HMap.get_nil]
    simp
  | cons e L ih =>
    intro st st' h hn hnm
    rw [List.foldlM_cons] at h
    obtain ⟨u, h1, h2⟩ := bind_ok.mp h
    obtain ⟨_, h4⟩ := assembleScript_spec h1
    rw [List.map_cons, List.nodup_cons] at hn
    have hu : ∀ j, (u.file.scripts.get j).map (·.name) = names j := fun j => (h4.names j).trans (hnm j)
    obtain ⟨i1, i2⟩ := ih h2 hn.2 hu
    refine ⟨i1, fun k => ?_⟩
    rw [i2 k, h4 k, Option.map_map]
    have hnames : (fun j => (st.file.scripts.get j).map (·.name)) = names := funext hnm
    rw [hnames, HMap.get_cons]
    congr 1
    funext sc
    simp only [Function.comp]
    by_cases hk : k = e.1
    · subst hk
      have : HMap.get L e.1 = none := by
        cases hg : HMap.get L e.1 with
        | none => rfl
        | some v =>
          have : HMap.contains L e.1 = true := by rw [HMap.contains_eq, hg]; rfl
          exact absurd ((HMap.contains_iff L e.1).mp this) hn.1
      rw [this]
      simp [stepsOf]
    · have hk' : ¬ e.1 = k := fun e => hk e.symm
      simp [hk, hk']

end BurnFm
