import Verif.Proofs.ScriptProvenance
import Mathlib.Data.List.InsertIdx
import Mathlib.Data.List.Nodup

/-! The steps of decompiled scripts: whole runs. -/

namespace BurnFm
open Spec

theorem stepsSaid_snoc (dec : Bytes → Str) (step : (Nat → Option Str) → Bytes → Option ScriptStep) (k : Nat) (es : List Event) (e : Event) :
    ∀ (before : List Event) (kept : List ScriptStep), stepsSaid dec step k before kept (es ++ [e]) =
      placed (step (nameSaid dec (before ++ es))) k e (stepsSaid dec step k before kept es) := by
  induction es with
  | nil => intro before kept; simp [stepsSaid]
  | cons a es ih =>
    intro before kept
    rw [List.cons_append, stepsSaid, ih, stepsSaid]
    simp

theorem run_snoc {p : Profile} {es : List Event} {e : Event} {st' : DState} (h : runEvents p {} (es ++ [e]) = .ok st') :
    ∃ st, runEvents p {} es = .ok st ∧ edispatch p st e = .ok st' := by
  rw [runEvents_append] at h
  obtain ⟨u, h1, h2⟩ := bind_ok.mp h
  rw [runEvents_cons] at h2
  obtain ⟨v, h3, h4⟩ := bind_ok.mp h2
  cases h4
  exact ⟨u, h1, h3⟩

theorem run_nameSaid {p : Profile} {es : List Event} {st : DState} (h : runEvents p {} es = .ok st) :
    (fun j => scriptName j st) = nameSaid fmStringDecrypt es := funext fun _ => run_names_said es h

/-- The opcode and the number of a step. -/
def stepCore (s : ScriptStep) : Instruction × Nat := (s.opcode, s.index)

theorem pushSwitch_core (f : ScriptStep → Bool) (t : Str) (l : List ScriptStep) : (pushSwitch f t l).map stepCore = l.map stepCore := by
  induction l with
  | nil => rfl
  | cons x l ih =>
    unfold pushSwitch
    split
    · rfl
    · rw [List.map_cons, ih, List.map_cons]

theorem foldInsert_core (news : List ScriptStep) : ∀ {l l' : List ScriptStep}, l.map stepCore = l'.map stepCore →
    (news.foldl (fun l s => l.insertIdx s.index s) l).map stepCore = (news.foldl (fun l s => l.insertIdx s.index s) l').map stepCore := by
  induction news with
  | nil => intro l l' h; exact h
  | cons s news ih =>
    intro l l' h
    exact ih (by rw [List.map_insertIdx, List.map_insertIdx, h])

theorem placed_core {step : Bytes → Option ScriptStep} {k : Nat} {e : Event} {l l' : List ScriptStep} (h : l.map stepCore = l'.map stepCore) :
    (placed step k e l).map stepCore = (placed step k e l').map stepCore := by
  unfold placed
  split
  · split
    · split
      · rw [List.map_append, List.map_append, h]
      · exact h
    · split
      · exact foldInsert_core _ h
      · exact h
    · exact h
  · exact h

theorem param_not_code {e : Event} {k id i : Nat} (h : paramTarget e = some (id, i)) : classify e.path ≠ .script k := by
  rcases paramTarget_place h with hc | hc | hc <;> rw [hc] <;> simp

/-- Opcodes and numbers of the steps outside segments. -/
theorem run_core {p : Profile} {k : Nat} (es : List Event) : ∀ {st : DState}, runEvents p {} es = .ok st →
    (stepsIn k st).map stepCore = (stepsSaid fmStringDecrypt readStep k [] [] es).map stepCore := by
  induction es using List.reverseRecOn with
  | nil => intro st h; cases h; rfl
  | append_singleton es e ih =>
    intro st' h
    obtain ⟨st, h1, h2⟩ := run_snoc h
    have hi := ih h1
    obtain ⟨q1, q2⟩ := event_steps (k := k) h2
    rw [stepsSaid_snoc, List.nil_append]
    cases ht : paramTarget e with
    | none => rw [q1 ht, run_nameSaid h1]; exact placed_core hi
    | some t =>
      obtain ⟨id, i⟩ := t
      obtain ⟨r1, r2⟩ := q2 id i ht
      rw [placed_other (param_not_code ht), ← hi]
      by_cases hk : k = id
      · obtain ⟨s, _, h3⟩ := r2 hk
        rw [h3]
        split
        · rfl
        · exact pushSwitch_core _ _ _
      · rw [r1 hk]

/-! Parameters -/

theorem foldInsert_sublist (news : List ScriptStep) (l : List ScriptStep) :
    l.Sublist (news.foldl (fun l s => l.insertIdx s.index s) l) := by
  induction news generalizing l with
  | nil => exact List.Sublist.refl _
  | cons s news ih => exact (List.sublist_insertIdx _ _ _).trans (ih _)

theorem placed_sublist {step : Bytes → Option ScriptStep} {k : Nat} {e : Event} {l : List ScriptStep} : l.Sublist (placed step k e l) := by
  unfold placed
  split
  · split
    · split
      · exact List.sublist_append_left _ _
      · exact List.Sublist.refl _
    · split
      · exact foldInsert_sublist _ _
      · exact List.Sublist.refl _
    · exact List.Sublist.refl _
  · exact List.Sublist.refl _

/-- `w` keeps numbers and does nothing to steps whose number is not in `l`. -/
structure Local (w : ScriptStep → ScriptStep) (l : List ScriptStep) : Prop where
  idle : ∀ s, s.index ∉ l.map (·.index) → w s = s

theorem Local.mono {w : ScriptStep → ScriptStep} {l l' : List ScriptStep} (h : Local w l) (hs : l.Sublist l') : Local w l' :=
  ⟨fun s hn => h.idle s fun hm => hn ((hs.map _).subset hm)⟩

theorem foldInsert_local {w : ScriptStep → ScriptStep} (news : List ScriptStep) : ∀ {l : List ScriptStep}, Local w l →
    ((news.foldl (fun l s => l.insertIdx s.index s) l).map (·.index)).Nodup →
    news.foldl (fun l s => l.insertIdx s.index s) (l.map w) = (news.foldl (fun l s => l.insertIdx s.index s) l).map w := by
  induction news with
  | nil => intro l _ _; rfl
  | cons s news ih =>
    intro l hl hn
    rw [List.foldl_cons] at hn
    rw [List.foldl_cons, List.foldl_cons]
    have e : (l.map w).insertIdx s.index s = (l.insertIdx s.index s).map w := by
      by_cases hb : s.index ≤ l.length
      · have h1 := List.Sublist.nodup ((foldInsert_sublist news (l.insertIdx s.index s)).map (·.index)) hn
        have h2 : (l.insertIdx s.index s).Perm (s :: l) := List.perm_insertIdx _ _ hb
        have h3 := (h2.map (·.index)).nodup_iff.mp h1
        rw [List.map_cons, List.nodup_cons] at h3
        rw [List.map_insertIdx, hl.idle s h3.1]
      · rw [List.insertIdx_of_length_lt (by simpa using hb), List.insertIdx_of_length_lt (by simpa using hb)]
    rw [e]
    exact ih (hl.mono (List.sublist_insertIdx _ _ _)) hn

theorem placed_local {w : ScriptStep → ScriptStep} {step : Bytes → Option ScriptStep} {k : Nat} {e : Event} {l : List ScriptStep}
    (hl : Local w l) (hn : ((placed step k e l).map (·.index)).Nodup) : placed step k e (l.map w) = (placed step k e l).map w := by
  unfold placed at hn ⊢
  split
  · rename_i hc
    rw [if_pos hc] at hn
    cases hw : e.what with
    | kv n b =>
      rw [hw] at hn
      dsimp only at hn ⊢
      split
      · rename_i h4
        rw [if_pos h4, List.map_append] at hn
        rw [List.map_append]
        congr 1
        generalize ((pieces b).filter fun r => 21 ≤ r.length).filterMap step = news at hn ⊢
        rw [List.map_congr_left (g := id), List.map_id]
        intro s hs
        refine hl.idle s fun hm => ?_
        exact (List.nodup_append.mp hn).2.2 _ hm _ (List.mem_map_of_mem hs) rfl
      · rfl
    | segment n b =>
      rw [hw] at hn
      dsimp only at hn ⊢
      split
      · rename_i h4
        rw [if_pos h4] at hn
        exact foldInsert_local _ hl hn
      · rfl
    | _ => rfl
  · rfl

/-- The steps of script `k` with the parameters given so far. -/
abbrev addParams (es : List Event) (k : Nat) : ScriptStep → ScriptStep := withParameters fmStringDecrypt storedText es k

theorem addParams_snoc {es : List Event} {e : Event} {k : Nat} {s : ScriptStep} :
    addParams (es ++ [e]) k s = match parameterAt fmStringDecrypt storedText k s.index s.opcode e with
      | none => addParams es k s
      | some t => { addParams es k s with switches := (addParams es k s).switches ++ [t] } := by
  unfold addParams withParameters
  rw [List.filterMap_append]
  cases h : parameterAt fmStringDecrypt storedText k s.index s.opcode e <;> simp [h]

theorem pushSwitch_unique {i : Nat} {t : Str} {w w' : ScriptStep → ScriptStep} (hw : ∀ s, (w s).index = s.index) : ∀ (l : List ScriptStep),
    (l.map (·.index)).Nodup → (∀ s ∈ l, s.index = i → w' s = { w s with switches := (w s).switches ++ [t] }) →
    (∀ s ∈ l, s.index ≠ i → w' s = w s) → pushSwitch (fun x => x.index == i) t (l.map w) = l.map w' := by
  intro l
  induction l with
  | nil => intro _ _ _; rfl
  | cons s l ih =>
    intro hn h1 h2
    rw [List.map_cons, List.nodup_cons] at hn
    rw [List.map_cons, pushSwitch]
    by_cases hs : s.index = i
    · rw [if_pos (by rw [hw, hs]; exact beq_self_eq_true i), List.map_cons, h1 s (by simp) hs]
      congr 1
      refine List.map_congr_left fun x hx => (h2 x (by simp [hx]) fun hxi => hn.1 ?_).symm
      rw [hs, ← hxi]
      exact List.mem_map_of_mem hx
    · rw [if_neg (by rw [hw]; simpa using hs), List.map_cons, h2 s (by simp) hs,
        ih hn.2 (fun x hx => h1 x (by simp [hx])) (fun x hx => h2 x (by simp [hx]))]

theorem index_inj {l : List ScriptStep} (h : (l.map (·.index)).Nodup) {s s' : ScriptStep} (hs : s ∈ l) (hs' : s' ∈ l)
    (he : s.index = s'.index) : s = s' := by
  induction l with
  | nil => cases hs
  | cons x l ih =>
    rw [List.map_cons, List.nodup_cons] at h
    rcases List.mem_cons.mp hs with h1 | h1 <;> rcases List.mem_cons.mp hs' with h2 | h2
    · rw [h1, h2]
    · exact absurd (List.mem_map.mpr ⟨s', h2, by rw [← he, h1]⟩) h.1
    · exact absurd (List.mem_map.mpr ⟨s, h1, by rw [he, h2]⟩) h.1
    · exact ih h.2 h1 h2

theorem addParams_local {es : List Event} {k : Nat} {l : List ScriptStep}
    (h : ∀ e ∈ es, ∀ i, paramTarget e = some (k, i) → i ∈ l.map (·.index)) : Local (addParams es k) l := by
  refine ⟨fun s hn => ?_⟩
  have : es.filterMap (parameterAt fmStringDecrypt storedText k s.index s.opcode) = [] := by
    rw [List.filterMap_eq_nil_iff]
    intro e he
    cases hp : parameterAt fmStringDecrypt storedText k s.index s.opcode e with
    | none => rfl
    | some t => exact absurd (h e he _ (paramTarget_at (by rw [hp]; simp))) hn
  unfold addParams withParameters
  rw [this, List.append_nil]

/-- The steps outside segments, with their parameters. -/
theorem run_params {p : Profile} {k : Nat} (es : List Event) : ∀ {st : DState}, runEvents p {} es = .ok st →
    ((stepsSaid fmStringDecrypt readStep k [] [] es).map (·.index)).Nodup →
    stepsIn k st = (stepsSaid fmStringDecrypt readStep k [] [] es).map (addParams es k) ∧
    ∀ e ∈ es, ∀ i, paramTarget e = some (k, i) → i ∈ (stepsSaid fmStringDecrypt readStep k [] [] es).map (·.index) := by
  induction es using List.reverseRecOn with
  | nil => intro st h _; cases h; exact ⟨rfl, by simp⟩
  | append_singleton es e ih =>
    intro st' h hn
    obtain ⟨st, h1, h2⟩ := run_snoc h
    rw [stepsSaid_snoc, List.nil_append] at hn ⊢
    have hn0 := List.Sublist.nodup (placed_sublist.map (·.index)) hn
    obtain ⟨i1, i2⟩ := ih h1 hn0
    obtain ⟨q1, q2⟩ := event_steps (k := k) h2
    have hsub : ∀ {i}, i ∈ (stepsSaid fmStringDecrypt readStep k [] [] es).map (·.index) →
        i ∈ (placed (readStep (nameSaid fmStringDecrypt es)) k e (stepsSaid fmStringDecrypt readStep k [] [] es)).map (·.index) :=
      fun hi => (placed_sublist.map _).subset hi
    cases ht : paramTarget e with
    | none =>
      have hw : addParams (es ++ [e]) k = addParams es k := by
        funext s
        rw [addParams_snoc]
        cases hp : parameterAt fmStringDecrypt storedText k s.index s.opcode e with
        | none => rfl
        | some t => have := paramTarget_at (k := k) (i := s.index) (op := s.opcode) (e := e) (by rw [hp]; simp); rw [ht] at this; cases this
      refine ⟨?_, ?_⟩
      · rw [q1 ht, run_nameSaid h1, i1, hw]
        exact placed_local (addParams_local i2) hn
      · intro e' he' i hi
        rcases List.mem_append.mp he' with he' | he'
        · exact hsub (i2 e' he' i hi)
        · rw [List.mem_singleton] at he'
          subst he'
          rw [ht] at hi
          cases hi
    | some t =>
      obtain ⟨id, i⟩ := t
      obtain ⟨r1, r2⟩ := q2 id i ht
      rw [placed_other (param_not_code ht)] at hn ⊢
      by_cases hk : k = id
      · obtain ⟨s, h3, h4⟩ := r2 hk
        rw [i1] at h3
        have hs := List.mem_of_find?_eq_some h3
        have hsi : s.index = i := by simpa using List.find?_some h3
        obtain ⟨s0, hs0, rfl⟩ := List.mem_map.mp hs
        have hsi : s0.index = i := hsi
        have hop : (addParams es k s0).opcode = s0.opcode := rfl
        have hone : ∀ x ∈ stepsSaid fmStringDecrypt readStep k [] [] es, x.index ≠ i → addParams (es ++ [e]) k x = addParams es k x := by
          intro x _ hx
          rw [addParams_snoc]
          cases hp : parameterAt fmStringDecrypt storedText k x.index x.opcode e with
          | none => rfl
          | some t =>
            have := paramTarget_at (k := k) (i := x.index) (op := x.opcode) (e := e) (by rw [hp]; simp)
            rw [ht] at this
            cases this
            exact absurd rfl hx
        refine ⟨?_, ?_⟩
        · rw [h4, hop, i1]
          cases hp : parameterAt fmStringDecrypt storedText k i s0.opcode e with
          | none =>
            refine List.map_congr_left fun x hx => ?_
            by_cases hxi : x.index = i
            · have : x = s0 := index_inj hn hx hs0 (by rw [hxi, hsi])
              subst this
              rw [addParams_snoc, hxi, hp]
            · exact (hone x hx hxi).symm
          | some t =>
            dsimp only
            refine pushSwitch_unique (w := addParams es k) (fun _ => rfl) _ hn ?_ hone
            intro x hx hxi
            have : x = s0 := index_inj hn hx hs0 (by rw [hxi, hsi])
            subst this
            rw [addParams_snoc, hxi, hp]
        · intro e' he' j hj
          rcases List.mem_append.mp he' with he' | he'
          · exact i2 e' he' j hj
          · rw [List.mem_singleton] at he'
            subst he'
            rw [ht] at hj
            cases hj
            exact List.mem_map.mpr ⟨s0, hs0, hsi⟩
      · have hw : addParams (es ++ [e]) k = addParams es k := by
          funext s
          rw [addParams_snoc]
          cases hp : parameterAt fmStringDecrypt storedText k s.index s.opcode e with
          | none => rfl
          | some t =>
            have := paramTarget_at (k := k) (i := s.index) (op := s.opcode) (e := e) (by rw [hp]; simp)
            rw [ht] at this
            cases this
            exact absurd rfl hk
        refine ⟨by rw [r1 hk, i1, hw], ?_⟩
        intro e' he' j hj
        rcases List.mem_append.mp he' with he' | he'
        · exact i2 e' he' j hj
        · rw [List.mem_singleton] at he'
          subst he'
          rw [ht] at hj
          cases hj
          exact absurd rfl hk

/-! Segments -/

theorem lastSegment_snoc (k n : Nat) (es : List Event) (e : Event) :
    lastSegment k n (es ++ [e]) = (segmentAt k n e).or (lastSegment k n es) := by
  unfold lastSegment
  rw [List.filterMap_append]
  cases h : segmentAt k n e <;> simp [h]

theorem segment_needs {p : Profile} {k : Nat} {e : Event} {st st' : DState} {n : UInt8} {b : Bytes} (h : edispatch p st e = .ok st')
    (hp : e.path = [17, 5, k, 4]) (hw : e.what = .segment n b) : ∃ m, st.segments.get k = some m := by
  unfold edispatch dispatch at h
  rw [hp, classify_segment] at h
  dsimp only at h
  unfold armSegments at h
  rw [if_neg (by simp [toChunk, hw]), if_pos (by simp [toChunk, hw])] at h
  obtain ⟨_, _, h⟩ := bind_ok.mp h
  split at h
  · rename_i hc
    rw [HMap.contains_eq] at hc
    exact Option.isSome_iff_exists.mp hc
  · cases h

theorem run_lastSegments {p : Profile} {k : Nat} (es : List Event) : ∀ {st : DState}, runEvents p {} es = .ok st →
    (st.segments.map (·.1)).Nodup ∧ (∀ n, (st.segments.get k).bind (·.get n) = lastSegment k n es) ∧
    ∀ m, st.segments.get k = some m → (m.map (·.1)).Nodup ∧ ∀ n, 256 ≤ n → m.get n = none := by
  induction es using List.reverseRecOn with
  | nil => intro st h; cases h; exact ⟨List.nodup_nil, fun _ => rfl, fun _ h => by cases h⟩
  | append_singleton es e ih =>
    intro st' h
    obtain ⟨st, h1, h2⟩ := run_snoc h
    obtain ⟨i1, i2, i3⟩ := ih h1
    have hpath : (toChunk e).path = e.path := by unfold toChunk; cases e.what <;> rfl
    obtain ⟨g1, g2⟩ := dispatch_segments k (shape_toChunk e) (by rw [hpath]; exact h2) i1
    rw [meaning_toChunk, hpath] at g2
    dsimp only at g2
    refine ⟨g1, ?_⟩
    have same : st'.segments.get k = st.segments.get k → (∀ n, segmentAt k n e = none) →
        (∀ n, (st'.segments.get k).bind (·.get n) = lastSegment k n (es ++ [e])) ∧
        ∀ m, st'.segments.get k = some m → (m.map (·.1)).Nodup ∧ ∀ n, 256 ≤ n → m.get n = none := by
      intro hs hn
      refine ⟨fun n => ?_, fun m hm => i3 m (by rw [← hs, hm])⟩
      rw [lastSegment_snoc, hn, hs, i2]
      rfl
    by_cases hp : e.path = [17, 5, k, 4]
    · cases hw : e.what with
      | segment n b =>
        obtain ⟨m, hm⟩ := segment_needs h2 hp hw
        have e1 : st'.segments.get k = some (m.insert n.toNat b) := by
          rw [g2, hm]
          simp [segStep, describesSegments, hp, hw]
        obtain ⟨m1, m2⟩ := i3 m hm
        refine ⟨fun j => ?_, fun m' hm' => ?_⟩
        · rw [e1, lastSegment_snoc]
          have := i2 j
          rw [hm] at this
          simp only [Option.bind_some] at this ⊢
          rw [HMap.get_insert, this]
          unfold segmentAt
          rw [hw]
          dsimp only
          by_cases hj : j = n.toNat
          · rw [if_pos hj, if_pos ⟨hj.symm, hp⟩]; rfl
          · rw [if_neg hj, if_neg (fun h => hj h.1.symm)]; rfl
        · rw [e1] at hm'
          cases hm'
          refine ⟨HMap.nodup_insert _ m1, fun j hj => ?_⟩
          have := n.toNat_lt
          rw [HMap.get_insert, if_neg (by omega), m2 j hj]
      | push =>
        have hs : ∀ n, segmentAt k n e = none := fun n => by unfold segmentAt; rw [hw]
        have e1 : st'.segments.get k = some ((st.segments.get k).getD []) := by
          rw [g2]
          simp [segStep, describesSegments, hp, hw]
        cases hg : st.segments.get k with
        | some m => exact same (by rw [e1, hg]; rfl) hs
        | none =>
          rw [hg] at e1
          refine ⟨fun n => ?_, fun m hm => ?_⟩
          · have := i2 n
            rw [hg] at this
            rw [e1, lastSegment_snoc, hs, ← this]
            rfl
          · rw [e1] at hm
            cases hm
            exact ⟨List.nodup_nil, fun _ _ => rfl⟩
      | _ =>
        refine same ?_ (fun n => by unfold segmentAt; rw [hw])
        rw [g2]
        simp [segStep, describesSegments, hw]
    · refine same ?_ (fun n => ?_)
      · rw [g2]
        unfold segStep
        rw [describesSegments_path hp]
        simp
      · unfold segmentAt
        cases e.what <;> simp [hp]

theorem sortByKey_range {m : HMap Bytes} (hn : (m.map (·.1)).Nodup) (hb : ∀ n, 256 ≤ n → m.get n = none) :
    (sortByKey m).flatMap (·.2) = (List.range 256).flatMap fun n => (m.get n).getD [] := by
  have hp : ((List.range 256).filterMap fun n => (m.get n).map (n, ·)).Perm m := by
    refine (List.perm_ext_iff_of_nodup ?_ (List.Nodup.of_map _ hn)).mpr fun x => ?_
    · refine List.Nodup.of_map (·.1) ?_
      have : ((List.range 256).filterMap fun n => (m.get n).map (n, ·)).map (·.1) = (List.range 256).filter fun n => (m.get n).isSome := by
        generalize List.range 256 = l
        induction l with
        | nil => rfl
        | cons a l ih => cases h : m.get a <;> simp [h, ih]
      rw [this]
      exact List.nodup_range.filter _
    · obtain ⟨n, v⟩ := x
      rw [List.mem_filterMap]
      constructor
      · rintro ⟨j, _, hj⟩
        cases hg : m.get j with
        | none => rw [hg] at hj; cases hj
        | some w =>
          rw [hg] at hj
          cases hj
          exact HMap.mem_of_get hg
      · intro hm
        have hg := HMap.get_of_mem hn hm
        refine ⟨n, ?_, by rw [hg]; rfl⟩
        rw [List.mem_range]
        by_cases h : 256 ≤ n
        · rw [hb n h] at hg; cases hg
        · omega
  have hs : ((List.range 256).filterMap fun n => (m.get n).map (n, ·)).Pairwise (fun a b => a.1 < b.1) := by
    rw [List.pairwise_filterMap]
    refine List.pairwise_lt_range.imp ?_
    intro a b hab x hx y hy
    obtain ⟨_, _, rfl⟩ := Option.map_eq_some_iff.mp hx
    obtain ⟨_, _, rfl⟩ := Option.map_eq_some_iff.mp hy
    exact hab
  rw [sortByKey_eq hp hs]
  generalize List.range 256 = l
  induction l with
  | nil => rfl
  | cons a l ih => cases h : m.get a <;> simp [h, ih]

theorem sorted_segments {p : Profile} {k : Nat} {es : List Event} {st : DState} (h : runEvents p {} es = .ok st) :
    (((st.segments.get k).map (stepsOf fun j => scriptName j st)).getD []) =
      (records (segmentBytes k es)).filterMap (readStep (nameSaid fmStringDecrypt es)) := by
  obtain ⟨_, h2, h3⟩ := run_lastSegments (k := k) es h
  rw [run_nameSaid h]
  cases hg : st.segments.get k with
  | none =>
    have : segmentBytes k es = [] := by
      unfold segmentBytes
      rw [List.flatMap_eq_nil_iff]
      intro n _
      rw [← h2 n, hg]
      rfl
    rw [this]
    rfl
  | some m =>
    obtain ⟨m1, m2⟩ := h3 m hg
    have : (sortByKey m).flatMap (·.2) = segmentBytes k es := by
      rw [sortByKey_range m1 m2]
      unfold segmentBytes
      congr 1
      funext n
      rw [← h2 n, hg]
      rfl
    rw [Option.map_some, Option.getD_some]
    unfold stepsOf
    rw [this]
    rfl

theorem assembled_steps {p : Profile} {k : Nat} {es : List Event} {st : DState} {g : FmpFile} {sc : FScript} (h : runEvents p {} es = .ok st)
    (ha : assembleScripts st = .ok g) (hk : g.scripts.get k = some sc) :
    sc.instructions = stepsIn k st ++ (records (segmentBytes k es)).filterMap (readStep (nameSaid fmStringDecrypt es)) := by
  obtain ⟨h1, _, _⟩ := run_lastSegments (k := k) es h
  unfold assembleScripts at ha
  obtain ⟨u, a1, a2⟩ := bind_ok.mp ha
  cases a2
  obtain ⟨_, b2⟩ := assemble_fold (names := fun j => scriptName j st) _ a1 h1 (fun _ => rfl)
  have b3 := b2 k
  rw [hk] at b3
  rw [← sorted_segments h]
  unfold stepsIn
  cases hg : st.file.scripts.get k with
  | none => rw [hg] at b3; cases b3
  | some sc' => rw [hg] at b3; simpa using b3

/-! Only the events about scripts count. -/

theorem about_code {e : Event} {k : Nat} (h : codeDir k e.path = true)
    (hw : (∃ b, e.what = .kv 4 b) ∨ ∃ b, e.what = .segment 4 b) : aboutScripts e = true := by
  obtain ⟨⟨rest, hp⟩, hpl⟩ := of_classify_code (codeDir_iff.mp h)
  unfold aboutScripts
  rw [hpl]
  rcases hw with ⟨b, hw⟩ | ⟨b, hw⟩ <;> simp [hp, hw]

theorem placed_idle {step : Bytes → Option ScriptStep} {k : Nat} {e : Event} {l : List ScriptStep} (h : aboutScripts e = false) :
    placed step k e l = l := by
  unfold placed
  split
  · rename_i hc
    split
    · rename_i n b hw
      split
      · rename_i h4; subst h4; rw [about_code hc (.inl ⟨b, hw⟩)] at h; cases h
      · rfl
    · rename_i n b hw
      split
      · rename_i h4; subst h4; rw [about_code hc (.inr ⟨b, hw⟩)] at h; cases h
      · rfl
    · rfl
  · rfl

theorem nameSaid_filter (es : List Event) : nameSaid fmStringDecrypt (es.filter aboutScripts) = nameSaid fmStringDecrypt es := by
  funext j
  unfold nameSaid
  rw [names_filter]

theorem stepsSaid_filter (k : Nat) (es : List Event) :
    stepsSaid fmStringDecrypt readStep k [] [] (es.filter aboutScripts) = stepsSaid fmStringDecrypt readStep k [] [] es := by
  induction es using List.reverseRecOn with
  | nil => rfl
  | append_singleton es e ih =>
    rw [List.filter_append, stepsSaid_snoc, List.nil_append]
    cases he : aboutScripts e with
    | true => rw [List.filter_cons_of_pos he, List.filter_nil, stepsSaid_snoc, List.nil_append, ih, nameSaid_filter]
    | false => rw [filter_skip he, List.filter_nil, List.append_nil, ih, placed_idle he]

theorem segmentBytes_filter (k : Nat) (es : List Event) : segmentBytes k (es.filter aboutScripts) = segmentBytes k es := by
  unfold segmentBytes lastSegment
  congr 1
  funext n
  rw [filterMap_filter_of]
  intro e h
  unfold segmentAt at h
  cases hw : e.what with
  | segment m b =>
    rw [hw] at h
    dsimp only at h
    split at h
    · rename_i hc; simp [aboutScripts, hc.2, hw, scriptPlace]
    · exact absurd rfl h
  | _ => rw [hw] at h; exact absurd rfl h

theorem about_param {e : Event} {k i : Nat} (h : paramTarget e = some (k, i)) : aboutScripts e = true := by
  obtain ⟨path, what⟩ := e
  unfold paramTarget at h
  split at h
  · rename_i hp hw
    dsimp only at hp hw
    subst hp hw
    split at h
    · rename_i hn; simp [aboutScripts, scriptPlace, hn]
    · cases h
  · rename_i hp hw
    dsimp only at hp hw
    subst hp hw
    split at h
    · rename_i hn; simp [aboutScripts, scriptPlace, hn]
    · cases h
  · rename_i hp hw
    dsimp only at hp hw
    subst hp hw
    split at h
    · rename_i hn; simp [aboutScripts, scriptPlace]
    · cases h
  · cases h

theorem addParams_filter (k : Nat) (es : List Event) : addParams (es.filter aboutScripts) k = addParams es k := by
  funext s
  unfold addParams withParameters
  rw [filterMap_filter_of]
  intro e h
  exact about_param (paramTarget_at h)

theorem scriptSaid_filter (k : Nat) (es : List Event) :
    scriptSaid fmStringDecrypt readStep (es.filter aboutScripts) k = scriptSaid fmStringDecrypt readStep es k := by
  unfold scriptSaid
  rw [stepsSaid_filter, segmentBytes_filter, nameSaid_filter]

/-! A form of the decompiler that can be computed with. -/

def armScriptP (st : DState) (id : Nat) (ch : Chunk) : Res DState :=
  if ch.ctype = .pathPop ∨ ch.ctype = .pathPush then return st
  else if ch.segmentIdx = some 4 then do
    let d ← unwrap ch.data
    (pieces d).foldlM (fun st ins =>
      if 21 ≤ ins.length then do
        match ← decodeStep st.file.scripts ins with
        | none => return st
        | some step =>
          let sc ← unwrap (st.file.scripts.get id)
          let steps ← insertAt sc.instructions step.index step
          return st.setSteps id steps
      else return st) st
  else if ch.refSimple = some 4 then do
    let d ← unwrap ch.data
    (pieces d).foldlM (fun st ins =>
      if 21 ≤ ins.length then do
        match ← decodeStep st.file.scripts ins with
        | none => return st
        | some step =>
          let sc ← unwrap (st.file.scripts.get id)
          return st.setSteps id (sc.instructions ++ [step])
      else return st) st
  else return st

theorem armScriptP_eq : armScriptP = armScript := by
  funext st id ch
  unfold armScriptP armScript
  simp only [chunks28_pieces _ _ rfl]
  rfl

def runP (p : Profile) (es : List Event) : Res DState :=
  es.foldlM (fun st e => match classify e.path with
    | .script id => armScriptP st id (toChunk e)
    | _ => edispatch p st e) {}

theorem runP_eq (p : Profile) (es : List Event) : runP p es = runEvents p {} es := by
  unfold runP runEvents
  congr 1
  funext st e
  split
  · rename_i id hc
    rw [armScriptP_eq]
    unfold edispatch dispatch
    rw [hc]
  · rfl

end BurnFm
