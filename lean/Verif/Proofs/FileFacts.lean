import Verif.Proofs.ScriptFold
import Verif.Proofs.Raw
import Mathlib.Data.List.Induction

/-! More about the components of a file. -/

namespace BurnFm
open Spec (Event What StoredScript StepDef OccurrenceDef byteAt)

/-! One relationship per link -/

theorem nodup_linkedPairs (os : List OccurrenceDef) (h : ∀ o ∈ os, o.linked.Nodup) : (Spec.linkedPairs os).Nodup := by
  induction os using List.reverseRecOn with
  | nil => exact List.nodup_nil
  | append_singleton os o ih =>
    rw [linkedPairs_snoc, List.nodup_append]
    refine ⟨ih fun x hx => h x (by simp [hx]), ?_, ?_⟩
    · refine List.pairwise_map.mpr ((List.Pairwise.filter _ (h o (by simp))).imp fun hne he => hne ?_)
      simpa using he
    · rintro ⟨a, b⟩ hab c hc rfl
      obtain ⟨h1, _, x, h2, _⟩ := (mem_linkedPairs _ _ _).mp hab
      obtain ⟨j, _, hj⟩ := List.mem_map.mp hc
      have := (List.getElem?_eq_some_iff.mp h2).1
      simp at hj
      omega

theorem countP_zipIdx {α : Type} (q : α → Bool) (l : List α) (k : Nat) : (l.zipIdx k).countP (fun x => q x.1) = l.countP q := by
  induction l generalizing k with
  | nil => rfl
  | cons a l ih => rw [List.zipIdx_cons, List.countP_cons, List.countP_cons, ih]

theorem relationshipOf_tables (cs : List Spec.CriterionDef) (r : Nat) (pair : Nat × Nat) :
    (Spec.relationshipOf cs r pair).table1 = pair.1 ∧ (Spec.relationshipOf cs r pair).table2 = pair.2 := by
  unfold Spec.relationshipOf
  split <;> exact ⟨rfl, rfl⟩

theorem countP_or {α : Type} (q r : α → Bool) (l : List α) (h : ∀ x ∈ l, r x = true → q x = true) :
    l.countP (fun x => q x || r x) = l.countP q := by
  apply List.countP_congr
  intro x hx
  cases hr : r x with
  | false => simp
  | true => simp [h x hx hr]

/-! Layouts -/

theorem layout_keep {p : Profile} {st st' : DState} {e : Event} {x : Nat} (h : edispatch p st e = .ok st')
    (hx : Spec.aboutLayouts e = true → e.path.getD 3 0 ≠ x) : st'.file.layouts.get x = st.file.layouts.get x := by
  by_cases ha : area e = .layouts
  · cases hb : Spec.aboutLayouts e with
    | false => rw [idle_layouts ha hb] at h; cases h; rfl
    | true =>
      have hne := hx hb
      unfold Spec.aboutLayouts at hb
      simp only [Bool.and_eq_true, beq_iff_eq, decide_eq_true_eq] at hb
      obtain ⟨y, rest, hp⟩ := path31 hb.1.1 hb.1.2
      rw [hp] at hne
      have hne : y ≠ x := hne
      unfold edispatch dispatch at h
      rw [hp, classify_layout] at h
      dsimp only at h
      unfold armLayout at h
      split at h
      · cases h
        dsimp only
        rw [HMap.get_insert, if_neg (fun e => hne e.symm)]
      · split at h
        · obtain ⟨d, _, h⟩ := bind_ok.mp h
          obtain ⟨b, _, h⟩ := bind_ok.mp h
          obtain ⟨o, _, h⟩ := bind_ok.mp h
          cases h
          dsimp only
          rw [HMap.get_modify, if_neg (fun e => hne e.symm)]
        · split at h
          · obtain ⟨d, _, h⟩ := bind_ok.mp h
            cases h
            dsimp only
            rw [HMap.get_modify, if_neg (fun e => hne e.symm)]
          · cases h; rfl
  · have key : Gives (fun s => s.file.layouts = st.file.layouts) (edispatch p st e) := by
      unfold area at ha
      unfold edispatch dispatch
      cases hc : classify e.path <;> rw [hc] at ha <;> first | exact absurd rfl ha | skip
      all_goals dsimp only
      · unfold armRelationship; gives
      · unfold armOccurrence; gives
      · unfold armJoin; gives
      · unfold armField; gives
      · unfold armTableMeta; gives
      · unfold armSegments; gives
      · unfold armStepExpr; gives
      · unfold armStepName; gives
      · unfold armStepValue; gives
      · unfold armScript
        split
        · exact .pure rfl
        · split
          · refine .bind fun d _ => .fold (fun s b hs => ?_) rfl
            split
            · refine .bind fun o _ => ?_
              split
              · exact .pure hs
              · exact .bind fun _ _ => .bind fun _ _ => .pure hs
            · exact .pure hs
          · split
            · refine .bind fun d _ => .fold (fun s b hs => ?_) rfl
              split
              · refine .bind fun o _ => ?_
                split
                · exact .pure hs
                · exact .bind fun _ _ => .pure hs
              · exact .pure hs
            · exact .pure rfl
      · unfold armScriptMeta; gives
      · unfold armSourceNames; gives
      · unfold armSource; gives
      · exact .ok rfl
    rw [key st' h]

theorem layouts_keep {p : Profile} {x : Nat} (es : List Event) : ∀ {st st' : DState}, runEvents p st es = .ok st' →
    (∀ e ∈ es, Spec.aboutLayouts e = true → e.path.getD 3 0 ≠ x) → st'.file.layouts.get x = st.file.layouts.get x := by
  induction es with
  | nil => intro st st' h _; cases h; rfl
  | cons e es ih =>
    intro st st' h hx
    rw [runEvents_cons] at h
    obtain ⟨u, h1, h2⟩ := bind_ok.mp h
    rw [ih h2 (fun e' he => hx e' (by simp [he])), layout_keep h1 (hx e (by simp))]

/-! Scripts without steps, and scripts not yet named -/

theorem noSteps_events {p : Profile} {k : Nat} (es : List Event) : ∀ {st st' : DState}, runEvents p st es = .ok st' →
    NoSteps k st.file.scripts → (∀ e ∈ es, Spec.givesSteps k e = false) → NoSteps k st'.file.scripts := by
  induction es with
  | nil => intro st st' h hn _; cases h; exact hn
  | cons e es ih =>
    intro st st' h hn hg
    rw [runEvents_cons] at h
    obtain ⟨u, h1, h2⟩ := bind_ok.mp h
    refine ih h2 (noSteps_dispatch h1 hn fun hc => ?_) (fun e' he => hg e' (by simp [he]))
    have := hg e (by simp)
    obtain ⟨⟨rest, hp⟩, hpl⟩ := of_classify_code hc
    unfold Spec.givesSteps at this
    have hne : rest ≠ [4] := by
      rintro rfl
      rw [hp] at hpl
      cases hpl
    rw [hp] at this
    simp [hne] at this
    unfold toChunk
    cases hw : e.what with
    | kv n v => rw [hw] at this; dsimp only at this ⊢; simpa using this
    | segment n v => rw [hw] at this; dsimp only at this ⊢; simpa using this
    | _ => simp

/-- Script `k` has no name yet. -/
def Unnamed (k : Nat) (st : DState) : Prop := st.file.scripts.get k = none

theorem unnamed_setSteps {k : Nat} {st : DState} (h : Unnamed k st) (j : Nat) (steps : List ScriptStep) : Unnamed k (st.setSteps j steps) := by
  unfold Unnamed DState.setSteps at *
  dsimp only
  rw [HMap.get_modify, h]
  split
  · rename_i e; rw [← e, h]; rfl
  · rfl

/-- Events that name script `k`. -/
def namesScript (k : Nat) (e : Event) : Bool :=
  e.path.take 2 == [17, 1] && e.path.getD 3 0 == k && (match e.what with
    | .kv n _ => n == 16
    | _ => false)

theorem unnamed_dispatch {p : Profile} {k : Nat} {st st' : DState} {e : Event} (h : edispatch p st e = .ok st') (hu : Unnamed k st)
    (hn : namesScript k e = false) : Unnamed k st' := by
  have key : Gives (Unnamed k) (edispatch p st e) := by
    unfold edispatch dispatch
    cases hc : classify e.path with
    | relationship => dsimp only; unfold armRelationship; unfold Unnamed at *; gives
    | occurrence => dsimp only; unfold armOccurrence; unfold Unnamed at *; gives
    | join r => dsimp only; unfold armJoin; unfold Unnamed at *; gives
    | layout l => dsimp only; unfold armLayout; unfold Unnamed at *; gives
    | field d f => dsimp only; unfold armField; unfold Unnamed at *; gives
    | tableMeta d => dsimp only; unfold armTableMeta; unfold Unnamed at *; gives
    | segment d => dsimp only; unfold armSegments; unfold Unnamed at *; gives
    | sourceNames => dsimp only; unfold armSourceNames; unfold Unnamed at *; gives
    | source d => dsimp only; unfold armSource; unfold Unnamed at *; gives
    | other => exact .ok hu
    | stepExpr a b =>
      dsimp only; unfold armStepExpr
      split
      · refine .bind fun sc _ => ?_
        split
        · exact .err
        · split
          · exact .pure (unnamed_setSteps hu _ _)
          · split
            · exact .bind fun _ _ => .bind fun _ _ => .pure (unnamed_setSteps hu _ _)
            · exact .pure hu
      · exact .pure hu
    | stepName a b =>
      dsimp only; unfold armStepName
      split
      · refine .bind fun sc _ => ?_
        split
        · exact .err
        · split
          · exact .pure (unnamed_setSteps hu _ _)
          · exact .pure hu
      · exact .pure hu
    | stepValue a b =>
      dsimp only; unfold armStepValue
      split
      · refine .bind fun _ _ => .bind fun _ _ => .bind fun sc _ => ?_
        split
        · exact .err
        · exact .pure (unnamed_setSteps hu _ _)
      · split
        · exact .pure hu
        · exact .err
    | script a =>
      dsimp only; unfold armScript
      split
      · exact .pure hu
      · split
        · refine .bind fun d _ => .fold (fun s b hs => ?_) hu
          split
          · refine .bind fun o _ => ?_
            split
            · exact .pure hs
            · exact .bind fun _ _ => .bind fun _ _ => .pure (unnamed_setSteps hs _ _)
          · exact .pure hs
        · split
          · refine .bind fun d _ => .fold (fun s b hs => ?_) hu
            split
            · refine .bind fun o _ => ?_
              split
              · exact .pure hs
              · exact .bind fun _ _ => .pure (unnamed_setSteps hs _ _)
            · exact .pure hs
          · exact .pure hu
    | scriptMeta a =>
      dsimp only; unfold armScriptMeta
      obtain ⟨x, rest, hp⟩ := of_classify_scriptMeta hc
      split
      · rename_i hk
        have hak : k ≠ a := by
          rintro rfl
          unfold namesScript at hn
          rw [hp] at hn
          simp at hn
          unfold toChunk at hk
          cases hw : e.what with
          | kv n v => rw [hw] at hn hk; simp at hn hk; exact hn hk
          | _ => rw [hw] at hk; simp at hk
        refine .bind fun d _ => ?_
        split
        · refine .pure ?_
          unfold Unnamed at *
          dsimp only
          rw [HMap.get_modify, if_neg hak, hu]
        · refine .pure ?_
          unfold Unnamed at *
          dsimp only
          rw [HMap.get_insert, if_neg hak, hu]
      · exact .pure hu
  exact key st' h

theorem unnamed_events {p : Profile} {k : Nat} (es : List Event) : ∀ {st st' : DState}, runEvents p st es = .ok st' →
    Unnamed k st → (∀ e ∈ es, namesScript k e = false) → Unnamed k st' := by
  induction es with
  | nil => intro st st' h hn _; cases h; exact hn
  | cons e es ih =>
    intro st st' h hn hg
    rw [runEvents_cons] at h
    obtain ⟨u, h1, h2⟩ := bind_ok.mp h
    exact ih h2 (unnamed_dispatch h1 hn (hg e (by simp))) (fun e' he => hg e' (by simp [he]))

theorem param_fails {p : Profile} {st st' : DState} {k n : Nat} {e : Event} (hn : NoSteps k st.file.scripts)
    (he : (∃ v, e = ⟨[17, 5, k, 5, n, 128], .kv 1 v⟩) ∨ (∃ v, e = ⟨[17, 5, k, 5, n, 128, 5], .kv 5 v⟩) ∨
      ∃ v, e = ⟨[17, 5, k, 5, n, 129, 5], .kv 5 v⟩) : edispatch p st e ≠ .ok st' := by
  intro h
  unfold edispatch dispatch at h
  have nofind : ∀ sc, unwrap (st.file.scripts.get k) = .ok sc → sc.instructions.find? (fun i => i.index == n) = none := by
    intro sc hsc
    rw [hn sc ((unwrap_ok).mp hsc)]
    rfl
  rcases he with ⟨v, rfl⟩ | ⟨v, rfl⟩ | ⟨v, rfl⟩
  · dsimp only at h
    rw [classify_stepName] at h
    dsimp only at h
    unfold armStepName at h
    rw [if_pos (by simp [toChunk])] at h
    obtain ⟨sc, h1, h⟩ := bind_ok.mp h
    rw [nofind sc h1] at h
    cases h
  · dsimp only at h
    rw [classify_stepExpr] at h
    dsimp only at h
    unfold armStepExpr at h
    rw [if_pos (by simp [toChunk])] at h
    obtain ⟨sc, h1, h⟩ := bind_ok.mp h
    rw [nofind sc h1] at h
    cases h
  · dsimp only at h
    rw [classify_stepValue] at h
    dsimp only at h
    unfold armStepValue at h
    rw [if_pos (by simp [toChunk])] at h
    obtain ⟨d, _, h⟩ := bind_ok.mp h
    obtain ⟨t, _, h⟩ := bind_ok.mp h
    obtain ⟨sc, h1, h⟩ := bind_ok.mp h
    rw [nofind sc h1] at h
    cases h

/-- What the first record of a piece of code decodes to, if it decodes. -/
theorem first_record {ss : List StoredScript} {t : StepDef} (ht : t.Ok fmStringEncrypt ss) {m : HMap FScript} {o : Option ScriptStep}
    (h : decodeStep m t.bytes = .ok o) : ∃ step, o = some step ∧ step.index = t.index := by
  rw [decodeStep_spec h]
  unfold Spec.stepOf
  have h1 : instructionMap.getD (t.bytes.getD 21 0).toNat none = some t.op := by
    have := ht.op
    unfold byteAt at this
    rw [this, List.getD_eq_getElem?_getD, Props.instruction_map_complete_partial t.op ht.notAssert]
    rfl
  rw [h1]
  refine ⟨_, rfl, ?_⟩
  dsimp only
  obtain ⟨b0, b1, b2, b3, rest, hb⟩ : ∃ b0 b1 b2 b3 rest, t.bytes = b0 :: b1 :: b2 :: b3 :: rest := by
    match hi : t.bytes, ht.length with
    | b0 :: b1 :: b2 :: b3 :: rest, _ => exact ⟨_, _, _, _, _, rfl⟩
  rcases ht.index with ⟨e1, e2⟩ | ⟨e1, e2⟩
  · unfold byteAt at e1 e2
    rw [e1, e2, hb]
    rfl
  · unfold byteAt at e1 e2
    rw [e1, e2, hb]
    show getPathInt [b2, b3] = _
    rw [getPathInt_two]
    rfl

theorem chunks28_first {b r : Bytes} (h : b.length = 28) : chunks28 (b ++ r) = b :: chunks28 r := by
  rw [chunks28_cons (by intro e; rw [List.append_eq_nil_iff] at e; rw [e.1] at h; cases h), List.take_left' h, List.drop_left' h]

theorem long_fails {p : Profile} {st st' : DState} {k : Nat} {ss : List StoredScript} {t : StepDef} (ht : t.Ok fmStringEncrypt ss)
    (hi : 1 ≤ t.index) (rest : Bytes) (hn : NoSteps k st.file.scripts) :
    edispatch p st ⟨[17, 5, k], .segment 4 (t.bytes ++ rest)⟩ ≠ .ok st' := by
  intro h
  unfold edispatch dispatch at h
  dsimp only at h
  rw [classify_code] at h
  dsimp only at h
  unfold armScript at h
  rw [if_neg (by simp [toChunk]), if_pos (by simp [toChunk])] at h
  simp only [toChunk] at h
  obtain ⟨d, hd, h⟩ := bind_ok.mp h
  rw [unwrap_ok] at hd
  cases hd
  rw [chunks28_first ht.length, List.foldlM_cons, if_pos (by rw [ht.length]; omega)] at h
  obtain ⟨u, h1, _⟩ := bind_ok.mp h
  obtain ⟨o, h2, h1⟩ := bind_ok.mp h1
  obtain ⟨step, rfl, hs⟩ := first_record ht h2
  dsimp only at h1
  obtain ⟨sc, h3, h1⟩ := bind_ok.mp h1
  obtain ⟨steps, h4, _⟩ := bind_ok.mp h1
  rw [hn sc ((unwrap_ok).mp h3)] at h4
  unfold insertAt at h4
  rw [if_neg (by simp; omega)] at h4
  cases h4

theorem unnamed_fails {p : Profile} {st st' : DState} {k : Nat} {ss : List StoredScript} {t : StepDef} (ht : t.Ok fmStringEncrypt ss)
    (rest : Bytes) (hn : Unnamed k st) : edispatch p st ⟨[17, 5, k], .kv 4 (t.bytes ++ rest)⟩ ≠ .ok st' := by
  intro h
  unfold edispatch dispatch at h
  dsimp only at h
  rw [classify_code] at h
  dsimp only at h
  unfold armScript at h
  rw [if_neg (by simp [toChunk]), if_neg (by simp [toChunk]), if_pos (by simp [toChunk])] at h
  simp only [toChunk] at h
  obtain ⟨d, hd, h⟩ := bind_ok.mp h
  rw [unwrap_ok] at hd
  cases hd
  rw [chunks28_first ht.length, List.foldlM_cons, if_pos (by rw [ht.length]; omega)] at h
  obtain ⟨u, h1, _⟩ := bind_ok.mp h
  obtain ⟨o, h2, h1⟩ := bind_ok.mp h1
  obtain ⟨step, rfl, hs⟩ := first_record ht h2
  dsimp only at h1
  obtain ⟨sc, h3, h1⟩ := bind_ok.mp h1
  rw [unwrap_ok, hn] at h3
  cases h3

end BurnFm
