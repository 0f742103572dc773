import Verif.Proofs.Raw
import Verif.Spec.Cut

/-! Entering again the directories that were open at the end of a sector. -/

namespace BurnFm
open Spec (Event Raw RawRun)

/-- Scripts and their segments do not disappear. -/
def Kept (st st' : DState) : Prop :=
  (∀ s, st.segments.contains s = true → st'.segments.contains s = true) ∧
  ∀ s, st.file.scripts.contains s = true → st'.file.scripts.contains s = true

theorem Kept.refl (st : DState) : Kept st st := ⟨fun _ h => h, fun _ h => h⟩

theorem Kept.trans {a b c : DState} (h : Kept a b) (h' : Kept b c) : Kept a c :=
  ⟨fun s hs => h'.1 s (h.1 s hs), fun s hs => h'.2 s (h.2 s hs)⟩

theorem kept_setSteps (st : DState) (s : Nat) (xs : List ScriptStep) : Kept st (st.setSteps s xs) :=
  ⟨fun _ h => h, fun k h => by unfold DState.setSteps; dsimp only; rw [HMap.contains_modify]; exact h⟩

theorem kept_fold {α : Type} {f : DState → α → Res DState} (hf : ∀ st x st', f st x = .ok st' → Kept st st') (xs : List α) :
    ∀ {st st' : DState}, xs.foldlM f st = .ok st' → Kept st st' := by
  induction xs with
  | nil => intro st st' h; cases h; exact .refl _
  | cons x xs ih =>
    intro st st' h
    rw [List.foldlM_cons] at h
    obtain ⟨u, h1, h2⟩ := bind_ok.mp h
    exact (hf _ _ _ h1).trans (ih h2)

theorem kept_dispatch {p : Profile} {st st' : DState} {path : DirPath} {ch : Chunk} (h : dispatch p st path ch = .ok st') : Kept st st' := by
  unfold dispatch at h
  cases hc : classify path <;> rw [hc] at h <;> dsimp only at h
  · unfold armRelationship at h
    split at h
    · obtain ⟨d, _, h⟩ := bind_ok.mp h
      obtain ⟨t, _, h⟩ := bind_ok.mp h
      dsimp only at h
      split at h <;> cases h <;> exact .refl _
    · cases h; exact .refl _
  · unfold armOccurrence at h
    split at h
    · obtain ⟨d, _, h⟩ := bind_ok.mp h
      obtain ⟨t, _, h⟩ := bind_ok.mp h
      obtain ⟨u, _, h⟩ := bind_ok.mp h
      cases h; exact .refl _
    · split at h
      · dsimp only at h
        split at h <;> cases h; exact .refl _
      · cases h; exact .refl _
  · unfold armJoin at h
    split at h
    · obtain ⟨d, _, h⟩ := bind_ok.mp h
      obtain ⟨c, _, h⟩ := bind_ok.mp h
      obtain ⟨a, _, h⟩ := bind_ok.mp h
      obtain ⟨f1, _, h⟩ := bind_ok.mp h
      obtain ⟨b, _, h⟩ := bind_ok.mp h
      obtain ⟨f2, _, h⟩ := bind_ok.mp h
      cases h; exact .refl _
    · cases h; exact .refl _
  · unfold armLayout at h
    split at h
    · cases h; exact .refl _
    · split at h
      · obtain ⟨d, _, h⟩ := bind_ok.mp h
        obtain ⟨c, _, h⟩ := bind_ok.mp h
        obtain ⟨a, _, h⟩ := bind_ok.mp h
        cases h; exact .refl _
      · split at h
        · obtain ⟨d, _, h⟩ := bind_ok.mp h
          cases h; exact .refl _
        · cases h; exact .refl _
  · unfold armField at h
    split at h
    · cases h; exact .refl _
    · dsimp only at h
      split at h
      · cases h; exact .refl _
      · split at h
        · cases h; exact .refl _
        · split at h
          · cases h
          · split at h <;> cases h; exact .refl _
  · unfold armTableMeta at h
    split at h
    · split at h
      · cases h; exact .refl _
      · obtain ⟨d, _, h⟩ := bind_ok.mp h
        cases h; exact .refl _
    · split at h
      · obtain ⟨d, _, h⟩ := bind_ok.mp h
        split at h <;> cases h; exact .refl _
      · cases h; exact .refl _
  · unfold armSegments at h
    split at h
    · split at h
      · cases h; exact .refl _
      · cases h
        refine ⟨fun s hs => ?_, fun s hs => hs⟩
        dsimp only
        rw [HMap.contains_insert, hs]; simp
    · split at h
      · obtain ⟨n, _, h⟩ := bind_ok.mp h
        split at h
        · obtain ⟨d, _, h⟩ := bind_ok.mp h
          cases h
          refine ⟨fun s hs => ?_, fun s hs => hs⟩
          dsimp only
          rw [HMap.contains_modify]; exact hs
        · cases h
      · cases h; exact .refl _
  · unfold armStepExpr at h
    split at h
    · obtain ⟨sc, _, h⟩ := bind_ok.mp h
      split at h
      · cases h
      · split at h
        · cases h; exact kept_setSteps _ _ _
        · split at h
          · obtain ⟨d, _, h⟩ := bind_ok.mp h
            obtain ⟨t, _, h⟩ := bind_ok.mp h
            cases h; exact kept_setSteps _ _ _
          · cases h; exact .refl _
    · cases h; exact .refl _
  · unfold armStepName at h
    split at h
    · obtain ⟨sc, _, h⟩ := bind_ok.mp h
      split at h
      · cases h
      · split at h
        · cases h; exact kept_setSteps _ _ _
        · cases h; exact .refl _
    · cases h; exact .refl _
  · unfold armStepValue at h
    split at h
    · obtain ⟨d, _, h⟩ := bind_ok.mp h
      obtain ⟨t, _, h⟩ := bind_ok.mp h
      obtain ⟨sc, _, h⟩ := bind_ok.mp h
      split at h
      · cases h
      · cases h; exact kept_setSteps _ _ _
    · split at h <;> cases h; exact .refl _
  · unfold armScript at h
    split at h
    · cases h; exact .refl _
    · split at h
      · obtain ⟨d, _, h⟩ := bind_ok.mp h
        refine kept_fold (fun st x st' hx => ?_) _ h
        split at hx
        · obtain ⟨o, _, hx⟩ := bind_ok.mp hx
          cases o with
          | none => cases hx; exact .refl _
          | some step =>
            dsimp only at hx
            obtain ⟨sc, _, hx⟩ := bind_ok.mp hx
            obtain ⟨ss, _, hx⟩ := bind_ok.mp hx
            cases hx; exact kept_setSteps _ _ _
        · cases hx; exact .refl _
      · split at h
        · obtain ⟨d, _, h⟩ := bind_ok.mp h
          refine kept_fold (fun st x st' hx => ?_) _ h
          split at hx
          · obtain ⟨o, _, hx⟩ := bind_ok.mp hx
            cases o with
            | none => cases hx; exact .refl _
            | some step =>
              dsimp only at hx
              obtain ⟨sc, _, hx⟩ := bind_ok.mp hx
              cases hx; exact kept_setSteps _ _ _
          · cases hx; exact .refl _
        · cases h; exact .refl _
  · unfold armScriptMeta at h
    split at h
    · obtain ⟨d, _, h⟩ := bind_ok.mp h
      split at h
      · cases h
        refine ⟨fun s hs => hs, fun s hs => ?_⟩
        dsimp only
        rw [HMap.contains_modify]; exact hs
      · cases h
        refine ⟨fun s hs => hs, fun s hs => ?_⟩
        dsimp only
        rw [HMap.contains_insert, hs]; simp
    · cases h; exact .refl _
  · unfold armSourceNames at h
    split at h
    · obtain ⟨d, _, h⟩ := bind_ok.mp h
      obtain ⟨s, _, h⟩ := bind_ok.mp h
      cases h; exact .refl _
    · cases h; exact .refl _
  · unfold armSource at h
    split at h
    · obtain ⟨d, _, h⟩ := bind_ok.mp h
      split at h <;> cases h <;> exact .refl _
    · split at h
      · obtain ⟨k, _, h⟩ := bind_ok.mp h
        split at h
        · obtain ⟨d, _, h⟩ := bind_ok.mp h
          split at h
          · obtain ⟨l, _, h⟩ := bind_ok.mp h
            cases h; exact .refl _
          · cases h; exact .refl _
        · cases h; exact .refl _
      · cases h; exact .refl _
  · cases h; exact .refl _

theorem kept_events {p : Profile} (evs : List Event) : ∀ {st st' : DState}, runEvents p st evs = .ok st' → Kept st st' := by
  induction evs with
  | nil => intro st st' h; cases h; exact .refl _
  | cons e evs ih =>
    intro st st' h
    rw [runEvents_cons] at h
    obtain ⟨u, h1, h2⟩ := bind_ok.mp h
    exact (kept_dispatch h1).trans (ih h2)

/-- What entering a directory leaves behind. -/
def Entered (st : DState) (q : DirPath) : Prop :=
  (∀ s, classify q = .segment s → st.segments.contains s = true) ∧
  ∀ s k, classify q = .stepValue s k → st.file.scripts.contains s = true

theorem entered_after {p : Profile} {st st' : DState} {q : DirPath} (h : edispatch p st ⟨q, .push⟩ = .ok st') : Entered st' q := by
  unfold edispatch dispatch at h
  constructor
  · intro s hc
    rw [hc] at h
    change armSegments st s _ = _ at h
    unfold armSegments at h
    rw [if_pos (show (toChunk ⟨q, .push⟩).ctype = .pathPush from rfl)] at h
    split at h
    · cases h; assumption
    · cases h
      dsimp only
      rw [HMap.contains_insert]; simp
  · intro s k hc
    rw [hc] at h
    change armStepValue st s k _ = _ at h
    unfold armStepValue at h
    rw [if_neg (show ¬(toChunk ⟨q, .push⟩).refSimple.getD 0 = 5 from by simp [toChunk])] at h
    split at h
    · cases h; assumption
    · cases h

theorem Entered.kept {st st' : DState} {q : DirPath} (h : Entered st q) (hk : Kept st st') : Entered st' q :=
  ⟨fun s hc => hk.1 s (h.1 s hc), fun s k hc => hk.2 s (h.2 s k hc)⟩

theorem entered_run {p : Profile} {evs : List Event} {q : DirPath} (hq : ⟨q, .push⟩ ∈ evs) : ∀ {st st' : DState},
    runEvents p st evs = .ok st' → Entered st' q := by
  induction evs with
  | nil => simp at hq
  | cons e evs ih =>
    intro st st' h
    rw [runEvents_cons] at h
    obtain ⟨u, h1, h2⟩ := bind_ok.mp h
    rcases List.mem_cons.mp hq with rfl | hq
    · exact (entered_after h1).kept (kept_events _ h2)
    · exact ih hq h2

/-- The kinds of directory in which entering again does nothing. -/
theorem classify_plain {q : DirPath} (h1 : ¬Spec.fieldDir q) (h2 : ¬Spec.layoutDir q) (h3 : ¬Spec.tableDir q) (h4 : ¬Spec.sourceDir q) :
    (∀ a b, classify q = .field a b → a < 128) ∧ (∀ a, classify q ≠ .layout a) ∧ (∀ a, classify q ≠ .tableMeta a) ∧ isSource (classify q) = false := by
  have k1 : ∀ a b, classify q = .field a b → 128 ≤ a → Spec.fieldDir q := by
    intro a b h
    unfold classify at h
    repeat' (refine ite_elim h (fun hx h => ?_) (fun h => ?_))
    all_goals first | (cases h; done) | skip
    cases h
    intro ha
    exact ⟨hx.1, ha, hx.2.1, hx.2.2⟩
  have k2 : ∀ a, classify q = .layout a → Spec.layoutDir q := by
    intro a h
    unfold classify at h
    repeat' (refine ite_elim h (fun hx h => ?_) (fun h => ?_))
    all_goals first | (cases h; done) | skip
    exact hx
  have k3 : ∀ a, classify q = .tableMeta a → Spec.tableDir q := by
    intro a h
    unfold classify at h
    repeat' (refine ite_elim h (fun hx h => ?_) (fun h => ?_))
    all_goals first | (cases h; done) | skip
    exact hx
  have k4 : isSource (classify q) = true → Spec.sourceDir q := by
    intro h
    refine of_classify_source ?_
    cases hc : classify q <;> rw [hc] at h <;> first | rfl | cases h
  have key := And.intro k1 (And.intro k2 (And.intro k3 k4))
  refine ⟨fun a b h => Nat.lt_of_not_le fun ha => h1 (key.1 a b h ha), fun a h => h2 (key.2.1 a h), fun a h => h3 (key.2.2.1 a h), ?_⟩
  cases h : isSource (classify q) with
  | false => rfl
  | true => exact absurd (key.2.2.2 h) h4

theorem push_idle {p : Profile} {st : DState} {q : DirPath} (h1 : ¬Spec.fieldDir q) (h2 : ¬Spec.layoutDir q) (h3 : ¬Spec.tableDir q)
    (h4 : ¬Spec.sourceDir q) (he : Entered st q) : edispatch p st ⟨q, .push⟩ = .ok st := by
  obtain ⟨c1, c2, c3, c4⟩ := classify_plain h1 h2 h3 h4
  unfold edispatch dispatch
  cases hc : classify q
  case field a b =>
    change armField st a b _ = _
    unfold armField
    rw [if_pos (c1 a b hc)]
    rfl
  case layout a => exact absurd hc (c2 a)
  case tableMeta a => exact absurd hc (c3 a)
  case sourceNames => rw [hc] at c4; cases c4
  case source => rw [hc] at c4; cases c4
  case segment s =>
    change armSegments st s _ = _
    unfold armSegments
    rw [if_pos (show (toChunk ⟨q, .push⟩).ctype = .pathPush from rfl), if_pos (he.1 s hc)]
    rfl
  case stepValue s k =>
    change armStepValue st s k _ = _
    unfold armStepValue
    rw [if_neg (show ¬(toChunk ⟨q, .push⟩).refSimple.getD 0 = 5 from by simp [toChunk]), if_pos (he.2 s k hc)]
    rfl
  all_goals rfl

theorem pad_idle {p : Profile} {st : DState} {q : DirPath} (h1 : q ≠ Spec.linkDir) (h4 : ¬Spec.sourceDir q) (he : Entered st q) :
    edispatch p st ⟨q, .data []⟩ = .ok st := by
  unfold edispatch dispatch
  cases hc : classify q
  case relationship =>
    exfalso
    apply h1
    unfold classify at hc
    repeat' (refine ite_elim hc (fun hx hc => ?_) (fun hc => ?_))
    all_goals first | (cases hc; done) | skip
    exact hx
  case sourceNames =>
    exfalso
    have : areaOf (classify q) = .sources := by rw [hc]; rfl
    exact h4 (of_classify_source this)
  case source =>
    exfalso
    have : areaOf (classify q) = .sources := by rw [hc]; rfl
    exact h4 (of_classify_source this)
  case stepValue s k =>
    change armStepValue st s k _ = _
    unfold armStepValue
    rw [if_neg (show ¬(toChunk ⟨q, .data []⟩).refSimple.getD 0 = 5 from by simp [toChunk]), if_pos (he.2 s k hc)]
    rfl
  case field a b =>
    change armField st a b _ = _
    unfold armField
    split
    · rfl
    · rfl
  case layout a => rfl
  case tableMeta a => rfl
  all_goals rfl

theorem mid_idle {p : Profile} {st : DState} {evs : List Event} (h : ∀ e ∈ evs, edispatch p st e = .ok st) : runEvents p st evs = .ok st := by
  induction evs with
  | nil => rfl
  | cons e evs ih =>
    rw [runEvents_cons, h e (by simp), ok_bind]
    exact ih fun e he => h e (by simp [he])

theorem mem_reenter {path : List Nat} {e : Event} (h : e ∈ Spec.reenter path) : ∃ k, k < path.length ∧ e = ⟨path.take (k + 1), .push⟩ := by
  obtain ⟨k, hk, rfl⟩ := List.mem_map.mp h
  exact ⟨k, List.mem_range.mp hk, rfl⟩

theorem plain_not_source {path : List Nat} (h : Spec.PlainDir path) {k : Nat} (hk : k < path.length) :
    isSource (classify (path.take (k + 1))) = false := by
  obtain ⟨h1, h2, h3, h4⟩ := h k hk
  exact (classify_plain h1 h2 h3 h4).2.2.2

theorem last_not_source {path : List Nat} (h : Spec.PlainDir path) : ¬Spec.sourceDir path ∧ isSource (classify path) = false := by
  cases path with
  | nil =>
    constructor
    · rintro (h | ⟨h, _⟩) <;> cases h
    · rfl
  | cons x xs =>
    have h1 := (h xs.length (by simp)).2.2.2
    have h2 := plain_not_source h (k := xs.length) (by simp)
    rw [List.take_of_length_le (by simp)] at h1 h2
    exact ⟨h1, h2⟩

theorem note_mid {path : List Nat} {n : Nat} {re : List Raw} (hp : Spec.PlainDir path) (hre : Spec.seen re = Spec.reenter path) :
    (Spec.padding path n ++ re).filterMap Raw.note = [] := by
  rw [List.filterMap_eq_nil_iff]
  intro r hr
  rcases List.mem_append.mp hr with hr | hr
  · have := (List.mem_replicate.mp hr).2
    subst this
    exact note_none (last_not_source hp).2
  · obtain ⟨q, op, ops, w⟩ := r
    cases w with
    | none =>
      unfold Raw.note
      dsimp only
      split
      · rfl
      · split <;> rfl
    | some w =>
      have : (⟨q, w⟩ : Event) ∈ Spec.reenter path := by
        rw [← hre]
        exact List.mem_filterMap.mpr ⟨_, hr, rfl⟩
      obtain ⟨k, hk, he⟩ := mem_reenter this
      injection he with he1 he2
      subst he1
      exact note_none (plain_not_source hp hk)

theorem run_mid {p : Profile} {a re : List Raw} {path : List Nat} {n : Nat} {st st' : DState} (ha : ∀ e ∈ Spec.reenter path, e ∈ Spec.seen a)
    (hp : Spec.PlainDir path) (hn : n = 0 ∨ path ≠ Spec.linkDir) (hre : Spec.seen re = Spec.reenter path)
    (h : runEvents p st ((Spec.seen a).filter notSource) = .ok st') :
    runEvents p st' ((Spec.seen (Spec.padding path n ++ re)).filter notSource) = .ok st' := by
  have ent : ∀ k, k < path.length → Entered st' (path.take (k + 1)) := by
    intro k hk
    refine entered_run (List.mem_filter.mpr ⟨ha _ (List.mem_map.mpr ⟨k, List.mem_range.mpr hk, rfl⟩), ?_⟩) h
    unfold notSource
    dsimp only
    rw [plain_not_source hp hk]
    rfl
  refine mid_idle fun e he => ?_
  have he := (List.mem_filter.mp he).1
  rw [seen_append] at he
  rcases List.mem_append.mp he with he | he
  · obtain ⟨r, hr, hre⟩ := List.mem_filterMap.mp he
    obtain ⟨hr1, hr2⟩ := List.mem_replicate.mp hr
    subst hr2
    cases hre
    rcases hn with rfl | hn
    · exact absurd rfl hr1
    · refine pad_idle hn (last_not_source hp).1 ?_
      cases path with
      | nil =>
        have hc : classify [] = .other := rfl
        constructor
        · intro s h
          change classify [] = _ at h
          rw [hc] at h
          cases h
        · intro s k h
          change classify [] = _ at h
          rw [hc] at h
          cases h
      | cons x xs =>
        have := ent xs.length (by simp)
        rwa [List.take_of_length_le (by simp)] at this
  · rw [hre] at he
    obtain ⟨k, hk, rfl⟩ := mem_reenter he
    obtain ⟨h1, h2, h3, h4⟩ := hp k hk
    exact push_idle h1 h2 h3 h4 (ent k hk)

/-- Continuing in another sector changes nothing. -/
theorem recut_same {p : Profile} {raws raws' : List Raw} (h : Spec.Recut raws raws') :
    raws'.filterMap Raw.note = raws.filterMap Raw.note ∧
    ∀ st st', runEvents p st ((Spec.seen raws').filter notSource) = .ok st' ↔ runEvents p st ((Spec.seen raws).filter notSource) = .ok st' := by
  induction h with
  | same => exact ⟨rfl, fun _ _ => Iff.rfl⟩
  | @cut a b re path n _ ha hp hn hre ih =>
    obtain ⟨i1, i2⟩ := ih
    constructor
    · rw [← i1, List.append_assoc a, List.filterMap_append, List.filterMap_append, note_mid hp hre, List.filterMap_append, List.append_nil]
    · intro st st'
      rw [← i2, List.append_assoc a, seen_append, seen_append, seen_append a b, List.filter_append, List.filter_append, List.filter_append,
        runEvents_append, runEvents_append, runEvents_append]
      cases h : runEvents p st ((Spec.seen a).filter notSource) with
      | error e => exact Iff.rfl
      | ok s => rw [ok_bind, ok_bind, run_mid ha hp hn hre h, ok_bind]

/-! Open directories -/

theorem push_what {c : Nat} {bytes : Bytes} {w : Option Spec.What} {n : Nat} (h : Spec.ChunkFormat c bytes w n)
    (hp : c = 0x20 ∨ c = 0x28 ∨ c = 0x30 ∨ c = 0x38) : w = some .push := by
  cases h <;> first | rfl | (exfalso; omega)

theorem take_dropLast {path : List Nat} {k : Nat} (h : k < path.dropLast.length) : path.dropLast.take (k + 1) = path.take (k + 1) := by
  rw [List.dropLast_eq_take, List.take_take]
  simp at h
  congr 1
  omega

theorem run_entered {path path' : List Nat} {bytes : Bytes} {raws : List Raw} (h : RawRun path bytes raws path') :
    ∀ k, k < path'.length → (k < path.length ∧ path'.take (k + 1) = path.take (k + 1)) ∨ ⟨path'.take (k + 1), .push⟩ ∈ Spec.seen raws := by
  induction h with
  | nil path => intro k hk; exact .inl ⟨hk, rfl⟩
  | @cons path path' b bytes rest w n raws hc _ ih =>
    intro k hk
    have hseen : ∀ e, e ∈ Spec.seen raws → e ∈ Spec.seen (⟨Spec.pathAfter b n path, Spec.opcode b, bytes, w⟩ :: raws) := by
      intro e he
      unfold Spec.seen at he ⊢
      rw [List.mem_filterMap] at he ⊢
      obtain ⟨r, hr, he⟩ := he
      exact ⟨r, by simp [hr], he⟩
    rcases ih k hk with ⟨h1, h2⟩ | h
    · have shorter : ∀ q : List Nat, (k < q.dropLast.length → k < q.length ∧ q.dropLast.take (k + 1) = q.take (k + 1)) := by
        intro q hq
        refine ⟨?_, take_dropLast hq⟩
        simp at hq
        omega
      rw [h2]
      by_cases hd : Spec.delayed b
      · left
        unfold Spec.pathAfter at h1 ⊢
        dsimp only at h1 ⊢
        rw [if_pos hd] at h1 ⊢
        by_cases hp : Spec.isPush b
        · rw [if_pos hp] at h1 ⊢
          rw [List.dropLast_concat] at h1 ⊢
          exact ⟨h1, rfl⟩
        · rw [if_neg hp] at h1 ⊢
          by_cases hq : Spec.isPop b
          · rw [if_pos hq] at h1 ⊢
            obtain ⟨a1, a2⟩ := shorter _ h1
            obtain ⟨b1, b2⟩ := shorter _ a1
            exact ⟨b1, a2.trans b2⟩
          · rw [if_neg hq] at h1 ⊢
            exact shorter _ h1
      · by_cases hp : Spec.isPush b
        · have hw := push_what hc hp
          have hpa : Spec.pathAfter b n path = path ++ [n] := by
            unfold Spec.pathAfter
            dsimp only
            rw [if_neg hd, if_pos hp]
          rw [hpa] at h1 ⊢
          by_cases hk : k < path.length
          · left
            exact ⟨hk, by rw [List.take_append_of_le_length (by omega)]⟩
          · right
            rw [List.take_of_length_le (by simp; omega)]
            unfold Spec.seen
            refine List.mem_filterMap.mpr ⟨_, List.mem_cons_self .., ?_⟩
            subst hw
            rfl
        · left
          unfold Spec.pathAfter at h1 ⊢
          dsimp only at h1 ⊢
          rw [if_neg hd, if_neg hp] at h1 ⊢
          by_cases hq : Spec.isPop b
          · rw [if_pos hq] at h1 ⊢
            exact shorter _ h1
          · rw [if_neg hq] at h1 ⊢
            exact ⟨h1, rfl⟩
    · exact .inr (hseen _ h)

/-! What is lost -/

theorem event_split {p : Profile} {st st' : DState} {a b : List Event} {e : Event} (h : runEvents p st (a ++ e :: b) = .ok st') :
    ∃ u v, runEvents p st a = .ok u ∧ edispatch p u e = .ok v ∧ runEvents p v b = .ok st' := by
  rw [runEvents_append] at h
  obtain ⟨u, h1, h2⟩ := bind_ok.mp h
  rw [runEvents_cons] at h2
  obtain ⟨v, h3, h4⟩ := bind_ok.mp h2
  exact ⟨u, v, h1, h3, h4⟩

/-- The field, if it is there, has no name. -/
def Nameless (st : DState) (t k : Nat) : Prop := ∀ tb fl, st.file.tables.get t = some tb → tb.fields.get k = some fl → fl.name = []

theorem fieldSetter_name {key : Nat} {s : Str} {f : FField → FField} (h : fieldSetter key s = some f) (hk : key ≠ 16) (x : FField) :
    (f x).name = x.name := by
  unfold fieldSetter at h
  repeat' (refine ite_elim h (fun hx h => ?_) (fun h => ?_))
  all_goals first | (cases h; rfl) | (exact absurd hx hk) | cases h

theorem blank_name : ({} : FField).name = [] := rfl

theorem nameless_insert {tb : FTable} {st : DState} {t t' k : Nat} (hs : Nameless st t k) (htb : ∀ fl, tb.fields.get k = some fl → fl.name = []) :
    ∀ tb' fl, (st.file.tables.insert t' tb).get t = some tb' → tb'.fields.get k = some fl → fl.name = [] := by
  intro tb' fl h1 h2
  rw [HMap.get_insert] at h1
  split at h1
  · cases h1; exact htb fl h2
  · exact hs tb' fl h1 h2

theorem nameless_step {p : Profile} {st st' : DState} {t k : Nat} {e : Event} (hs : Nameless st t k)
    (he : ∀ v, e ≠ ⟨[128 + t, 3, 5, k], .kv 16 v⟩) (hk : ∀ x ∈ e.path, x < 65536) (hd : Spec.describesSchema e = true)
    (h : edispatch p st e = .ok st') : Nameless st' t k := by
  obtain ⟨path, w⟩ := e
  unfold edispatch dispatch at h
  have ha := area_schema hd
  unfold area at ha
  dsimp only at ha h hk
  cases hc : classify path <;> rw [hc] at ha h <;> first | (cases ha; done) | skip
  · rename_i d f
    have hp := of_classify_field hc
    subst hp
    have hf : f % 65536 = f := Nat.mod_eq_of_lt (hk f (by simp))
    dsimp only at h
    unfold armField at h
    split at h
    · cases h; exact hs
    · rename_i hd128
      dsimp only at h
      rw [hf] at h
      split at h
      · cases h
        intro tb fl h1 h2
        dsimp only at h1
        rw [HMap.get_modify] at h1
        have hs' : ∀ tb' fl, (if st.file.tables.contains (d - 128) = true then st.file.tables else st.file.tables.insert (d - 128) {}).get t = some tb' →
            tb'.fields.get k = some fl → fl.name = [] := by
          split
          · exact hs
          · exact nameless_insert hs (fun fl h => by cases h)
        generalize (if st.file.tables.contains (d - 128) = true then st.file.tables else st.file.tables.insert (d - 128) {}) = tbs at h1 hs'
        split at h1
        · rename_i ht
          cases hg : tbs.get (d - 128) with
          | none => rw [← ht, ht] at h1; rw [hg] at h1; cases h1
          | some tb0 =>
            rw [hg] at h1
            cases h1
            dsimp only at h2
            rw [HMap.get_insert] at h2
            split at h2
            · cases h2; rfl
            · exact hs' tb0 fl (by rw [ht]; exact hg) h2
        · exact hs' tb fl h1 h2
      · split at h
        · cases h; exact hs
        · rename_i fs hfs
          split at h
          · cases h
          · split at h
            · cases h
              intro tb fl h1 h2
              dsimp only at h1
              rw [HMap.get_modify] at h1
              split at h1
              · rename_i ht
                cases hg : st.file.tables.get (d - 128) with
                | none => rw [hg] at h1; cases h1
                | some tb0 =>
                  rw [hg] at h1
                  cases h1
                  dsimp only at h2
                  rw [HMap.get_modify] at h2
                  split at h2
                  · rename_i hkf
                    cases hg2 : tb0.fields.get f with
                    | none => rw [hg2] at h2; cases h2
                    | some fl0 =>
                      rw [hg2] at h2
                      cases h2
                      have h0 := hs tb0 fl0 (by rw [ht]; exact hg) (by rw [hkf]; exact hg2)
                      rw [fieldSetter_name hfs, h0]
                      intro hk16
                      cases w with
                      | kv key v =>
                        have : key = 16 := hk16
                        subst this
                        apply he v
                        have : d = 128 + t := by omega
                        rw [this, hkf]
                      | _ => simp [toChunk] at hk16
                  · exact hs tb0 fl (by rw [ht]; exact hg) h2
              · exact hs tb fl h1 h2
            · cases h
  · rename_i d
    dsimp only at h
    unfold armTableMeta at h
    split at h
    · split at h
      · cases h; exact hs
      · obtain ⟨u, _, h⟩ := bind_ok.mp h
        cases h
        exact nameless_insert hs (fun fl h => by cases h)
    · split at h
      · obtain ⟨u, _, h⟩ := bind_ok.mp h
        split at h
        · cases h
          intro tb fl h1 h2
          dsimp only at h1
          rw [HMap.get_modify] at h1
          split at h1
          · rename_i ht
            cases hg : st.file.tables.get u with
            | none => rw [hg] at h1; cases h1
            | some tb0 =>
              rw [hg] at h1
              cases h1
              exact hs tb0 fl (by rw [ht]; exact hg) h2
          · exact hs tb fl h1 h2
        · cases h
      · cases h; exact hs

theorem nameless_run {p : Profile} {t k : Nat} {evs : List Event} (he : ∀ v, ⟨[128 + t, 3, 5, k], .kv 16 v⟩ ∉ evs)
    (hk : ∀ e ∈ evs, ∀ x ∈ e.path, x < 65536) (hd : ∀ e ∈ evs, Spec.describesSchema e = true) :
    ∀ {st st' : DState}, Nameless st t k → runEvents p st evs = .ok st' → Nameless st' t k := by
  induction evs with
  | nil => intro st st' hs h; cases h; exact hs
  | cons e evs ih =>
    intro st st' hs h
    rw [runEvents_cons] at h
    obtain ⟨u, h1, h2⟩ := bind_ok.mp h
    refine ih (fun v hv => he v (by simp [hv])) (fun e he => hk e (by simp [he])) (fun e he => hd e (by simp [he])) ?_ h2
    exact nameless_step hs (fun v hv => he v (by simp [hv])) (hk e (by simp)) (hd e (by simp)) h1

/-- Directory numbers are small. -/
theorem format_small {c : Nat} {bytes : Bytes} {w : Option Spec.What} {n : Nat} (h : Spec.ChunkFormat c bytes w n) : n < 65536 := by
  cases h <;> first | omega | (rename_i n _; have := n.toNat_lt; omega) | (rename_i n _ _; have := n.toNat_lt; omega) | (rename_i n; have := n.toNat_lt; omega)

theorem pathAfter_small {b : UInt8} {n : Nat} {path : List Nat} (hn : n < 65536) (hp : ∀ x ∈ path, x < 65536) :
    ∀ x ∈ Spec.pathAfter b n path, x < 65536 := by
  intro x hx
  have key : ∀ x ∈ (if Spec.isPush b then path ++ [n] else if Spec.isPop b then path.dropLast else path), x < 65536 := by
    intro x hx
    split at hx
    · rcases List.mem_append.mp hx with hx | hx
      · exact hp x hx
      · rw [List.mem_singleton.mp hx]; exact hn
    · split at hx
      · exact hp x (List.dropLast_subset _ hx)
      · exact hp x hx
  unfold Spec.pathAfter at hx
  dsimp only at hx
  by_cases hd : Spec.delayed b
  · rw [if_pos hd] at hx
    exact key x (List.dropLast_subset _ hx)
  · rw [if_neg hd] at hx
    exact key x hx

theorem run_small {path path' : List Nat} {bytes : Bytes} {raws : List Raw} (h : RawRun path bytes raws path') (hp : ∀ x ∈ path, x < 65536) :
    (∀ r ∈ raws, ∀ x ∈ r.path, x < 65536) ∧ ∀ x ∈ path', x < 65536 := by
  induction h with
  | nil path => exact ⟨fun r hr => by simp at hr, hp⟩
  | @cons path path' b bytes rest w n raws hc _ ih =>
    have h1 := pathAfter_small (b := b) (format_small hc) hp
    obtain ⟨i1, i2⟩ := ih h1
    refine ⟨fun r hr => ?_, i2⟩
    rcases List.mem_cons.mp hr with rfl | hr
    · exact h1
    · exact i1 r hr

theorem sectors_small {buf : Bytes} {i : Nat} {raws : List Raw} (h : Spec.RawSectors buf i raws) : ∀ r ∈ raws, ∀ x ∈ r.path, x < 65536 := by
  induction h with
  | last => intro r hr; simp at hr
  | sector _ _ _ _ hr _ ih =>
    intro r h
    rcases List.mem_append.mp h with h | h
    · exact (run_small hr (by simp)).1 r h
    · exact ih r h
  | openSector _ _ _ _ hr _ ih =>
    intro r h
    rcases List.mem_append.mp h with h | h
    · rcases List.mem_append.mp h with h | h
      · exact (run_small hr (by simp)).1 r h
      · rw [(List.mem_replicate.mp h).2]
        exact (run_small hr (by simp)).2
    · exact ih r h

theorem seen_small {buf : Bytes} {raws : List Raw} (h : Spec.RawFileOf buf raws) : ∀ e ∈ Spec.seen raws, ∀ x ∈ e.path, x < 65536 := by
  intro e he
  obtain ⟨r, hr, hre⟩ := List.mem_filterMap.mp he
  obtain ⟨q, op, ops, w⟩ := r
  cases w with
  | none => cases hre
  | some w => cases hre; exact sectors_small h.2 _ hr

theorem nameless_entered {p : Profile} {st st' : DState} {t k : Nat} (hk : k < 65536) (h : edispatch p st ⟨[128 + t, 3, 5, k], .push⟩ = .ok st') :
    Nameless st' t k := by
  unfold edispatch dispatch at h
  rw [classify_field k (by omega)] at h
  dsimp only at h
  unfold armField at h
  rw [if_neg (by omega), Nat.mod_eq_of_lt hk, Nat.add_sub_cancel_left] at h
  dsimp only at h
  rw [if_pos (show (toChunk ⟨[128 + t, 3, 5, k], .push⟩).ctype = .pathPush from rfl)] at h
  cases h
  intro tb fl h1 h2
  dsimp only at h1
  rw [HMap.get_modify, if_pos rfl] at h1
  generalize (if st.file.tables.contains t = true then st.file.tables else st.file.tables.insert t {}) = tbs at h1
  cases hg : tbs.get t with
  | none => rw [hg] at h1; cases h1
  | some tb0 =>
    rw [hg] at h1
    cases h1
    dsimp only at h2
    rw [HMap.get_insert, if_pos rfl] at h2
    cases h2
    rfl

theorem classify_layout_below (id : Nat) (below : List Nat) : classify ([4, 1, 7, id] ++ below) = .layout id := by
  simp [classify]

theorem blank_entered {p : Profile} {st st' : DState} {id : Nat} {below : List Nat} (h : edispatch p st ⟨[4, 1, 7, id] ++ below, .push⟩ = .ok st') :
    st'.file.layouts.get id = some {} := by
  unfold edispatch dispatch at h
  dsimp only at h
  rw [classify_layout_below] at h
  dsimp only at h
  unfold armLayout at h
  rw [if_pos (show (toChunk ⟨[4, 1, 7, id] ++ below, .push⟩).ctype = .pathPush from rfl)] at h
  cases h
  dsimp only
  rw [HMap.get_insert, if_pos rfl]

theorem blank_step {p : Profile} {st st' : DState} {id : Nat} {e : Event} (he : e.path.take 4 = [4, 1, 7, id] → ∀ v, e.what ≠ .kv 2 v ∧ e.what ≠ .kv 16 v)
    (ha : Spec.aboutLayouts e = true) (hs : st.file.layouts.get id = some {}) (h : edispatch p st e = .ok st') : st'.file.layouts.get id = some {} := by
  obtain ⟨path, w⟩ := e
  have hp : ∃ i below, path = [4, 1, 7, i] ++ below := by
    unfold Spec.aboutLayouts at ha
    simp only [Bool.and_eq_true, decide_eq_true_eq, beq_iff_eq] at ha
    obtain ⟨⟨h1, h2⟩, _⟩ := ha
    match path, h1, h2 with
    | x :: y :: z :: i :: below, h1, _ =>
      simp at h1
      obtain ⟨rfl, rfl, rfl⟩ := h1
      exact ⟨i, below, rfl⟩
  obtain ⟨i, below, rfl⟩ := hp
  dsimp only at he
  unfold edispatch dispatch at h
  dsimp only at h
  rw [classify_layout_below] at h
  dsimp only at h
  unfold armLayout at h
  split at h
  · cases h
    dsimp only
    rw [HMap.get_insert, hs]
    split <;> rfl
  · by_cases hi : i = id
    · subst hi
      have he := he rfl
      split at h
      · rename_i hc
        cases w with
        | kv key v => have : key = 2 := Option.some.inj hc.1; subst this; exact absurd rfl (he v).1
        | _ => cases hc.1
      · split at h
        · rename_i hc
          cases w with
          | kv key v => have : key = 16 := Option.some.inj hc.1; subst this; exact absurd rfl (he v).2
          | _ => cases hc.1
        · cases h; exact hs
    · have hi : ¬id = i := fun h => hi h.symm
      split at h
      · obtain ⟨d, _, h⟩ := bind_ok.mp h
        obtain ⟨c, _, h⟩ := bind_ok.mp h
        obtain ⟨o, _, h⟩ := bind_ok.mp h
        cases h
        dsimp only
        rw [HMap.get_modify, if_neg hi]
        exact hs
      · split at h
        · obtain ⟨d, _, h⟩ := bind_ok.mp h
          cases h
          dsimp only
          rw [HMap.get_modify, if_neg hi]
          exact hs
        · cases h; exact hs

theorem blank_run {p : Profile} {id : Nat} {evs : List Event} (he : ∀ e ∈ evs, e.path.take 4 = [4, 1, 7, id] → ∀ v, e.what ≠ .kv 2 v ∧ e.what ≠ .kv 16 v)
    (ha : ∀ e ∈ evs, Spec.aboutLayouts e = true) : ∀ {st st' : DState}, st.file.layouts.get id = some {} → runEvents p st evs = .ok st' →
    st'.file.layouts.get id = some {} := by
  induction evs with
  | nil => intro st st' hs h; cases h; exact hs
  | cons e evs ih =>
    intro st st' hs h
    rw [runEvents_cons] at h
    obtain ⟨u, h1, h2⟩ := bind_ok.mp h
    exact ih (fun e h => he e (by simp [h])) (fun e h => ha e (by simp [h])) (blank_step (he e (by simp)) (ha e (by simp)) hs h1) h2

/-- A file in the format is decompiled or makes the program panic. -/
theorem decompile_fails_iff {p : Profile} {b : Bytes} {raws : List Raw} (hb : Spec.RawFileOf b raws) :
    (∃ fuel e, decompile p b fuel = .error e) ↔ ¬∃ f fuel, decompile p b fuel = .ok (some f) := by
  constructor
  · rintro ⟨fuel, e, he⟩ ⟨f, fuel', hf⟩
    rcases Nat.le_total fuel fuel' with hle | hle
    · rw [decompile_mono he (by simp) _ hle] at hf
      cases hf
    · rw [decompile_mono hf (by simp) _ hle] at he
      cases he
  · intro hn
    obtain ⟨fuel, hfuel⟩ := raw_events (p := p) hb
    obtain ⟨h1, _⟩ := hfuel fuel (Nat.le_refl _)
    rcases hd : decompile p b fuel with e | (_ | f)
    · exact ⟨fuel, e, hd⟩
    · exact absurd hd h1
    · exact absurd ⟨f, fuel, hd⟩ hn

end BurnFm
