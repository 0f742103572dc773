import Verif.Proofs.ChunkShape
import Verif.Spec.Schema

namespace BurnFm

/-- What an event does to the tables. -/
def tstep (T : HMap FTable) (e : Spec.Event) : HMap FTable :=
  match classify e.path, e.what with
  | .tableMeta d, .push => if T.contains d then T else T.insert (d - 128) {}
  | .tableMeta d, .kv k v => if k = 16 then T.modify (d - 128) ({ · with name := fmStringDecrypt v }) else T
  | .field d f, .push =>
    let T := if T.contains (d - 128) then T else T.insert (d - 128) {}
    T.modify (d - 128) (fun tb => { tb with fields := tb.fields.insert (f % 65536) {} })
  | .field d f, .kv k v =>
    match fieldSetter k (fmStringDecrypt v) with
    | none => T
    | some g => T.modify (d - 128) (fun tb => { tb with fields := tb.fields.modify (f % 65536) g })
  | _, _ => T

/-- If the result is a state, its tables are those of `T`. -/
def Keeps (T : HMap FTable) (r : Res DState) : Prop := ∀ st', r = .ok st' → st'.file.tables = T

theorem Keeps.ok {T : HMap FTable} {st : DState} (h : st.file.tables = T) : Keeps T (.ok st) := by
  intro st' e; cases e; exact h
theorem Keeps.pure {T : HMap FTable} {st : DState} (h : st.file.tables = T) : Keeps T (pure st) := Keeps.ok h
theorem Keeps.err {T : HMap FTable} {e : Panic} : Keeps T (.error e) := by intro st' h; cases h
theorem Keeps.bind {α : Type} {T : HMap FTable} {x : Res α} {g : α → Res DState} (h : ∀ a, Keeps T (g a)) : Keeps T (x >>= g) := by
  intro st' e
  obtain ⟨a, _, e⟩ := bind_ok.mp e
  exact h a st' e
theorem Keeps.fold {α : Type} {T : HMap FTable} {l : List α} {f : DState → α → Res DState} {s : DState}
    (h : ∀ s a, s.file.tables = T → Keeps T (f s a)) (hs : s.file.tables = T) : Keeps T (l.foldlM f s) := by
  induction l generalizing s with
  | nil => exact .ok hs
  | cons a l ih =>
    rw [List.foldlM_cons]
    intro st' e
    obtain ⟨u, h1, h2⟩ := bind_ok.mp e
    exact ih (h s a hs u h1) st' h2

macro "keeps" : tactic => `(tactic| repeat' (first
  | exact Keeps.err
  | exact Keeps.ok rfl
  | exact Keeps.pure rfl
  | exact Keeps.ok (by assumption)
  | exact Keeps.pure (by assumption)
  | (refine Keeps.bind (fun _ => ?_))
  | split
  | dsimp only))

theorem armScript_tables {st : DState} {id : Nat} {ch : Chunk} : Keeps st.file.tables (armScript st id ch) := by
  unfold armScript
  split
  · exact .pure rfl
  · split
    · refine .bind fun d => .fold (fun s b hs => ?_) rfl
      keeps
    · split
      · refine .bind fun d => .fold (fun s b hs => ?_) rfl
        keeps
      · exact .pure rfl

theorem assembleScripts_tables {st : DState} {f : FmpFile} (h : assembleScripts st = .ok f) : f.tables = st.file.tables := by
  unfold assembleScripts at h
  obtain ⟨u, h1, h2⟩ := bind_ok.mp h
  cases h2
  refine Keeps.fold (fun s b hs => ?_) rfl u h1
  unfold assembleScript
  refine .fold (fun s b hs => ?_) hs
  keeps

/-- Arms that are not about tables do not touch them. -/
theorem dispatch_tables_other {p : Profile} {st st' : DState} {path : DirPath} {ch : Chunk}
    (h : dispatch p st path ch = .ok st') (h1 : ∀ d, classify path ≠ .tableMeta d) (h2 : ∀ d f, classify path ≠ .field d f) :
    st'.file.tables = st.file.tables := by
  have key : Keeps st.file.tables (dispatch p st path ch) := by
    unfold dispatch
    cases hc : classify path with
    | tableMeta d => exact absurd hc (h1 d)
    | field d f => exact absurd hc (h2 d f)
    | script id => exact armScript_tables
    | other => exact .ok rfl
    | relationship => dsimp only; unfold armRelationship; keeps
    | occurrence => dsimp only; unfold armOccurrence; keeps
    | join => dsimp only; unfold armJoin; keeps
    | layout => dsimp only; unfold armLayout; keeps
    | segment => dsimp only; unfold armSegments; keeps
    | stepExpr => dsimp only; unfold armStepExpr; keeps
    | stepName => dsimp only; unfold armStepName; keeps
    | stepValue => dsimp only; unfold armStepValue; keeps
    | scriptMeta => dsimp only; unfold armScriptMeta; keeps
    | sourceNames => dsimp only; unfold armSourceNames; keeps
    | source => dsimp only; unfold armSource; keeps
  exact key st' h

theorem Shape.cases {ch : Chunk} (h : Shape ch) :
    (ch.ctype = .pathPush ∧ meaning ch = some .push ∧ ch.refSimple = none) ∨
    (ch.ctype = .refSimple ∧ ∃ k v, ch.refSimple = some k ∧ ch.data = some v ∧ meaning ch = some (.kv k v)) ∨
    (ch.ctype ≠ .pathPush ∧ ch.ctype ≠ .refSimple ∧ ch.refSimple = none ∧ meaning ch ≠ some .push ∧ ∀ k v, meaning ch ≠ some (.kv k v)) := by
  obtain ⟨h1, h2, h3, h4⟩ := h
  unfold meaning
  cases hc : ch.ctype <;> cases hr : ch.refSimple <;> cases hd : ch.data <;> cases hs : ch.segmentIdx <;> cases hl : ch.refData <;>
    simp_all

theorem classify_tableMeta (x : Nat) : classify [3, 16, 5, x] = .tableMeta x := by
  simp [classify]

theorem classify_field {d : Nat} (f : Nat) (h : 128 ≤ d) : classify [d, 3, 5, f] = .field d f := by
  have : d ≠ 3 := by omega
  simp [classify]

theorem take3_eq {path : List Nat} {a b c : Nat} (h : path.length = 4) (h2 : path.take 3 = [a, b, c]) : path = [a, b, c, path.getD 3 0] := by
  match path, h with
  | [x, y, z, w], _ => simp at h2; simp [h2]

theorem ite_elim {α : Type} {P c : Prop} [Decidable c] {a b x : α} (h : (if c then a else b) = x)
    (h1 : c → a = x → P) (h2 : b = x → P) : P := by
  by_cases hc : c
  · rw [if_pos hc] at h; exact h1 hc h
  · rw [if_neg hc] at h; exact h2 h

theorem of_classify_tableMeta {path : DirPath} {d : Nat} (h : classify path = .tableMeta d) : path = [3, 16, 5, d] := by
  unfold classify at h
  dsimp only at h
  repeat' (refine ite_elim h (fun hx h => ?_) (fun h => ?_))
  all_goals try (cases h; done)
  cases h
  exact take3_eq hx.1 hx.2

theorem of_classify_field {path : DirPath} {d f : Nat} (h : classify path = .field d f) : path = [d, 3, 5, f] := by
  unfold classify at h
  dsimp only at h
  repeat' (refine ite_elim h (fun hx h => ?_) (fun h => ?_))
  all_goals try (cases h; done)
  cases h
  obtain ⟨h1, h2, h3⟩ := hx
  match path, h1 with
  | [x, y, z, w], _ =>
    simp at h2 h3
    subst h2 h3
    rfl

/-- The effect of a chunk on the tables. -/
theorem dispatch_tables {p : Profile} {st st' : DState} {ch : Chunk} (hs : Shape ch) (h : dispatch p st ch.path ch = .ok st')
    (hd : ∀ w x, meaning ch = some w → Spec.describesSchema ⟨ch.path, w⟩ = true → ch.path = [3, 16, 5, x] → 128 ≤ x) :
    st'.file.tables = match meaning ch with
      | none => st.file.tables
      | some w => if Spec.describesSchema ⟨ch.path, w⟩ then tstep st.file.tables ⟨ch.path, w⟩ else st.file.tables := by
  cases hc : classify ch.path with
  | tableMeta d =>
    have hp := of_classify_tableMeta hc
    unfold dispatch at h
    rw [hc] at h
    dsimp only at h
    unfold armTableMeta at h
    rcases hs.cases with ⟨h1, h2, h3⟩ | ⟨h1, k, v, h2, h3, h4⟩ | ⟨h1, h2, h3, h4, h5⟩
    · have := hd .push d h2 (by rw [hp]; rfl) hp
      rw [if_pos h1] at h
      rw [h2]
      dsimp only
      rw [if_pos (by rw [hp]; rfl)]
      unfold tstep
      dsimp only
      rw [hc]
      dsimp only
      split at h
      · rename_i hx; cases h; rw [if_pos hx]
      · rename_i hx
        unfold usub at h
        rw [if_pos this] at h
        cases h
        rw [if_neg hx]
    · have := hd (.kv k v) d h4 (by rw [hp]; rfl) hp
      rw [if_neg (by rw [h1]; simp), h2] at h
      rw [h4]
      dsimp only
      rw [if_pos (by rw [hp]; rfl)]
      unfold tstep
      dsimp only
      rw [hc]
      dsimp only
      unfold usub at h
      rw [if_pos this, ok_bind] at h
      by_cases hk : k = 16
      · subst hk
        rw [if_pos rfl]
        simp only [Option.getD_some, if_true] at h
        split at h
        · cases h
          dsimp only
          unfold dataOr
          rw [h3]
          rfl
        · cases h
      · rw [if_neg hk]
        simp only [Option.getD_some, hk, if_false] at h
        cases h; rfl
    · rw [if_neg h1, h3] at h
      simp only [Option.getD_none, show ((0 : Nat) = 16) = False by simp, if_false] at h
      cases h
      cases hm : meaning ch with
      | none => rfl
      | some w =>
        dsimp only
        rw [if_neg]
        rw [hm] at h4 h5
        unfold Spec.describesSchema
        cases w <;> simp_all
  | field d f =>
    have hp := of_classify_field hc
    unfold dispatch at h
    rw [hc] at h
    dsimp only at h
    unfold armField at h
    by_cases hd128 : d < 128
    · rw [if_pos hd128] at h
      cases h
      cases hm : meaning ch with
      | none => rfl
      | some w =>
        dsimp only
        rw [if_neg]
        unfold Spec.describesSchema Spec.isEntry
        rw [hp]
        simp
        omega
    · rw [if_neg hd128] at h
      have hdesc : ∀ w, (w = .push ∨ ∃ k v, w = .kv k v) → Spec.describesSchema ⟨ch.path, w⟩ = true := by
        intro w hw
        unfold Spec.describesSchema Spec.isEntry
        rw [hp]
        rcases hw with rfl | ⟨k, v, rfl⟩ <;> simp <;> omega
      dsimp only at h
      rcases hs.cases with ⟨h1, h2, h3⟩ | ⟨h1, k, v, h2, h3, h4⟩ | ⟨h1, h2, h3, h4, h5⟩
      · rw [if_pos h1] at h
        rw [h2]
        dsimp only
        rw [if_pos (hdesc _ (.inl rfl))]
        unfold tstep
        dsimp only
        rw [hc]
        cases h
        rfl
      · rw [if_neg (by rw [h1]; simp), h2] at h
        rw [h4]
        dsimp only
        rw [if_pos (hdesc _ (.inr ⟨_, _, rfl⟩))]
        unfold tstep
        dsimp only
        rw [hc]
        dsimp only
        unfold dataOr at h
        rw [h3] at h
        dsimp only [Option.getD_some] at h
        cases hf : fieldSetter k (fmStringDecrypt v) with
        | none => rw [hf] at h; cases h; rfl
        | some g =>
          rw [hf] at h
          dsimp only at h ⊢
          cases hg : st.file.tables.get (d - 128) with
          | none => rw [hg] at h; cases h
          | some tb =>
            rw [hg] at h
            dsimp only at h
            split at h
            · cases h; rfl
            · cases h
      · rw [if_neg h1, h3] at h
        have : ∀ s, fieldSetter ((none : Option Nat).getD 0) s = none := fun s => rfl
        rw [this] at h
        cases h
        cases hm : meaning ch with
        | none => rfl
        | some w =>
          dsimp only
          rw [if_neg]
          rw [hm] at h4 h5
          unfold Spec.describesSchema
          cases w <;> simp_all
  | _ =>
    have hk := dispatch_tables_other h (by rw [hc]; simp) (by rw [hc]; simp)
    rw [hk]
    cases hm : meaning ch with
    | none => rfl
    | some w =>
      dsimp only
      split
      · unfold tstep
        dsimp only
        rw [hc]
      · rfl

theorem run_tables {p : Profile} {chs : List Chunk} (hs : ∀ ch ∈ chs, Shape ch)
    (hd : ∀ e ∈ eventsOf chs, ∀ x, Spec.describesSchema e = true → e.path = [3, 16, 5, x] → 128 ≤ x) :
    ∀ {st st' : DState}, runChunks p st chs = .ok st' →
      st'.file.tables = ((eventsOf chs).filter Spec.describesSchema).foldl tstep st.file.tables := by
  induction chs with
  | nil => intro st st' h; cases h; rfl
  | cons ch chs ih =>
    intro st st' h
    rw [runChunks_cons] at h
    obtain ⟨u, h1, h2⟩ := bind_ok.mp h
    have e : eventsOf (ch :: chs) = ((meaning ch).map fun w => (⟨ch.path, w⟩ : Spec.Event)).toList ++ eventsOf chs := by
      unfold eventsOf
      rw [List.filterMap_cons]
      cases meaning ch <;> rfl
    have h3 := ih (fun c hc => hs c (by simp [hc])) (fun e' he => hd e' (by rw [e]; exact List.mem_append_right _ he)) h2
    have h4 := dispatch_tables (hs ch (by simp)) h1 (fun w x hw => hd ⟨ch.path, w⟩ (by rw [e, hw]; simp) x)
    rw [h3, h4, e]
    cases hm : meaning ch with
    | none => rfl
    | some w =>
      simp only [Option.map_some, Option.toList_some, List.cons_append, List.nil_append, List.filter_cons]
      split <;> rfl

end BurnFm
