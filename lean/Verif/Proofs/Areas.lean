import Verif.Proofs.Components
import Verif.Proofs.SchemaFile

/-! Which events touch which part of a file, and runs of mixed events. -/

namespace BurnFm
open Spec (Event What)

inductive Area where
  | tables | graph | layouts | scripts | sources | none
  deriving DecidableEq

def areaOf : Place → Area
  | .relationship => .graph
  | .occurrence => .graph
  | .join _ => .graph
  | .layout _ => .layouts
  | .field _ _ => .tables
  | .tableMeta _ => .tables
  | .segment _ => .scripts
  | .stepExpr _ _ => .scripts
  | .stepName _ _ => .scripts
  | .stepValue _ _ => .scripts
  | .script _ => .scripts
  | .scriptMeta _ => .scripts
  | .sourceNames => .sources
  | .source _ => .sources
  | .other => .none

def area (e : Event) : Area := areaOf (classify e.path)

theorem classify_occurrence (rest : List Nat) (h : rest ≠ [251]) : classify (3 :: 17 :: 5 :: 0 :: rest) = .occurrence := by
  simp [classify, h]

theorem classify_join (r : Nat) : classify [3, 251, 5, r, 3] = .join r := by simp [classify]

theorem classify_layout (x : Nat) (rest : List Nat) : classify (4 :: 1 :: 7 :: x :: rest) = .layout x := by simp [classify]

theorem classify_scriptMeta (x y : Nat) (rest : List Nat) : classify (17 :: 1 :: x :: y :: rest) = .scriptMeta y := by simp [classify]

theorem classify_stepExpr (s k : Nat) : classify [17, 5, s, 5, k, 128, 5] = .stepExpr s k := by simp [classify]
theorem classify_stepName (s k : Nat) : classify [17, 5, s, 5, k, 128] = .stepName s k := by simp [classify]
theorem classify_stepValue (s k : Nat) : classify [17, 5, s, 5, k, 129, 5] = .stepValue s k := by simp [classify]
theorem classify_code (s : Nat) : classify [17, 5, s] = .script s := by simp [classify]

theorem areaOf_scripts (s : Nat) (rest : List Nat) : areaOf (classify (17 :: 5 :: s :: rest)) = .scripts := by
  simp only [classify]
  simp
  repeat' split
  all_goals first
    | rfl
    | (exfalso; simp_all; done)

theorem path4 {path : List Nat} {a b c d : Nat} (h : path.take 4 = [a, b, c, d]) : ∃ rest, path = a :: b :: c :: d :: rest := by
  match path, h with
  | x :: y :: z :: w :: rest, h => simp at h; obtain ⟨rfl, rfl, rfl, rfl⟩ := h; exact ⟨rest, rfl⟩

theorem path31 {path : List Nat} {a b c : Nat} (h : path.take 3 = [a, b, c]) (hl : 4 ≤ path.length) : ∃ x rest, path = a :: b :: c :: x :: rest := by
  match path, h, hl with
  | x :: y :: z :: w :: rest, h, _ => simp at h; obtain ⟨rfl, rfl, rfl⟩ := h; exact ⟨w, rest, rfl⟩

theorem path22 {path : List Nat} {a b : Nat} (h : path.take 2 = [a, b]) (hl : 4 ≤ path.length) : ∃ x y rest, path = a :: b :: x :: y :: rest := by
  match path, h, hl with
  | x :: y :: z :: w :: rest, h, _ => simp at h; obtain ⟨rfl, rfl⟩ := h; exact ⟨z, w, rest, rfl⟩

theorem path21 {path : List Nat} {a b : Nat} (h : path.take 2 = [a, b]) (hl : 3 ≤ path.length) : ∃ x rest, path = a :: b :: x :: rest := by
  match path, h, hl with
  | x :: y :: z :: rest, h, _ => simp at h; obtain ⟨rfl, rfl⟩ := h; exact ⟨z, rest, rfl⟩

theorem area_schema {e : Event} (h : Spec.describesSchema e = true) : area e = .tables := by
  unfold Spec.describesSchema at h
  rw [Bool.and_eq_true] at h
  unfold area
  rcases isEntry_cases h.1 with ⟨x, hx⟩ | ⟨d, f, hd, hx⟩
  · rw [hx, classify_tableMeta]; rfl
  · rw [hx, classify_field _ hd]; rfl

theorem area_graph {e : Event} (h : Spec.aboutGraph e = true) : area e = .graph := by
  obtain ⟨path, what⟩ := e
  unfold area
  unfold Spec.aboutGraph at h
  cases what with
  | data v =>
    simp at h
    subst h
    rfl
  | kv k v =>
    simp only [Bool.or_eq_true, Bool.and_eq_true, beq_iff_eq, bne_iff_ne] at h
    rcases h with ⟨⟨h1, h2⟩, _⟩ | ⟨⟨⟨h1, h2⟩, h3⟩, _⟩
    · obtain ⟨rest, rfl⟩ := path4 h1
      dsimp only
      rw [classify_occurrence rest (by rintro rfl; exact h2 rfl)]
      rfl
    · obtain ⟨x, rest, rfl⟩ := path31 h2 (by omega)
      match rest, h1, h3 with
      | [y], _, h3 =>
        simp at h3
        subst h3
        dsimp only
        rw [classify_join]
        rfl
  | _ => cases h

theorem area_layouts {e : Event} (h : Spec.aboutLayouts e = true) : area e = .layouts := by
  obtain ⟨path, what⟩ := e
  unfold area
  unfold Spec.aboutLayouts at h
  simp only [Bool.and_eq_true, beq_iff_eq, decide_eq_true_eq] at h
  obtain ⟨x, rest, rfl⟩ := path31 h.1.1 h.1.2
  dsimp only
  rw [classify_layout]
  rfl

theorem area_scripts {e : Event} (h : Spec.aboutScripts e = true) : area e = .scripts := by
  obtain ⟨path, what⟩ := e
  unfold area
  unfold Spec.aboutScripts at h
  simp only [Bool.or_eq_true, Bool.and_eq_true, beq_iff_eq, decide_eq_true_eq] at h
  rcases h with h | h
  · obtain ⟨x, y, rest, rfl⟩ := path22 h.1.1 h.1.2
    dsimp only
    rw [classify_scriptMeta]
    rfl
  · obtain ⟨x, rest, rfl⟩ := path21 h.1.1 h.1.2
    exact areaOf_scripts x rest

/-! The directories of each kind -/

theorem of_classify_relationship {path : DirPath} (h : classify path = .relationship) : path = [3, 17, 5, 0, 251] := by
  unfold classify at h
  dsimp only at h
  repeat' (refine ite_elim h (fun hx h => ?_) (fun h => ?_))
  all_goals try (cases h; done)
  exact hx

theorem of_classify_occurrence {path : DirPath} (h : classify path = .occurrence) :
    path ≠ [3, 17, 5, 0, 251] ∧ path.take 4 = [3, 17, 5, 0] := by
  refine ⟨fun hp => (by rw [hp] at h; cases h), ?_⟩
  unfold classify at h
  dsimp only at h
  repeat' (refine ite_elim h (fun hx h => ?_) (fun h => ?_))
  all_goals try (cases h; done)
  exact hx

theorem of_classify_join {path : DirPath} {r : Nat} (h : classify path = .join r) : path = [3, 251, 5, r, 3] := by
  unfold classify at h
  dsimp only at h
  repeat' (refine ite_elim h (fun hx h => ?_) (fun h => ?_))
  all_goals try (cases h; done)
  cases h
  obtain ⟨h1, h2, h3⟩ := hx
  obtain ⟨x, rest, rfl⟩ := path31 h2 (by omega)
  match rest, h1, h3 with
  | [y], _, h3 => simp at h3; subst h3; rfl

theorem of_classify_layout {path : DirPath} {x : Nat} (h : classify path = .layout x) : ∃ rest, path = 4 :: 1 :: 7 :: x :: rest := by
  unfold classify at h
  dsimp only at h
  repeat' (refine ite_elim h (fun hx h => ?_) (fun h => ?_))
  all_goals try (cases h; done)
  cases h
  obtain ⟨x, rest, rfl⟩ := path31 hx.1 hx.2
  exact ⟨rest, rfl⟩

theorem of_classify_stepExpr {path : DirPath} {s k : Nat} (h : classify path = .stepExpr s k) : path = [17, 5, s, 5, k, 128, 5] := by
  unfold classify at h
  dsimp only at h
  repeat' (refine ite_elim h (fun hx h => ?_) (fun h => ?_))
  all_goals try (cases h; done)
  cases h
  obtain ⟨h1, h2, h3, h4, h5⟩ := hx
  match path, h1 with
  | [a, b, c, d, e, f, g], _ => simp at h2 h3 h4 h5; simp [h2, h3, h4, h5]

theorem of_classify_stepName {path : DirPath} {s k : Nat} (h : classify path = .stepName s k) : path = [17, 5, s, 5, k, 128] := by
  unfold classify at h
  dsimp only at h
  repeat' (refine ite_elim h (fun hx h => ?_) (fun h => ?_))
  all_goals try (cases h; done)
  cases h
  obtain ⟨h1, h2, h3, h4⟩ := hx
  match path, h1 with
  | [a, b, c, d, e, f], _ => simp at h2 h3 h4; simp [h2, h3, h4]

theorem of_classify_stepValue {path : DirPath} {s k : Nat} (h : classify path = .stepValue s k) : path = [17, 5, s, 5, k, 129, 5] := by
  unfold classify at h
  dsimp only at h
  repeat' (refine ite_elim h (fun hx h => ?_) (fun h => ?_))
  all_goals try (cases h; done)
  cases h
  obtain ⟨h1, h2, h3, h4, h5⟩ := hx
  match path, h1 with
  | [a, b, c, d, e, f, g], _ => simp at h2 h3 h4 h5; simp [h2, h3, h4, h5]

theorem of_classify_scriptMeta {path : DirPath} {k : Nat} (h : classify path = .scriptMeta k) : ∃ x rest, path = 17 :: 1 :: x :: k :: rest := by
  unfold classify at h
  dsimp only at h
  repeat' (refine ite_elim h (fun hx h => ?_) (fun h => ?_))
  all_goals try (cases h; done)
  cases h
  obtain ⟨x, y, rest, rfl⟩ := path22 hx.1 hx.2
  exact ⟨x, rest, rfl⟩

theorem of_classify_code {path : DirPath} {k : Nat} (h : classify path = .script k) :
    (∃ rest, path = 17 :: 5 :: k :: rest) ∧ Spec.scriptPlace path = .plain := by
  refine ⟨?_, ?_⟩
  · obtain ⟨h1, _⟩ := of_classify_script h
    match path, h1 with
    | a :: b :: c :: rest, h1 => simp at h1; obtain ⟨rfl, rfl, rfl⟩ := h1; exact ⟨rest, rfl⟩
  · unfold Spec.scriptPlace
    split
    · rw [classify_segment] at h; cases h
    · rw [classify_stepExpr] at h; cases h
    · rw [classify_stepName] at h; cases h
    · rw [classify_stepValue] at h; cases h
    · rfl

/-! Events about nothing have no effect -/

theorem idle_tables {p : Profile} {st : DState} {e : Event} (ha : area e = .tables) (h : Spec.describesSchema e = false) :
    edispatch p st e = .ok st := by
  obtain ⟨path, what⟩ := e
  unfold area at ha
  unfold edispatch dispatch
  unfold Spec.describesSchema at h
  dsimp only at *
  cases hc : classify path <;> rw [hc] at ha <;> first | (cases ha; done) | skip
  · have := of_classify_field hc
    subst this
    dsimp only
    unfold armField
    rename_i d f
    by_cases hd : d < 128
    · rw [if_pos hd]; rfl
    · rw [if_neg hd]
      have : Spec.isEntry [d, 3, 5, f] = true := isEntry_field _ (by omega)
      rw [this] at h
      cases what <;> first | (cases h; done) | rfl
  · have := of_classify_tableMeta hc
    subst this
    rename_i d
    rw [isEntry_table] at h
    cases what <;> first | (cases h; done) | rfl

theorem idle_graph {p : Profile} {st : DState} {e : Event} (ha : area e = .graph) (h : Spec.aboutGraph e = false) :
    edispatch p st e = .ok st := by
  obtain ⟨path, what⟩ := e
  unfold area at ha
  unfold edispatch dispatch
  unfold Spec.aboutGraph at h
  dsimp only at *
  cases hc : classify path <;> rw [hc] at ha <;> first | (cases ha; done) | skip
  · have := of_classify_relationship hc
    subst this
    cases what <;> first | rfl | (cases h; done)
  · obtain ⟨h1, h2⟩ := of_classify_occurrence hc
    cases what with
    | kv k v =>
      simp [h1, h2] at h
      dsimp only
      unfold armOccurrence toChunk
      dsimp only
      simp [h.1.1, h.1.2]
      rfl
    | _ => rfl
  · have := of_classify_join hc
    subst this
    cases what with
    | kv k v =>
      simp at h
      dsimp only
      unfold armJoin toChunk
      dsimp only
      simp [h]
      rfl
    | _ => rfl

theorem idle_layouts {p : Profile} {st : DState} {e : Event} (ha : area e = .layouts) (h : Spec.aboutLayouts e = false) :
    edispatch p st e = .ok st := by
  obtain ⟨path, what⟩ := e
  unfold area at ha
  unfold edispatch dispatch
  unfold Spec.aboutLayouts at h
  dsimp only at *
  cases hc : classify path <;> rw [hc] at ha <;> first | (cases ha; done) | skip
  obtain ⟨rest, rfl⟩ := of_classify_layout hc
  cases what with
  | kv k v => simp at h
  | push => simp at h
  | _ => dsimp only; unfold armLayout toChunk; simp; rfl

theorem idle_scripts {p : Profile} {st : DState} {e : Event} (ha : area e = .scripts) (h : Spec.aboutScripts e = false) :
    edispatch p st e = .ok st := by
  obtain ⟨path, what⟩ := e
  unfold area at ha
  unfold edispatch dispatch
  unfold Spec.aboutScripts at h
  dsimp only at *
  cases hc : classify path <;> rw [hc] at ha <;> first | (cases ha; done) | skip
  · have := of_classify_segment hc
    subst this
    simp [Spec.scriptPlace] at h
    cases what <;> first | (cases h; done) | rfl
  · have := of_classify_stepExpr hc
    subst this
    simp [Spec.scriptPlace] at h
    cases what <;> first | rfl | skip
    dsimp only at h ⊢
    unfold armStepExpr toChunk
    simp at h ⊢
    rw [if_neg h]
    rfl
  · have := of_classify_stepName hc
    subst this
    simp [Spec.scriptPlace] at h
    cases what <;> first | rfl | skip
    dsimp only at h ⊢
    unfold armStepName toChunk
    simp at h ⊢
    rw [if_neg h]
    rfl
  · have := of_classify_stepValue hc
    subst this
    simp [Spec.scriptPlace] at h
  · obtain ⟨⟨rest, rfl⟩, hpl⟩ := of_classify_code hc
    rw [hpl] at h
    simp at h
    cases what <;> first | rfl | skip
    · dsimp only at h ⊢
      unfold armScript toChunk
      simp at h ⊢
      rw [if_neg h]
      rfl
    · dsimp only at h ⊢
      unfold armScript toChunk
      simp at h ⊢
      rw [if_neg h]
      rfl
  · obtain ⟨x, rest, rfl⟩ := of_classify_scriptMeta hc
    simp at h
    cases what <;> first | rfl | skip
    dsimp only at h ⊢
    unfold armScriptMeta toChunk
    simp at h ⊢
    rw [if_neg h]
    rfl

/-! Runs -/

def runEvents (p : Profile) (st : DState) (es : List Event) : Res DState := es.foldlM (edispatch p) st

theorem runEvents_cons (p : Profile) (st : DState) (e : Event) (es : List Event) :
    runEvents p st (e :: es) = edispatch p st e >>= fun st => runEvents p st es := by
  unfold runEvents; rw [List.foldlM_cons]

theorem runEvents_append (p : Profile) (st : DState) (a b : List Event) :
    runEvents p st (a ++ b) = runEvents p st a >>= fun st => runEvents p st b := by
  unfold runEvents; rw [List.foldlM_append]

theorem edispatch_merge (p : Profile) (T G L S : DState) (e : Event) :
    (area e = .tables → edispatch p (merge T G L S) e = (fun T => merge T G L S) <$> edispatch p T e) ∧
    (area e = .graph → edispatch p (merge T G L S) e = (fun G => merge T G L S) <$> edispatch p G e) ∧
    (area e = .layouts → edispatch p (merge T G L S) e = (fun L => merge T G L S) <$> edispatch p L e) ∧
    (area e = .scripts → edispatch p (merge T G L S) e = (fun S => merge T G L S) <$> edispatch p S e) ∧
    (area e = .none → edispatch p (merge T G L S) e = .ok (merge T G L S)) := by
  unfold area edispatch dispatch
  refine ⟨?_, ?_, ?_, ?_, ?_⟩ <;> intro h <;> cases hc : classify e.path <;> rw [hc] at h <;> first | (cases h; done) | skip
  all_goals dsimp only
  · exact frame_field ..
  · exact frame_tableMeta ..
  · exact frame_relationship ..
  · exact frame_occurrence ..
  · exact frame_join ..
  · exact frame_layout ..
  · exact frame_segments ..
  · exact frame_stepExpr ..
  · exact frame_stepName ..
  · exact frame_stepValue ..
  · exact frame_script ..
  · exact frame_scriptMeta ..

theorem filter_skip {α : Type} {f : α → Bool} {a : α} {l : List α} (h : f a = false) : (a :: l).filter f = l.filter f :=
  List.filter_cons_of_neg (by simp [h])

/-- One event: the component it is about makes a step, the others do not. -/
theorem run_component {p : Profile} {s s' : DState} {e : Event} {evs : List Event} {f : Event → Bool}
    (hi : f e = false → ∀ st, edispatch p st e = .ok st) (h : runEvents p s ((e :: evs).filter f) = .ok s') :
    ∃ u, edispatch p s e = .ok u ∧ runEvents p u (evs.filter f) = .ok s' := by
  cases hf : f e with
  | true =>
    rw [List.filter_cons_of_pos hf, runEvents_cons] at h
    exact bind_ok.mp h
  | false =>
    rw [filter_skip hf] at h
    exact ⟨s, hi hf s, h⟩

/-- A run over mixed events is a run for each component. -/
theorem run_split (p : Profile) (evs : List Event) (hs : ∀ e ∈ evs, area e ≠ .sources) : ∀ {T G L S T' G' L' S' : DState},
    runEvents p T (evs.filter Spec.describesSchema) = .ok T' → runEvents p G (evs.filter Spec.aboutGraph) = .ok G' →
    runEvents p L (evs.filter Spec.aboutLayouts) = .ok L' → runEvents p S (evs.filter Spec.aboutScripts) = .ok S' →
    runEvents p (merge T G L S) evs = .ok (merge T' G' L' S') := by
  induction evs with
  | nil => intro T G L S T' G' L' S' h1 h2 h3 h4; cases h1; cases h2; cases h3; cases h4; rfl
  | cons e evs ih =>
    intro T G L S T' G' L' S' h1 h2 h3 h4
    have ih := @ih (fun e' he => hs e' (by simp [he]))
    rw [runEvents_cons]
    obtain ⟨m1, m2, m3, m4, m5⟩ := edispatch_merge p T G L S e
    have n1 : area e ≠ .tables → (e :: evs).filter Spec.describesSchema = evs.filter Spec.describesSchema := fun h =>
      filter_skip (by cases hf : Spec.describesSchema e with | false => rfl | true => exact absurd (area_schema hf) h)
    have n2 : area e ≠ .graph → (e :: evs).filter Spec.aboutGraph = evs.filter Spec.aboutGraph := fun h =>
      filter_skip (by cases hf : Spec.aboutGraph e with | false => rfl | true => exact absurd (area_graph hf) h)
    have n3 : area e ≠ .layouts → (e :: evs).filter Spec.aboutLayouts = evs.filter Spec.aboutLayouts := fun h =>
      filter_skip (by cases hf : Spec.aboutLayouts e with | false => rfl | true => exact absurd (area_layouts hf) h)
    have n4 : area e ≠ .scripts → (e :: evs).filter Spec.aboutScripts = evs.filter Spec.aboutScripts := fun h =>
      filter_skip (by cases hf : Spec.aboutScripts e with | false => rfl | true => exact absurd (area_scripts hf) h)
    cases ha : area e with
    | tables =>
      rw [n2 (by simp [ha])] at h2; rw [n3 (by simp [ha])] at h3; rw [n4 (by simp [ha])] at h4
      obtain ⟨u, u1, u2⟩ := run_component (fun hf st => idle_tables ha hf) h1
      rw [m1 ha, u1]
      exact ih u2 h2 h3 h4
    | graph =>
      rw [n1 (by simp [ha])] at h1; rw [n3 (by simp [ha])] at h3; rw [n4 (by simp [ha])] at h4
      obtain ⟨u, u1, u2⟩ := run_component (fun hf st => idle_graph ha hf) h2
      rw [m2 ha, u1]
      exact ih h1 u2 h3 h4
    | layouts =>
      rw [n1 (by simp [ha])] at h1; rw [n2 (by simp [ha])] at h2; rw [n4 (by simp [ha])] at h4
      obtain ⟨u, u1, u2⟩ := run_component (fun hf st => idle_layouts ha hf) h3
      rw [m3 ha, u1]
      exact ih h1 h2 u2 h4
    | scripts =>
      rw [n1 (by simp [ha])] at h1; rw [n2 (by simp [ha])] at h2; rw [n3 (by simp [ha])] at h3
      obtain ⟨u, u1, u2⟩ := run_component (fun hf st => idle_scripts ha hf) h4
      rw [m4 ha, u1]
      exact ih h1 h2 h3 u2
    | sources => exact absurd ha (hs e (by simp))
    | none =>
      rw [n1 (by simp [ha])] at h1; rw [n2 (by simp [ha])] at h2; rw [n3 (by simp [ha])] at h3; rw [n4 (by simp [ha])] at h4
      rw [m5 ha]
      exact ih h1 h2 h3 h4

end BurnFm
