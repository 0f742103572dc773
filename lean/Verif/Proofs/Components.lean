import Verif.Proofs.Schema
import Verif.Proofs.Segments
import Verif.Spec.FileContents

/-! The parts of a file are decompiled independently of each other. -/

namespace BurnFm
open Spec (Event What)

/-- A chunk with a given meaning. -/
def toChunk (e : Event) : Chunk :=
  match e.what with
  | .kv k v => ⟨.refSimple, 0, some v, none, e.path, none, some k⟩
  | .longKv r v => ⟨.refLong, 0, some v, some r, e.path, none, none⟩
  | .data v => ⟨.dataSimple, 0, some v, none, e.path, none, none⟩
  | .segment n v => ⟨.dataSegment, 0, some v, none, e.path, some n, none⟩
  | .push => ⟨.pathPush, 0, none, none, e.path, none, none⟩
  | .pop => ⟨.pathPop, 0, none, none, e.path, none, none⟩

/-- Handle an event. -/
def edispatch (p : Profile) (st : DState) (e : Event) : Res DState := dispatch p st e.path (toChunk e)

def isSource : Place → Bool
  | .sourceNames => true
  | .source _ => true
  | _ => false

def isValue : Place → Bool
  | .stepValue _ _ => true
  | _ => false

/-- What the decompiler does with a chunk depends on its meaning only. -/
theorem dispatch_meaning {p : Profile} {st : DState} {ch : Chunk} {w : What} (hs : Shape ch) (hm : meaning ch = some w)
    (hp : isSource (classify ch.path) = false) : dispatch p st ch.path ch = edispatch p st ⟨ch.path, w⟩ := by
  obtain ⟨ct, code, data, rd, path, seg, rs⟩ := ch
  obtain ⟨h1, h2, h3, h4⟩ := hs
  dsimp only at h1 h2 h3 h4 hp ⊢
  unfold edispatch
  dsimp only
  unfold dispatch
  cases ct <;> cases rs <;> cases seg <;> cases rd <;> cases data <;> simp [meaning] at h1 h2 h3 h4 hm <;> subst hm <;>
    cases hc : classify path <;> rw [hc] at hp <;> first | rfl | (cases hp; done)

/-- No-ops have no effect, except where a missing script is noticed. -/
theorem dispatch_noop {p : Profile} {st : DState} {ch : Chunk} (hs : Shape ch) (hm : meaning ch = none)
    (hp : isSource (classify ch.path) = false) (hv : ∀ s k, classify ch.path = .stepValue s k → st.file.scripts.contains s = true) :
    dispatch p st ch.path ch = .ok st := by
  obtain ⟨ct, code, data, rd, path, seg, rs⟩ := ch
  obtain ⟨h1, h2, h3, h4⟩ := hs
  dsimp only at h1 h2 h3 h4 hp hv ⊢
  unfold dispatch
  cases ct <;> cases rs <;> cases seg <;> cases rd <;> cases data <;> simp [meaning] at h1 h2 h3 h4 hm <;>
    cases hc : classify path <;> rw [hc] at hp <;> (try (cases hp; done)) <;> dsimp only
  all_goals first
    | rfl
    | (unfold armField; dsimp only; split <;> rfl)
    | (unfold armStepValue
       rw [if_neg (by simp), if_pos (hv _ _ hc)]
       rfl)

end BurnFm

namespace BurnFm
open Spec (Event What)

/-- The tables of `T`, the graph of `G`, the layouts of `L` and the scripts of `S`. -/
def merge (T G L S : DState) : DState :=
  { file := { tables := T.file.tables, relationships := G.file.relationships, tableOccurrences := G.file.tableOccurrences,
              layouts := L.file.layouts, scripts := S.file.scripts }
    segments := S.segments }

theorem map_bind_res {α β γ : Type} (x : Res α) (f : α → Res β) (g : β → γ) : g <$> (x >>= f) = x >>= fun a => g <$> f a := by
  cases x <;> rfl

theorem foldlM_commutes {α : Type} {m : DState → DState} {f : DState → α → Res DState} (h : ∀ s a, f (m s) a = m <$> f s a) :
    ∀ (l : List α) (s : DState), l.foldlM f (m s) = m <$> l.foldlM f s := by
  intro l
  induction l with
  | nil => intro s; rfl
  | cons a l ih =>
    intro s
    rw [List.foldlM_cons, List.foldlM_cons, h]
    cases f s a with
    | error e => rfl
    | ok s' => exact ih s'

theorem bind_congr_res {α β : Type} (x : Res α) {f g : α → Res β} (h : ∀ a, f a = g a) : x >>= f = x >>= g := by
  rw [show f = g from funext h]

theorem map_ite_res {α β : Type} {c : Prop} [Decidable c] (g : α → β) (x y : Res α) :
    g <$> (if c then x else y) = if c then g <$> x else g <$> y := by split <;> rfl

theorem ite_congr_res {α : Type} {c : Prop} [Decidable c] {x y x' y' : Res α} (h1 : x = x') (h2 : y = y') :
    (if c then x else y) = if c then x' else y' := by rw [h1, h2]

macro "frame" : tactic => `(tactic| repeat' (first
  | rfl
  | (rw [map_bind_res]; refine bind_congr_res _ (fun _ => ?_))
  | (rw [map_ite_res]; refine ite_congr_res ?_ ?_)
  | split
  | dsimp only))

theorem frame_relationship (T G L S : DState) (ch : Chunk) :
    armRelationship (merge T G L S) ch = (fun G => merge T G L S) <$> armRelationship G ch := by
  unfold armRelationship
  dsimp only [merge]
  frame

theorem frame_occurrence (T G L S : DState) (ch : Chunk) :
    armOccurrence (merge T G L S) ch = (fun G => merge T G L S) <$> armOccurrence G ch := by
  unfold armOccurrence
  dsimp only [merge]
  frame

theorem frame_join (p : Profile) (T G L S : DState) (rel : Nat) (ch : Chunk) :
    armJoin p (merge T G L S) rel ch = (fun G => merge T G L S) <$> armJoin p G rel ch := by
  unfold armJoin
  dsimp only [merge]
  frame

theorem frame_layout (p : Profile) (T G L S : DState) (id : Nat) (ch : Chunk) :
    armLayout p (merge T G L S) id ch = (fun L => merge T G L S) <$> armLayout p L id ch := by
  unfold armLayout
  dsimp only [merge]
  frame

theorem frame_field (T G L S : DState) (d f : Nat) (ch : Chunk) :
    armField (merge T G L S) d f ch = (fun T => merge T G L S) <$> armField T d f ch := by
  unfold armField
  dsimp only [merge]
  frame

theorem frame_tableMeta (p : Profile) (T G L S : DState) (d : Nat) (ch : Chunk) :
    armTableMeta p (merge T G L S) d ch = (fun T => merge T G L S) <$> armTableMeta p T d ch := by
  unfold armTableMeta
  dsimp only [merge]
  frame

theorem frame_segments (T G L S : DState) (k : Nat) (ch : Chunk) :
    armSegments (merge T G L S) k ch = (fun S => merge T G L S) <$> armSegments S k ch := by
  unfold armSegments
  dsimp only [merge]
  frame

theorem frame_stepExpr (T G L S : DState) (s k : Nat) (ch : Chunk) :
    armStepExpr (merge T G L S) s k ch = (fun S => merge T G L S) <$> armStepExpr S s k ch := by
  unfold armStepExpr
  dsimp only [merge]
  frame

theorem frame_stepName (T G L S : DState) (s k : Nat) (ch : Chunk) :
    armStepName (merge T G L S) s k ch = (fun S => merge T G L S) <$> armStepName S s k ch := by
  unfold armStepName
  dsimp only [merge]
  frame

theorem frame_stepValue (T G L S : DState) (s k : Nat) (ch : Chunk) :
    armStepValue (merge T G L S) s k ch = (fun S => merge T G L S) <$> armStepValue S s k ch := by
  unfold armStepValue
  dsimp only [merge]
  frame

theorem frame_scriptMeta (T G L S : DState) (k : Nat) (ch : Chunk) :
    armScriptMeta (merge T G L S) k ch = (fun S => merge T G L S) <$> armScriptMeta S k ch := by
  unfold armScriptMeta
  dsimp only [merge]
  frame

theorem frame_script (T G L S : DState) (k : Nat) (ch : Chunk) :
    armScript (merge T G L S) k ch = (fun S => merge T G L S) <$> armScript S k ch := by
  unfold armScript
  split
  · rfl
  · split
    · rw [map_bind_res]
      refine bind_congr_res _ (fun d => ?_)
      refine foldlM_commutes (m := fun S => merge T G L S) (fun s a => ?_) _ S
      dsimp only [merge]
      frame
    · split
      · rw [map_bind_res]
        refine bind_congr_res _ (fun d => ?_)
        refine foldlM_commutes (m := fun S => merge T G L S) (fun s a => ?_) _ S
        dsimp only [merge]
        frame
      · rfl

theorem frame_assembleScripts (T G L S : DState) :
    assembleScripts (merge T G L S) = (fun f => (merge T G L { S with file := f }).file) <$> assembleScripts S := by
  unfold assembleScripts
  have : ∀ (segs : HMap (HMap Bytes)) (S : DState), segs.foldlM (fun s e => assembleScript s e.1 e.2) (merge T G L S) =
      (fun S => merge T G L S) <$> segs.foldlM (fun s e => assembleScript s e.1 e.2) S := by
    intro segs S
    refine foldlM_commutes (m := fun S => merge T G L S) (fun s a => ?_) _ S
    unfold assembleScript
    refine foldlM_commutes (m := fun S => merge T G L S) (fun s a => ?_) _ s
    dsimp only [merge]
    frame
  rw [show (merge T G L S).segments = S.segments from rfl, this, map_bind_res]
  cases S.segments.foldlM (fun s e => assembleScript s e.1 e.2) S <;> rfl

end BurnFm
