import Verif.Spec.Reordered
import Verif.Proofs.HMap

namespace BurnFm
open Spec

theorem get_perm {α : Type} {m m' : HMap α} (h : m.Perm m') (hn : m.Pairwise (·.1 ≠ ·.1)) (k : Nat) : m.get k = m'.get k := by
  induction h with
  | nil => rfl
  | cons x _ ih =>
    rw [HMap.get_cons, HMap.get_cons, ih (List.pairwise_cons.mp hn).2]
  | swap x y l =>
    have hne : y.1 ≠ x.1 := (List.pairwise_cons.mp hn).1 x List.mem_cons_self
    simp only [HMap.get_cons]
    by_cases h1 : y.1 = k
    · have : ¬ x.1 = k := fun h => hne (h1.trans h.symm)
      simp [h1, this]
    · simp [h1]
  | trans h1 _ ih1 ih2 =>
    exact (ih1 hn).trans (ih2 ((h1.pairwise_iff (R := fun a b : Nat × α => a.1 ≠ b.1) (fun h => Ne.symm h)).mp hn))

theorem get_map_perm {α β : Type} {l l' : List α} (key : α → Nat) (f : α → β) (h : l.Perm l') (hn : l.Pairwise (key · ≠ key ·))
    (k : Nat) : HMap.get (l.map fun x => (key x, f x)) k = HMap.get (l'.map fun x => (key x, f x)) k :=
  get_perm (h.map _) (by rw [List.pairwise_map]; exact hn) k

theorem get_forall2 {α β : Type} {R : β → β → Prop} {l l' : List α} (key : α → Nat) (f : α → β)
    (h : List.Forall₂ (fun a b => key a = key b ∧ R (f a) (f b)) l l') (k : Nat) :
    Option.Rel R (HMap.get (l.map fun x => (key x, f x)) k) (HMap.get (l'.map fun x => (key x, f x)) k) := by
  induction h with
  | nil => exact .none
  | cons hab _ ih =>
    simp only [List.map_cons, HMap.get_cons, hab.1]
    split
    · exact .some hab.2
    · exact ih

theorem field_same {f f' : FieldDef} (h : f.Same f') : f.field = f'.field := by
  simp [FieldDef.field, h.attrs]

theorem table_same {t t' : TableDef} (h : t.Same t') (hn : t.fields.Pairwise (·.id ≠ ·.id)) : SameTable t.table t'.table := by
  refine ⟨h.attrs 16, fun j => ?_⟩
  obtain ⟨fs, hp, hf⟩ := h.fields
  have h1 := get_map_perm (·.id) FieldDef.field hp hn j
  have h2 := get_forall2 (R := (· = ·)) (·.id) FieldDef.field (hf.imp fun _ _ h => ⟨h.id, field_same h⟩) j
  simp only [TableDef.table]
  rw [h1]
  revert h2
  generalize HMap.get (fs.map fun x => (x.id, x.field)) j = a
  generalize HMap.get (t'.fields.map fun x => (x.id, x.field)) j = b
  intro h2
  cases h2 with
  | some h => rw [h]
  | none => rfl

theorem nameOf_perm {ss ss' : List StoredScript} (h : ss.Perm ss') (hn : ss.Pairwise (·.id ≠ ·.id)) (id : Nat) :
    nameOf ss id = nameOf ss' id := by
  have h1 := get_map_perm (·.id) (·.name) h hn id
  have h2 : ∀ l : List StoredScript, HMap.get (l.map fun x => (x.id, x.name)) id = (l.find? (·.id == id)).map (·.name) := by
    intro l
    induction l with
    | nil => rfl
    | cons s l ih =>
      rw [List.map_cons, HMap.get_cons, ih, List.find?_cons]
      by_cases h : s.id = id
      · simp [h]
      · have : (s.id == id) = false := by simpa using h
        simp [h, this]
  rw [h2, h2] at h1
  simp only [nameOf, h1]

theorem script_perm {ss ss' : List StoredScript} (h : ss.Perm ss') (hn : ss.Pairwise (·.id ≠ ·.id)) (s : StoredScript) :
    s.script ss = s.script ss' := by
  have : StepDef.step ss = StepDef.step ss' := by
    funext t
    simp only [StepDef.step, nameOf_perm h hn]
  simp only [StoredScript.script, this]

theorem forall2_rel_mem {α : Type} {R : α → α → Prop} {l l' : List α} (h : List.Forall₂ R l l') :
    List.Forall₂ (fun a b => a ∈ l ∧ R a b) l l' := by
  induction h with
  | nil => exact .nil
  | cons hab _ ih => exact .cons ⟨List.mem_cons_self, hab⟩ (ih.imp fun _ _ h => ⟨List.mem_cons_of_mem _ h.1, h.2⟩)

theorem reordered_components {enc : Str → Bytes} {d d' : FileDef} (h : d.Reordered d') (hok : d.WellFormed enc) :
    SameComponents d.file d'.file where
  name := rfl
  tables k := by
    obtain ⟨ts, hp, hf⟩ := h.tables
    have h1 := get_map_perm (·.id) TableDef.table hp (hok.tables.1.imp fun h => h.1) k
    have h2 := get_forall2 (R := SameTable) (·.id) TableDef.table
      ((forall2_rel_mem hf).imp fun a _ h => ⟨h.2.id, table_same h.2 (hok.tables.2 a (hp.mem_iff.mpr h.1)).1⟩) k
    simp only [FileDef.file]
    rw [h1]
    exact h2
  tableOccurrences k := by simp only [FileDef.file, h.occurrences]
  relationships k := by simp only [FileDef.file, h.occurrences, h.criteria]
  layouts k := get_map_perm _ _ h.layouts hok.layouts.ids k
  scripts k := by
    simp only [FileDef.file]
    rw [get_map_perm (·.id) (fun s => s.script d.scripts) h.scripts hok.scripts.ids k]
    simp only [script_perm h.scripts hok.scripts.ids]
  dataSources k := get_map_perm (fun s : SourceDef => s.id.toNat) SourceDef.source h.sources
    (hok.sources.ids.imp fun h e => h (UInt8.toNat_inj.mp e)) k
  valueLists _ := rfl
  tests := rfl

theorem stepOk_perm {enc : Str → Bytes} {ss ss' : List StoredScript} (h : ss.Perm ss') {t : StepDef} (ht : t.Ok enc ss) :
    t.Ok enc ss' where
  length := ht.length
  op := ht.op
  notAssert := ht.notAssert
  index := ht.index
  callee := ht.callee
  called hp := let ⟨s, hs, e⟩ := ht.called hp; ⟨s, h.mem_iff.mp hs, e⟩
  params := ht.params

/-- Except for the condition on the numbers of tables, which depends on the order, being well-formed does not depend on
the order. -/
theorem reordered_wellFormed {enc : Str → Bytes} {d d' : FileDef} (h : d.Reordered d') (hok : d.WellFormed enc)
    (hn : WellNumbered d'.tables) : d'.WellFormed enc where
  tables := hn
  graph := by rw [← h.occurrences, ← h.criteria]; exact hok.graph
  layouts := ⟨(h.layouts.pairwise_iff (R := fun a b : LayoutDef => a.id ≠ b.id) (fun h => Ne.symm h)).mp hok.layouts.ids,
    fun l hl => hok.layouts.items l (h.layouts.mem_iff.mpr hl)⟩
  scripts := ⟨(h.scripts.pairwise_iff (R := fun a b : StoredScript => a.id ≠ b.id) (fun h => Ne.symm h)).mp hok.scripts.ids,
    fun s hs t ht => stepOk_perm h.scripts (hok.scripts.steps s (h.scripts.mem_iff.mpr hs) t ht),
    fun s hs => hok.scripts.code s (h.scripts.mem_iff.mpr hs)⟩
  sources := ⟨(h.sources.pairwise_iff (R := fun a b : SourceDef => a.id ≠ b.id) (fun h => Ne.symm h)).mp hok.sources.ids,
    fun s hs => hok.sources.names s (h.sources.mem_iff.mpr hs),
    fun s hs => hok.sources.locations s (h.sources.mem_iff.mpr hs)⟩

end BurnFm
