import Verif.Proofs.Generate
import Verif.Spec.Join

/-! Joins and related-field reads. -/

namespace BurnFm
open Spec

theorem strLe_iff (a b : Str) : strLe a b = true ↔ (a < b ∨ a = b) := by
  induction a generalizing b with
  | nil =>
    cases b with
    | nil => simp [strLe]
    | cons y b => simp [strLe]
  | cons x a ih =>
    cases b with
    | nil => simp [strLe]
    | cons y b =>
      unfold strLe
      rw [List.cons_lt_cons_iff, List.cons.injEq]
      have hlt : ∀ c d : Char, c < d ↔ c.val < d.val := fun c d => Iff.rfl
      split
      · rename_i h
        simp [hlt, h]
      · split
        · rename_i h1 h2
          have hne : x ≠ y := by
            intro e; subst e; exact h1 h2
          simp [hlt, h1, hne]
        · rename_i h1 h2
          have he : x = y := by
            apply Char.ext
            exact UInt32.le_antisymm (UInt32.not_lt.mp h2) (UInt32.not_lt.mp h1)
          subst he
          rw [ih]
          simp [hlt]

/-- The comparisons the code computes as declared. -/
theorem joins_iff (c : Comparison) (hc : c ≠ .less ∧ c ≠ .greater) (a b : Str) :
    joins c a b = true ↔ Stands c a b := by
  cases c with
  | equal => simp [joins, Stands]
  | notEqual => simp [joins, Stands]
  | less => exact absurd rfl hc.1
  | lessEqual => exact strLe_iff a b
  | greater => exact absurd rfl hc.2
  | greaterEqual =>
    show strLe b a = true ↔ _
    rw [strLe_iff]
    show _ ↔ b < a ∨ a = b
    constructor <;> rintro (h | h) <;> simp [h]
  | cartesian => simp [joins, Stands]

theorem joins_loosened (c : Comparison) (a b : Str) : joins c a b = true ↔ Stands (loosened c) a b := by
  cases c with
  | less => exact joins_iff .lessEqual (by decide) a b
  | greater => exact joins_iff .greaterEqual (by decide) a b
  | equal => exact joins_iff .equal (by decide) a b
  | notEqual => exact joins_iff .notEqual (by decide) a b
  | lessEqual => exact joins_iff .lessEqual (by decide) a b
  | greaterEqual => exact joins_iff .greaterEqual (by decide) a b
  | cartesian => exact joins_iff .cartesian (by decide) a b

theorem find_zipIdx {α : Type} (l : List α) (P : α → Bool) (n : Nat) :
    ((l.zipIdx n).filter (fun e => P e.1)) = [] ↔ ∀ x ∈ l, P x = false := by
  rw [List.filter_eq_nil_iff]
  constructor
  · intro h x hx
    obtain ⟨i, hi⟩ := List.getElem?_of_mem hx
    have := h (x, n + i) (by rw [List.mem_zipIdx_iff_le_and_getElem?_sub]; simp [hi])
    simpa using this
  · rintro h ⟨x, i⟩ hx
    rw [List.mem_zipIdx_iff_le_and_getElem?_sub] at hx
    have := h x (List.mem_of_getElem? hx.2)
    simpa using this

theorem head_zipIdx {α : Type} (l : List α) (P : α → Bool) (n k : Nat) (w : α) (hk : l[k]? = some w) (hw : P w = true)
    (hmin : ∀ j < k, ∀ x, l[j]? = some x → P x = false) :
    ∃ rest, ((l.zipIdx n).filter (fun e => P e.1)) = (w, n + k) :: rest := by
  induction l generalizing n k with
  | nil => simp at hk
  | cons x l ih =>
    rw [List.zipIdx_cons, List.filter_cons]
    cases k with
    | zero =>
      simp at hk; subst hk
      simp [hw]
    | succ k =>
      have hx := hmin 0 (by omega) x rfl
      simp only [hx]
      obtain ⟨rest, hr⟩ := ih (n + 1) k (by simpa using hk) (fun j hj y hy => hmin (j + 1) (by omega) y (by simpa using hy))
      exact ⟨rest, by simpa [Nat.add_comm, Nat.add_left_comm] using hr⟩

theorem relatedSet_single (c : Comparison) (r : Nat) (v : Str) (rhs : List Str) :
    relatedSet c [(r, v)] rhs = (rhs.zipIdx.filter (fun e => joins c v e.1)).map (fun e => (e.2, e.1)) := by
  simp [relatedSet]

/-! What operations do not change. -/

/-- Same names, relationships, occurrence tables and occurrence count. -/
structure SameSchema (a b : Database) : Prop where
  indices : b.indices = a.indices
  graph : b.graph = a.graph
  occs : b.occs.map (fun o => (o.tablePtr, o.related)) = a.occs.map (fun o => (o.tablePtr, o.related))
  names : names b = names a

theorem SameSchema.refl (a : Database) : SameSchema a a := ⟨rfl, rfl, rfl, rfl⟩

theorem SameSchema.trans {a b c : Database} (h : SameSchema a b) (k : SameSchema b c) : SameSchema a c :=
  ⟨k.1.trans h.1, k.2.trans h.2, k.3.trans h.3, k.4.trans h.4⟩

theorem same_modCurrent {db db' : Database} {f : DOcc → DOcc} (h : db.modCurrentOcc f = .ok db')
    (hf : ∀ o, (f o).tablePtr = o.tablePtr ∧ (f o).related = o.related) : SameSchema db db' := by
  obtain ⟨o, ho, rfl⟩ := modCurrentOcc_ok.mp h
  refine ⟨rfl, rfl, ?_, rfl⟩
  apply map_set_same ho
  simp [hf o]

theorem same_reset {db db' : Database} (h : db.resetFoundSet = .ok db') : SameSchema db db' := by
  obtain ⟨o, t, f, ho, _, _, rfl⟩ := reset_ok h
  refine ⟨rfl, rfl, ?_, rfl⟩
  exact map_set_same ho rfl

theorem same_run {p : Profile} {db db' : Database} {op : Op} (hr : op.run p db = .ok db') : SameSchema db db' := by
  cases op with
  | create =>
    obtain ⟨o, t, f, fs, ho, ht, hfs, rfl⟩ := create_ok hr
    refine ⟨rfl, rfl, ?_, ?_⟩
    · simp only [List.map_map]
      apply List.map_congr_left
      intro x _
      simp only [Function.comp]
      split <;> rfl
    · unfold names
      apply map_set_same ht
      simp [DTable.addBlankRecord]
  | set occ field value =>
    simp only [Op.run] at hr
    obtain ⟨r, hw, hr⟩ := bind_ok.mp hr
    cases r with
    | none => cases hr
    | some db2 =>
      cases hr
      obtain ⟨i, o, id, t, j, f, hi, ho, hc, ht, hj, hf, hlt, rfl⟩ := writeCell_ok hw
      refine ⟨rfl, rfl, rfl, ?_⟩
      unfold names
      apply map_set_same ht
      simp only [Prod.mk.injEq, true_and]
      exact map_set_same hf rfl
  | find cs =>
    simp only [Op.run] at hr
    unfold Database.performFind at hr
    obtain ⟨rs, _, hr⟩ := bind_ok.mp hr
    unfold Database.updateFoundSet at hr
    rcases ite_ok.mp hr with ⟨_, hr⟩ | ⟨_, hr⟩
    · exact same_reset hr
    · obtain ⟨d, hd, hr⟩ := bind_ok.mp hr
      exact (same_reset hd).trans (same_modCurrent hr (fun o => ⟨rfl, rfl⟩))
  | showAll => exact same_reset hr
  | goto n =>
    simp only [Op.run] at hr
    unfold Database.gotoRecord at hr
    obtain ⟨o, _, hr⟩ := bind_ok.mp hr
    rcases ite_ok.mp hr with ⟨_, hr⟩ | ⟨_, hr⟩
    · obtain ⟨l, _, hr⟩ := bind_ok.mp hr
      exact same_modCurrent hr (fun o => ⟨rfl, rfl⟩)
    · exact same_modCurrent hr (fun o => ⟨rfl, rfl⟩)
  | next =>
    simp only [Op.run] at hr
    unfold Database.gotoNext at hr
    obtain ⟨o, _, hr⟩ := bind_ok.mp hr
    obtain ⟨l, _, hr⟩ := bind_ok.mp hr
    exact same_modCurrent hr (fun o => by split <;> exact ⟨rfl, rfl⟩)
  | previous => exact same_modCurrent hr (fun o => by split <;> exact ⟨rfl, rfl⟩)
  | first => exact same_modCurrent hr (fun o => ⟨rfl, rfl⟩)
  | last =>
    simp only [Op.run] at hr
    unfold Database.gotoLast at hr
    obtain ⟨o, _, hr⟩ := bind_ok.mp hr
    obtain ⟨l, _, hr⟩ := bind_ok.mp hr
    exact same_modCurrent hr (fun o => ⟨rfl, rfl⟩)
  | layout occ => cases hr; exact ⟨rfl, rfl, rfl, rfl⟩

theorem same_runOps {p : Profile} {ops : List Op} {db db' : Database} (hr : runOps p db ops = .ok db') :
    SameSchema db db' := by
  induction ops generalizing db with
  | nil => cases hr; exact SameSchema.refl _
  | cons op ops ih =>
    unfold runOps at hr
    rw [List.foldlM_cons] at hr
    obtain ⟨d, h1, h2⟩ := bind_ok.mp hr
    exact (same_run h1).trans (ih h2)

end BurnFm
