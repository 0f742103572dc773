import Verif.Spec.FoundSets
import Verif.Proofs.Database

/-! What operations do to occurrences that are not the current one. -/

namespace BurnFm
open Spec

/-- What becomes of an occurrence that is left alone. -/
def LeftAlone (db db' : Database) (o o' : DOcc) : Prop :=
  o'.tablePtr = o.tablePtr ∧ o'.related = o.related ∧
    recordCount db o.tablePtr ≤ recordCount db' o.tablePtr ∧
    o'.foundSet = o.foundSet ++
      List.range' (recordCount db o.tablePtr) (recordCount db' o.tablePtr - recordCount db o.tablePtr) ∧
    o'.recordPtr = if recordCount db' o.tablePtr = recordCount db o.tablePtr then o.recordPtr else o'.foundSet.length - 1

theorem LeftAlone.same {db db' : Database} {o : DOcc} (h : recordCount db' o.tablePtr = recordCount db o.tablePtr) :
    LeftAlone db db' o o := by
  refine ⟨rfl, rfl, h ▸ Nat.le_refl _, ?_, ?_⟩
  · rw [h]; simp
  · rw [if_pos h]

theorem LeftAlone.trans {a b c : Database} {o o' o'' : DOcc} (h : LeftAlone a b o o') (h' : LeftAlone b c o' o'') :
    LeftAlone a c o o'' := by
  obtain ⟨h1, h2, h3, h4, h5⟩ := h
  obtain ⟨g1, g2, g3, g4, g5⟩ := h'
  rw [h1] at g1 g3 g4 g5
  refine ⟨g1, g2.trans h2, Nat.le_trans h3 g3, ?_, ?_⟩
  · rw [g4, h4, List.append_assoc]
    congr 1
    have e : recordCount b o.tablePtr = recordCount a o.tablePtr + (recordCount b o.tablePtr - recordCount a o.tablePtr) := by omega
    rw [show recordCount c o.tablePtr - recordCount a o.tablePtr =
      (recordCount b o.tablePtr - recordCount a o.tablePtr) + (recordCount c o.tablePtr - recordCount b o.tablePtr) by omega]
    rw [← List.range'_append_1, ← e]
  · rw [g5]
    by_cases hc : recordCount c o.tablePtr = recordCount b o.tablePtr
    · rw [if_pos hc, h5]
      by_cases hb : recordCount b o.tablePtr = recordCount a o.tablePtr
      · rw [if_pos hb, if_pos (hc.trans hb)]
      · rw [if_neg hb, if_neg (by omega), g4, hc]; simp
    · rw [if_neg hc, if_neg (by omega)]

theorem modCurrent_other {db db' : Database} {f : DOcc → DOcc} {k : Nat} {o : DOcc} (h : db.modCurrentOcc f = .ok db')
    (hk : db.handle ≠ k) (ho : db.occs[k]? = some o) :
    db'.occs[k]? = some o ∧ db'.tables = db.tables ∧ db'.handle = db.handle := by
  obtain ⟨c, -, rfl⟩ := modCurrentOcc_ok.mp h
  exact ⟨by rw [List.getElem?_set_ne hk]; exact ho, rfl, rfl⟩

theorem recordCount_tables {db db' : Database} (h : db'.tables = db.tables) (t : Nat) : recordCount db' t = recordCount db t := by
  unfold recordCount; rw [h]

theorem reset_other {db db' : Database} {k : Nat} {o : DOcc} (h : db.resetFoundSet = .ok db') (hk : db.handle ≠ k)
    (ho : db.occs[k]? = some o) : db'.occs[k]? = some o ∧ db'.tables = db.tables ∧ db'.handle = db.handle := by
  unfold Database.resetFoundSet at h
  obtain ⟨t, -, h⟩ := bind_ok.mp h
  obtain ⟨f, -, h⟩ := bind_ok.mp h
  exact modCurrent_other h hk ho

/-- Searching and navigating leave other occurrences alone. -/
theorem move_other {p : Profile} {db db' : Database} {op : Op} {k : Nat} {o : DOcc} (h : op.run p db = .ok db')
    (hk : db.handle ≠ k) (ho : db.occs[k]? = some o) (hc : op ≠ .create) (hs : ∀ a b c, op ≠ .set a b c)
    (hl : ∀ n, op ≠ .layout n) : db'.occs[k]? = some o ∧ db'.tables = db.tables := by
  cases op with
  | create => exact absurd rfl hc
  | set a b c => exact absurd rfl (hs a b c)
  | layout n => exact absurd rfl (hl n)
  | find cs =>
    simp only [Op.run, Database.performFind] at h
    obtain ⟨rs, -, h⟩ := bind_ok.mp h
    unfold Database.updateFoundSet at h
    split at h
    · exact ⟨(reset_other h hk ho).1, (reset_other h hk ho).2.1⟩
    · obtain ⟨db1, h1, h⟩ := bind_ok.mp h
      obtain ⟨a, b, c⟩ := reset_other h1 hk ho
      obtain ⟨a', b', -⟩ := modCurrent_other h (by rw [c]; exact hk) a
      exact ⟨a', b'.trans b⟩
  | showAll => exact ⟨(reset_other h hk ho).1, (reset_other h hk ho).2.1⟩
  | goto n =>
    simp only [Op.run, Database.gotoRecord] at h
    obtain ⟨c, -, h⟩ := bind_ok.mp h
    split at h
    · obtain ⟨l, -, h⟩ := bind_ok.mp h
      exact ⟨(modCurrent_other h hk ho).1, (modCurrent_other h hk ho).2.1⟩
    · exact ⟨(modCurrent_other h hk ho).1, (modCurrent_other h hk ho).2.1⟩
  | next =>
    simp only [Op.run, Database.gotoNext] at h
    obtain ⟨c, -, h⟩ := bind_ok.mp h
    obtain ⟨l, -, h⟩ := bind_ok.mp h
    exact ⟨(modCurrent_other h hk ho).1, (modCurrent_other h hk ho).2.1⟩
  | previous => exact ⟨(modCurrent_other h hk ho).1, (modCurrent_other h hk ho).2.1⟩
  | first => exact ⟨(modCurrent_other h hk ho).1, (modCurrent_other h hk ho).2.1⟩
  | last =>
    simp only [Op.run, Database.gotoLast] at h
    obtain ⟨c, -, h⟩ := bind_ok.mp h
    obtain ⟨l, -, h⟩ := bind_ok.mp h
    exact ⟨(modCurrent_other h hk ho).1, (modCurrent_other h hk ho).2.1⟩

theorem recordCount_set (db : Database) (i t : Nat) (tab : DTable) :
    recordCount { db with tables := db.tables.set i tab } t =
      if t = i ∧ i < db.tables.length then (match tab.fields with | f :: _ => f.records.length | [] => 0) else recordCount db t := by
  unfold recordCount
  dsimp only
  rw [List.getElem?_set]
  by_cases h : i = t
  · subst h
    by_cases hl : i < db.tables.length
    · rw [if_pos rfl, if_pos hl, if_pos ⟨rfl, hl⟩]
      cases tab with
      | mk n fs => cases fs <;> rfl
    · rw [if_pos rfl, if_neg hl, if_neg (fun h => hl h.2), List.getElem?_eq_none (by omega)]
  · rw [if_neg h, if_neg (fun g => h g.1.symm)]

/-- Writing to a cell keeps the number of records and all found sets. -/
theorem write_left {db db' : Database} {a b c : Str} (h : db.writeCell a b c = .ok (some db')) :
    db'.occs = db.occs ∧ ∀ t, recordCount db' t = recordCount db t := by
  unfold Database.writeCell at h
  obtain ⟨o, -, h⟩ := bind_ok.mp h
  cases hc : o.currentRecord with
  | none => rw [hc] at h; cases h
  | some id =>
    rw [hc] at h
    obtain ⟨t, ht, h⟩ := bind_ok.mp h
    obtain ⟨j, -, h⟩ := bind_ok.mp h
    obtain ⟨f, hf, h⟩ := bind_ok.mp h
    obtain ⟨rs, hrs, h⟩ := bind_ok.mp h
    obtain ⟨fs, hfs, h⟩ := bind_ok.mp h
    obtain ⟨ts, hts, h⟩ := bind_ok.mp h
    cases h
    obtain ⟨-, rfl⟩ := setIdx_ok.mp hrs
    obtain ⟨hj, rfl⟩ := setIdx_ok.mp hfs
    obtain ⟨-, rfl⟩ := setIdx_ok.mp hts
    rw [idx_ok] at ht hf
    refine ⟨rfl, fun x => ?_⟩
    rw [recordCount_set]
    split
    · rename_i hx
      obtain ⟨rfl, -⟩ := hx
      unfold recordCount
      rw [ht]
      cases t with
      | mk n tf =>
        cases tf with
        | nil => simp at hj
        | cons g gs =>
          cases j with
          | zero =>
            simp only [List.getElem?_cons_zero, Option.some.injEq] at hf
            subst hf
            simp
          | succ j => simp
    · rfl

/-- A new record is added to all occurrences of its table. -/
theorem create_left {p : Profile} {db db' : Database} (h : db.createRecord p = .ok db') {k : Nat} {o : DOcc}
    (ho : db.occs[k]? = some o) : ∃ o', db'.occs[k]? = some o' ∧ LeftAlone db db' o o' := by
  obtain ⟨c, t, f, fs, hc, ht, hfs, rfl⟩ := create_ok h
  have hlt := (List.getElem?_eq_some_iff.mp ht).1
  have hcount : ∀ x, recordCount { db with
        tables := db.tables.set c.tablePtr t.addBlankRecord
        occs := db.occs.map (fun x =>
          if x.tablePtr = c.tablePtr then
            { x with foundSet := x.foundSet ++ [f.records.length], recordPtr := x.foundSet.length }
          else x) } x = if x = c.tablePtr then f.records.length + 1 else recordCount db x := by
    intro x
    have := recordCount_set db c.tablePtr x t.addBlankRecord
    unfold recordCount at this ⊢
    dsimp only at this ⊢
    rw [this]
    by_cases hx : x = c.tablePtr
    · rw [if_pos ⟨hx, hlt⟩, if_pos hx]
      simp [DTable.addBlankRecord, hfs]
    · rw [if_neg (fun h => hx h.1), if_neg hx]
  refine ⟨_, by dsimp only; rw [List.getElem?_map, ho]; rfl, ?_⟩
  by_cases hx : o.tablePtr = c.tablePtr
  · have hold : recordCount db o.tablePtr = f.records.length := by
      unfold recordCount
      rw [hx, ht]
      cases t with
      | mk n tf => cases hfs; rfl
    beta_reduce
    rw [if_pos hx]
    refine ⟨rfl, rfl, ?_, ?_, ?_⟩
    · rw [hcount, if_pos hx, hold]; omega
    · rw [hcount, if_pos hx, hold]
      simp
    · rw [hcount, if_pos hx, hold, if_neg (by omega)]
      simp
  · beta_reduce
    rw [if_neg hx]
    apply LeftAlone.same
    rw [hcount, if_neg hx]

end BurnFm
