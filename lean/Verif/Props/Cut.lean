import Verif.Proofs.Cut
import Verif.Proofs.Disk
import Verif.Props.Placement

/-! Property C111: content that is continued in another sector. -/

namespace BurnFm.Props
open Spec (Raw Event)

/-- C111: a file whose content is cut into sectors at any number of places, each of them in a directory that is not part of a
field, layout, table or data source, gives the same result as the file without these cuts, and fails alike. Missing: those
directories (see `cut_field_loses_name`, `cut_layout_loses`), and zero bytes after a cut among the links of an occurrence (see
`cut_links_panics`). -/
theorem cut_irrelevant_partial (p : Profile) (buf buf' : Bytes) (raws raws' : List Raw) (h : Spec.RawFileOf buf raws)
    (h' : Spec.RawFileOf buf' raws') (hc : Spec.Recut raws raws') :
    (∀ f, (∃ fuel, decompile p buf fuel = .ok (some f)) ↔ ∃ fuel, decompile p buf' fuel = .ok (some f)) ∧
    ((∃ fuel e, decompile p buf fuel = .error e) ↔ ∃ fuel e, decompile p buf' fuel = .error e) := by
  obtain ⟨s1, s2⟩ := recut_same (p := p) hc
  have res : ∀ b rs, Spec.RawFileOf b rs → ∀ f, (∃ fuel, decompile p b fuel = .ok (some f)) ↔ ∃ D st g,
      f = { g with dataSources := D.file.dataSources } ∧ runNotes p {} (rs.filterMap Raw.note) = .ok D ∧
      runEvents p {} ((Spec.seen rs).filter notSource) = .ok st ∧ assembleScripts st = .ok g := by
    intro b rs hb f
    obtain ⟨fuel₀, hf⟩ := raw_events (p := p) hb
    constructor
    · rintro ⟨fuel, hd⟩
      exact ((hf (max fuel fuel₀) (by omega)).2 f).mp (decompile_mono hd (by simp) _ (by omega))
    · intro hx
      exact ⟨fuel₀, ((hf fuel₀ (Nat.le_refl _)).2 f).mpr hx⟩
  have key : ∀ f, (∃ fuel, decompile p buf fuel = .ok (some f)) ↔ ∃ fuel, decompile p buf' fuel = .ok (some f) := by
    intro f
    rw [res buf raws h, res buf' raws' h', s1]
    simp only [s2]
  refine ⟨key, ?_⟩
  rw [decompile_fails_iff h, decompile_fails_iff h', not_iff_not]
  exact exists_congr key

/-- C111: the directories that are open at the end of a sector have been entered in it. -/
theorem open_directories_entered (bytes : Bytes) (raws : List Raw) (path : List Nat) (h : Spec.RawRun [] bytes raws path) :
    ∀ e ∈ Spec.reenter path, e ∈ Spec.seen raws := by
  intro e he
  obtain ⟨k, hk, rfl⟩ := mem_reenter he
  rcases run_entered h k hk with ⟨h1, _⟩ | h1
  · simp at h1
  · exact h1

/-- C111 is false in the directory of a field: if the directory of field `k` of table `t` is entered again, the field has no
name, unless the name is given again. -/
theorem cut_field_loses_name (p : Profile) (buf : Bytes) (raws : List Raw) (h : Spec.RawFileOf buf raws) (t k : Nat) (a b : List Event)
    (hs : Spec.seen raws = a ++ ⟨[128 + t, 3, 5, k], .push⟩ :: b) (hb : ∀ v, ⟨[128 + t, 3, 5, k], .kv 16 v⟩ ∉ b)
    (fuel : Nat) (f : FmpFile) (hd : decompile p buf fuel = .ok (some f)) :
    ∀ tb fl, f.tables.get t = some tb → tb.fields.get k = some fl → fl.name = [] := by
  obtain ⟨T, G, L, S, D, g, rfl, r1, _⟩ := raw_project h hd
  have hsm := seen_small h
  have hk : k < 65536 := hsm ⟨[128 + t, 3, 5, k], .push⟩ (by rw [hs]; simp) k (by simp)
  rw [hs, List.filter_append, List.filter_cons_of_pos (by simp [Spec.describesSchema, Spec.isEntry])] at r1
  obtain ⟨u, v, h1, h2, h3⟩ := event_split r1
  show Nameless T t k
  refine nameless_run (fun v hv => hb v (List.mem_filter.mp hv).1) (fun e he => hsm e (by rw [hs]; simp [(List.mem_filter.mp he).1]))
    (fun e he => (List.mem_filter.mp he).2) ?_ h3
  exact nameless_entered hk h2

/-- C111 is false in the directory of a layout, and below it: if such a directory is entered again, the layout has no name and
no table occurrence, unless they are given again. -/
theorem cut_layout_loses (p : Profile) (buf : Bytes) (raws : List Raw) (h : Spec.RawFileOf buf raws) (id : Nat) (below : List Nat)
    (a b : List Event) (hs : Spec.seen raws = a ++ ⟨[4, 1, 7, id] ++ below, .push⟩ :: b)
    (hb : ∀ e ∈ b, e.path.take 4 = [4, 1, 7, id] → ∀ v, e.what ≠ .kv 2 v ∧ e.what ≠ .kv 16 v)
    (fuel : Nat) (f : FmpFile) (hd : decompile p buf fuel = .ok (some f)) : f.layouts.get id = some {} := by
  obtain ⟨T, G, L, S, D, g, rfl, _, _, r3, _⟩ := raw_project h hd
  rw [hs, List.filter_append, List.filter_cons_of_pos (by simp [Spec.aboutLayouts])] at r3
  obtain ⟨u, v, h1, h2, h3⟩ := event_split r3
  show L.file.layouts.get id = some {}
  exact blank_run (fun e he => hb e (List.mem_filter.mp he).1) (fun e he => (List.mem_filter.mp he).2) (blank_entered h2) h3

/-- C111 is false among the links of an occurrence: a file in which a sector ends there, with zero bytes to its end, is never
decompiled. -/
theorem cut_links_panics (p : Profile) (buf : Bytes) (raws a b : List Raw) (n : Nat) (hn : n ≠ 0) (h : Spec.RawFileOf buf raws)
    (hs : raws = a ++ Spec.padding Spec.linkDir n ++ b) : ∃ fuel e, decompile p buf fuel = .error e := by
  rw [decompile_fails_iff h]
  rintro ⟨f, fuel, hd⟩
  obtain ⟨T, G, L, S, D, g, _, _, r2, _⟩ := raw_project h hd
  obtain ⟨m, hm⟩ : ∃ m, (n + 1) / 2 = m + 1 := ⟨(n + 1) / 2 - 1, by omega⟩
  have : ∃ c, Spec.seen raws = Spec.seen a ++ ⟨Spec.linkDir, .data []⟩ :: c := by
    rw [hs]
    unfold Spec.padding
    rw [hm, List.replicate_succ, List.append_assoc, seen_append]
    exact ⟨_, rfl⟩
  obtain ⟨c, hc⟩ := this
  rw [hc, List.filter_append, List.filter_cons_of_pos (by rfl)] at r2
  obtain ⟨u, v, _, h2, _⟩ := event_split r2
  cases h2

/-! ## Examples -/

/-- The example file of C78, cut in the directory `[17].[5].[1].[5].[1].[129].[5]`, before the value of a step. -/
def cutAt : Nat := 80

def reopened : List Item := [.push 17, .push 5, .push 1, .push 5, .push 1, .push 129, .push 5]

def cutDisk : List (Nat × Bytes) :=
  [(0, []), (3, []), (3, (exampleItems.take cutAt).flatMap Item.bytes), (0, (reopened ++ exampleItems.drop cutAt).flatMap Item.bytes)]

def cutRaws : List Raw :=
  itemRaws [] (exampleItems.take cutAt) ++ Spec.padding [17, 5, 1, 5, 1, 129, 5] (4076 - ((exampleItems.take cutAt).flatMap Item.bytes).length) ++
    itemRaws [] reopened ++ itemRaws [17, 5, 1, 5, 1, 129, 5] (exampleItems.drop cutAt)

set_option maxRecDepth 20000 in
theorem cutDisk_ok : Spec.RawFileOf (disk cutDisk) cutRaws := by
  have hl : ∀ s ∈ cutDisk, s.2.length ≤ 4076 := by decide
  refine ⟨by rw [disk_length hl]; decide, ?_⟩
  rw [show cutRaws = itemRaws [] (exampleItems.take cutAt) ++ Spec.padding (itemsEnd [] (exampleItems.take cutAt))
    (4076 - ((exampleItems.take cutAt).flatMap Item.bytes).length) ++ (itemRaws [] (reopened ++ exampleItems.drop cutAt) ++ []) from by
      rw [List.append_nil]
      unfold cutRaws
      rw [List.append_assoc]
      rfl]
  refine disk_open hl (i := 2) (next := 3) rfl (by omega) rfl (by omega) (by omega) (by omega) (by decide) ?_
  refine disk_sector hl (i := 3) (next := 0) rfl (by omega) rfl (by omega) (by omega) (by omega) (by decide) (by decide) ?_
  exact .last

theorem plain_of {path : List Nat} (h : ∀ k ∈ List.range path.length,
    ¬Spec.fieldDir (path.take (k + 1)) ∧ ¬Spec.layoutDir (path.take (k + 1)) ∧ ¬Spec.tableDir (path.take (k + 1)) ∧ ¬Spec.sourceDir (path.take (k + 1))) :
    Spec.PlainDir path := fun k hk => h k (List.mem_range.mpr hk)

set_option maxRecDepth 20000 in
theorem cutRaws_recut : Spec.Recut (itemRaws [] exampleItems) cutRaws := by
  have h : Spec.Recut (itemRaws [] exampleItems) (itemRaws [] (exampleItems.take cutAt) ++ itemRaws [17, 5, 1, 5, 1, 129, 5] (exampleItems.drop cutAt)) :=
    .same
  refine .cut h ?_ (plain_of (by unfold Spec.fieldDir Spec.layoutDir Spec.tableDir Spec.sourceDir; decide)) (.inr (by decide)) rfl
  exact open_directories_entered _ _ _ (items_raw (exampleItems.take cutAt) (by decide) [])

/-- The hypotheses of the theorem are met, and both files decompile to the file described in C78. -/
example (p : Profile) : ∃ fuel, decompile p (disk cutDisk) fuel = .ok (some exampleFile.file) :=
  ((cut_irrelevant_partial p _ _ _ _ exampleFile_ok.1 cutDisk_ok cutRaws_recut).1 _).mp (exampleFile_decompiles p)

theorem filter_padding {f : Event → Bool} {path : List Nat} (h : f ⟨path, .data []⟩ = false) (n : Nat) :
    (Spec.seen (Spec.padding path n)).filter f = [] := by
  rw [List.filter_eq_nil_iff]
  intro e he
  obtain ⟨r, hr, hre⟩ := List.mem_filterMap.mp he
  rw [(List.mem_replicate.mp hr).2] at hre
  cases hre
  rw [h]
  simp

theorem filter_cut {f : Event → Bool} {path : List Nat} (h : f ⟨path, .data []⟩ = false) (n : Nat) (a b : List Raw) :
    (Spec.seen (a ++ Spec.padding path n ++ b)).filter f = (Spec.seen (a ++ b)).filter f := by
  rw [seen_append, seen_append, seen_append, List.filter_append, List.filter_append, List.filter_append, filter_padding h, List.append_nil]

/-- A field with its name, and the same with a cut after the name. -/
def fieldHead : List Item := [.push 129, .push 3, .push 5, .push 1, .kv 16 (fmStringEncrypt t!"name")]
def fieldReopened : List Item := [.push 129, .push 3, .push 5, .push 1]
def fieldTail : List Item := [.kv 3 (fmStringEncrypt t!"text"), .pop, .pop, .pop, .pop]

def fieldDisk : List (Nat × Bytes) :=
  [(0, []), (3, []), (3, fieldHead.flatMap Item.bytes), (0, (fieldReopened ++ fieldTail).flatMap Item.bytes)]

set_option maxRecDepth 20000 in
/-- C111 is false: of two files that differ only in that the second one is cut after the name of a field, in the directory of
the field, the first gives the name of the field and the second gives no name. -/
theorem cut_irrelevant_refuted (p : Profile) : ∃ buf buf' a re b path n, Spec.RawFileOf buf (a ++ b) ∧
    Spec.RawFileOf buf' (a ++ Spec.padding path n ++ (re ++ b)) ∧ Spec.seen re = Spec.reenter path ∧ (∀ e ∈ Spec.reenter path, e ∈ Spec.seen a) ∧
    ∃ fuel f fuel' f', decompile p buf fuel = .ok (some f) ∧ decompile p buf' fuel' = .ok (some f') ∧
      f.tables.get 1 = some { fields := [(1, { name := t!"name", description := t!"text" })] } ∧
      f'.tables.get 1 = some { fields := [(1, { description := t!"text" })] } := by
  have hl : ∀ s ∈ fieldDisk, s.2.length ≤ 4076 := by decide
  have h1 : Spec.RawFileOf (itemFile (fieldHead ++ fieldTail)) (itemRaws [] fieldHead ++ itemRaws [129, 3, 5, 1] fieldTail) :=
    itemFile_raw _ (by decide) (by decide) (by decide)
  have h2 : Spec.RawFileOf (disk fieldDisk) (itemRaws [] fieldHead ++ Spec.padding [129, 3, 5, 1] (4076 - (fieldHead.flatMap Item.bytes).length) ++
      (itemRaws [] fieldReopened ++ itemRaws [129, 3, 5, 1] fieldTail)) := by
    refine ⟨by rw [disk_length hl]; decide, ?_⟩
    rw [show itemRaws [] fieldReopened ++ itemRaws [129, 3, 5, 1] fieldTail = itemRaws [] (fieldReopened ++ fieldTail) ++ [] from rfl]
    refine disk_open hl (i := 2) (next := 3) rfl (by omega) rfl (by omega) (by omega) (by omega) (by decide) ?_
    refine disk_sector hl (i := 3) (next := 0) rfl (by omega) rfl (by omega) (by omega) (by omega) (by decide) (by decide) ?_
    exact .last
  refine ⟨_, _, _, _, _, _, _, h1, h2, rfl, open_directories_entered _ _ _ (items_raw fieldHead (by decide) []), ?_⟩
  obtain ⟨fuel, g1⟩ := raw_run (p := p) h1 (T := { file := { tables := [(1, { fields := [(1, { name := t!"name", description := t!"text" })] })] } })
    (G := {}) (L := {}) (S := {}) (D := {}) (f := {}) (by rfl) (by rfl) (by rfl) (by rfl) (by rfl) (by rfl)
  have hn : (itemRaws [] fieldHead ++ Spec.padding [129, 3, 5, 1] (4076 - (fieldHead.flatMap Item.bytes).length) ++
      (itemRaws [] fieldReopened ++ itemRaws [129, 3, 5, 1] fieldTail)).filterMap Raw.note = [] := by
    rw [List.filterMap_append, List.filterMap_append, show (itemRaws [] fieldHead).filterMap Raw.note = [] from rfl,
      show (itemRaws [] fieldReopened ++ itemRaws [129, 3, 5, 1] fieldTail).filterMap Raw.note = [] from rfl, List.nil_append, List.append_nil,
      List.filterMap_eq_nil_iff]
    intro r hr
    rw [(List.mem_replicate.mp hr).2]
    rfl
  obtain ⟨fuel', g2⟩ := raw_run (p := p) h2 (T := { file := { tables := [(1, { fields := [(1, { description := t!"text" })] })] } })
    (G := {}) (L := {}) (S := {}) (D := {}) (f := {}) (by rw [filter_cut rfl]; rfl)
    (by rw [filter_cut rfl]; rfl) (by rw [filter_cut rfl]; rfl) (by rw [filter_cut rfl]; rfl) (by rw [hn]; rfl) (by rfl)
  exact ⟨_, _, _, _, g1 _ (Nat.le_refl _), g2 _ (Nat.le_refl _), rfl, rfl⟩

/-- A sector that ends among the links of an occurrence. -/
def linkItems : List Item := [.push 3, .push 17, .push 5, .push 0, .kv 2 [0, 0, 0, 0, 0, 0, 1], .kv 16 (fmStringEncrypt t!"a"), .push 251, .data [0, 0, 1]]

def linkDisk : List (Nat × Bytes) := [(0, []), (2, []), (0, linkItems.flatMap Item.bytes)]

set_option maxRecDepth 20000 in
/-- The hypotheses of `cut_links_panics` are met. -/
example (p : Profile) : ∃ fuel e, decompile p (disk linkDisk) fuel = .error e := by
  have hl : ∀ s ∈ linkDisk, s.2.length ≤ 4076 := by decide
  refine cut_links_panics p (disk linkDisk) _ (itemRaws [] linkItems) [] (4076 - (linkItems.flatMap Item.bytes).length) (by decide) ⟨?_, ?_⟩ rfl
  · rw [disk_length hl]; decide
  · exact disk_open hl (i := 2) (next := 0) rfl (by omega) rfl (by omega) (by omega) (by omega) (by decide) .last

set_option maxRecDepth 20000 in
/-- The hypotheses of `cut_layout_loses` are met: the second directory of the layout is entered after its properties are given. -/
example (p : Profile) (fuel : Nat) (f : FmpFile) (hd : decompile p (itemFile nestedLayout) fuel = .ok (some f)) : f.layouts.get 2 = some {} := by
  refine cut_layout_loses p _ _ (itemFile_raw nestedLayout (by decide) (by decide) (by decide)) 2 [6] ((itemEvents [] nestedLayout).take 6)
    ((itemEvents [] nestedLayout).drop 7) (by rw [seen_items]; rfl) ?_ fuel f hd
  intro e he _ v
  have : e.what = .pop := by
    have h : ∀ e ∈ (itemEvents [] nestedLayout).drop 7, e.what = .pop := by decide
    exact h e he
  rw [this]
  simp

end BurnFm.Props
