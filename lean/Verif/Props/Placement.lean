import Verif.Proofs.Disk
import Verif.Props.FileContents

/-! Property C96: where the content of a file is placed. -/

namespace BurnFm.Props
open Spec (Raw)

/-- C96: two files that hold the same chunks in the same order give the same result, and fail alike, whatever sectors the
chunks are in, however they are divided into sectors, and whatever the rest of the two files contains. -/
theorem placement_irrelevant (p : Profile) (buf buf' : Bytes) (raws : List Raw) (h : Spec.RawFileOf buf raws) (h' : Spec.RawFileOf buf' raws) :
    (∀ f, (∃ fuel, decompile p buf fuel = .ok (some f)) ↔ ∃ fuel, decompile p buf' fuel = .ok (some f)) ∧
    ((∃ fuel e, decompile p buf fuel = .error e) ↔ ∃ fuel e, decompile p buf' fuel = .error e) := by
  have key : ∀ f, (∃ fuel, decompile p buf fuel = .ok (some f)) ↔ ∃ fuel, decompile p buf' fuel = .ok (some f) :=
    order_independent_partial p buf buf' raws raws h h' rfl rfl rfl rfl rfl
  have ends : ∀ b, Spec.RawFileOf b raws → ((∃ fuel e, decompile p b fuel = .error e) ↔ ¬∃ f fuel, decompile p b fuel = .ok (some f)) := by
    intro b hb
    constructor
    · rintro ⟨fuel, e, he⟩ ⟨f, fuel', hf⟩
      rcases Nat.le_total fuel fuel' with hle | hle
      · rw [decompile_mono he (by simp) _ hle] at hf
        cases hf
      · rw [decompile_mono hf (by simp) _ hle] at he
        cases he
    · intro hn
      obtain ⟨fuel, hfuel⟩ := raw_events (p := p) hb
      obtain ⟨h1, _⟩ := hfuel fuel (Nat.le_refl _)
      rcases hd : decompile p b fuel with e | (_ | f)
      · exact ⟨fuel, e, hd⟩
      · exact absurd hd h1
      · exact absurd ⟨f, fuel, hd⟩ hn
  refine ⟨key, ?_⟩
  rw [ends buf h, ends buf' h', not_iff_not]
  exact exists_congr key

/-- The content of the example file of C78, in sectors 2 and 4, with other content in the other sectors. -/
def scattered : List (Nat × Bytes) :=
  [(7, [1, 2, 3]), (5, [9, 9]), (4, (exampleItems.take 36).flatMap Item.bytes), (1, [0x20, 3, 0x40]),
   (0, (exampleItems.drop 36).flatMap Item.bytes), (2, [0x20])]

set_option maxRecDepth 20000 in
theorem scattered_holds : Spec.RawFileOf (disk scattered) (itemRaws [] exampleItems) := by
  have hl : ∀ s ∈ scattered, s.2.length ≤ 4076 := by decide
  refine ⟨by rw [disk_length hl]; decide, ?_⟩
  rw [show itemRaws [] exampleItems = itemRaws [] (exampleItems.take 36) ++ (itemRaws [] (exampleItems.drop 36) ++ []) from rfl]
  refine disk_sector hl (i := 2) (next := 4) rfl (by omega) rfl (by omega) (by omega) (by omega) (by decide) (by decide) ?_
  refine disk_sector hl (i := 4) (next := 0) rfl (by omega) rfl (by omega) (by omega) (by omega) (by decide) (by decide) ?_
  exact .last

set_option maxRecDepth 20000 in
/-- The hypotheses are met by two different files, both of which decompile. -/
example (p : Profile) : itemFile exampleItems ≠ disk scattered ∧ ∃ fuel fuel' f, decompile p (itemFile exampleItems) fuel = .ok (some f) ∧
    decompile p (disk scattered) fuel' = .ok (some f) ∧ f.tables.length = 1 := by
  refine ⟨?_, ?_⟩
  · intro h
    have := congrArg List.length h
    rw [disk_length (by decide)] at this
    rw [show (itemFile exampleItems).length = 12288 from (threeSectors_spec 0 _ (by decide)).1] at this
    cases this
  · obtain ⟨fuel, h⟩ := exampleFile_decompiles p
    obtain ⟨fuel', h'⟩ := ((placement_irrelevant p _ _ _ exampleFile_ok.1 scattered_holds).1 _).mp ⟨fuel, h⟩
    exact ⟨fuel, fuel', _, h, h', rfl⟩

end BurnFm.Props
