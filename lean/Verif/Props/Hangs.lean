import Verif.Proofs.Hangs
import Verif.Props.Terminates

/-! Property C17: exactly which files the decompiler reads forever. -/

namespace BurnFm.Props

/-- Reading the file never finishes, neither with a result nor with a panic. -/
def Hangs (p : Profile) (buf : Bytes) : Prop := ∀ fuel, decompile p buf fuel = .ok none

/-- Reading the file ends in a panic. -/
def Crashes (p : Profile) (buf : Bytes) : Prop := ∃ fuel e, decompile p buf fuel = .error e

/-- Reading the file gives a result. -/
def Finishes (p : Profile) (buf : Bytes) : Prop := ∃ fuel f, decompile p buf fuel = .ok (some f)

theorem decompile_some {p : Profile} {buf : Bytes} {fuel : Nat} {f : FmpFile} (h : decompile p buf fuel = .ok (some f)) :
    Spec.ChainEnds buf 2 ∧ ∀ j, Spec.SectorLinked buf 2 j → j ≠ 0 → ¬ Spec.BareSegmentIn p buf j := by
  unfold decompile at h
  cases hg : getSector buf 4096 with
  | error e => rw [hg] at h; cases h
  | ok first =>
    rw [hg, ok_bind] at h
    cases hl : fileLoop p buf first.next fuel 2 {} with
    | error e => rw [hl] at h; cases h
    | ok o =>
      rw [hl, ok_bind] at h
      cases o with
      | none => cases h
      | some st => exact fileLoop_done _ _ _ _ hl

/-- C17, all that is true of the code: a file is read forever exactly if reading it never panics and either its
sector links come back to a sector already read, or a linked sector has a segment opcode without its second byte
where a chunk starts. -/
theorem decompile_hangs_iff (p : Profile) (buf : Bytes) :
    Hangs p buf ↔ ¬ Crashes p buf ∧
      (Spec.Revisits buf 2 ∨ ∃ i, Spec.SectorLinked buf 2 i ∧ i ≠ 0 ∧ Spec.BareSegmentIn p buf i) := by
  rw [revisits_iff]
  constructor
  · intro h
    refine ⟨fun ⟨fuel, e, he⟩ => (by rw [h fuel] at he; cases he), ?_⟩
    by_contra hn
    rw [not_or, Classical.not_not] at hn
    obtain ⟨hc, hs⟩ := hn
    cases hg : getSector buf 4096 with
    | error e => have := h 0; unfold decompile at this; rw [hg] at this; cases this
    | ok first =>
      obtain ⟨fuel, hf⟩ := fileLoop_ends p buf first.next hc (fun j h1 h2 h3 => hs ⟨j, h1, h2, h3⟩)
      have := h fuel
      unfold decompile at this
      rw [hg, ok_bind] at this
      cases hl : fileLoop p buf first.next fuel 2 {} with
      | error e => rw [hl] at this; cases this
      | ok o =>
        rw [hl, ok_bind] at this
        cases o with
        | none => exact hf {} hl
        | some st =>
          dsimp only at this
          cases ha : assembleScripts st with
          | error e => rw [ha] at this; cases this
          | ok f => rw [ha] at this; cases this
  · rintro ⟨hn, h⟩ fuel
    cases hd : decompile p buf fuel with
    | error e => exact absurd ⟨fuel, e, hd⟩ hn
    | ok o =>
      cases o with
      | none => rfl
      | some f =>
        obtain ⟨h1, h2⟩ := decompile_some hd
        rcases h with h | ⟨i, hi, h0, hb⟩
        · exact absurd h1 h
        · exact absurd hb (h2 i hi h0)

/-- Every file does exactly one of the three things. -/
theorem decompile_trichotomy (p : Profile) (buf : Bytes) :
    (Hangs p buf ∧ ¬ Crashes p buf ∧ ¬ Finishes p buf) ∨ (Crashes p buf ∧ ¬ Hangs p buf ∧ ¬ Finishes p buf) ∨
      (Finishes p buf ∧ ¬ Hangs p buf ∧ ¬ Crashes p buf) := by
  by_cases h1 : Finishes p buf
  · obtain ⟨m, f, hm⟩ := h1
    refine .inr (.inr ⟨⟨m, f, hm⟩, fun h => (by rw [h m] at hm; cases hm), fun ⟨n, e, hn⟩ => ?_⟩)
    have := decompile_fuel_irrelevant p buf m n (by rw [hm]; intro h; cases h) (by rw [hn]; intro h; cases h)
    rw [hm, hn] at this; cases this
  · by_cases h2 : Crashes p buf
    · obtain ⟨m, e, hm⟩ := h2
      exact .inr (.inl ⟨⟨m, e, hm⟩, fun h => (by rw [h m] at hm; cases hm), h1⟩)
    · refine .inl ⟨fun fuel => ?_, h2, h1⟩
      cases hd : decompile p buf fuel with
      | error e => exact absurd ⟨fuel, e, hd⟩ h2
      | ok o => cases o with
        | none => rfl
        | some f => exact absurd ⟨fuel, f, hd⟩ h1

/-- A file that is read to the end has links that lead to the end marker, without coming back. -/
theorem finishes_links (p : Profile) (buf : Bytes) (h : Finishes p buf) :
    Spec.ChainEnds buf 2 ∧ ¬ Spec.Revisits buf 2 ∧
      ∀ i, Spec.SectorLinked buf 2 i → i ≠ 0 → ¬ Spec.BareSegmentIn p buf i := by
  obtain ⟨fuel, f, hd⟩ := h
  obtain ⟨h1, h2⟩ := decompile_some hd
  exact ⟨h1, fun h => (revisits_iff buf 2).mp h h1, h2⟩

example (p : Profile) : Spec.Revisits (threeSectors 2 []) 2 ∧ Hangs p (threeSectors 2 []) ∧ ¬ Crashes p (threeSectors 2 []) := by
  obtain ⟨h1, h2, h3, h4⟩ := threeSectors_spec 2 [] (by simp)
  have hh : Hangs p (threeSectors 2 []) := fun fuel => by
    refine decompile_cyclic p _ (by omega) (by omega) h3 ?_ fuel
    intro i hi hi2
    obtain ⟨k, rfl⟩ : ∃ k, i = 8212 + k := ⟨i - 8212, by omega⟩
    rw [h4]
    exact List.getElem?_replicate_of_lt (by simp; omega)
  refine ⟨⟨2, .here, by decide, ?_⟩, hh, ((decompile_hangs_iff p _).mp hh).1⟩
  have e : Spec.nextSector (threeSectors 2 []) 2 = 2 := h3
  rw [e]
  exact .here

example (p : Profile) : Spec.BareSegmentIn p (threeSectors 0 [0x0F, 0]) 2 ∧ Hangs p (threeSectors 0 [0x0F, 0]) := by
  obtain ⟨h1, h2, h3, h4⟩ := threeSectors_spec 0 [0x0F, 0] (by simp)
  have hn : (threeSectors 0 [0x0F, 0])[8213]? ≠ some 0x80 := by rw [h4 1]; simp
  exact ⟨⟨8212, [], .start, by decide, .inl (h4 0), hn⟩,
    fun fuel => decompile_stuck p _ (by omega) (by omega) (h4 0) hn fuel⟩

end BurnFm.Props
