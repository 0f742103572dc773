import Verif.Proofs.TidyFile
import Verif.Props.Placement
import Verif.Props.Segments

/-! Property C110: what the decompiler accepts is in the format. -/

namespace BurnFm.Props
open Spec (Raw)

/-- C110 for one chunk: whatever chunk the decoder returns, at any place of any buffer, the bytes it consumed are a chunk of the
format, and it means and does to the directory what the format says. Left out: the opcode 0x1F, 0x0F without 0x80 after it, 0x38 with
less than two bytes, and chunks that run over the end of the buffer. -/
theorem accepted_chunk_in_format (p : Profile) (code : Bytes) (o loc o' : Nat) (path path' : DirPath) (ch : Chunk) (b : UInt8)
    (hb : code[o]? = some b) (h : getChunk p code o path loc = .ok (.ok ch o' path')) (he : o' ≤ code.length)
    (h1F : Spec.opcode b ≠ 0x1F) (h0F : Spec.opcode b = 0x0F → code[o + 1]? = some 0x80)
    (h38 : Spec.opcode b = 0x38 → ∀ len, code[o + 1]? = some len → 2 ≤ len.toNat) :
    ∃ bytes n, Spec.ChunkFormat (Spec.opcode b) bytes (meaning ch) n ∧ code.drop (o + 1) = bytes ++ code.drop o' ∧
      o' = o + (1 + bytes.length) ∧ path' = Spec.pathAfter b n path := by
  obtain ⟨bytes, w, n, h1, h2, h3, h4, rfl⟩ := accepted_chunk hb h he h1F h0F h38
  exact ⟨bytes, n, h1, h4, h2, h3⟩

/-- C110: a tidy file that the decompiler accepts is a sequence of chunks in the format. -/
theorem accepted_file_in_format_partial (p : Profile) (buf : Bytes) (fuel : Nat) (f : FmpFile) (h : decompile p buf fuel = .ok (some f))
    (ht : Spec.Tidy p buf) : ∃ raws, Spec.RawFileOf buf raws := by
  obtain ⟨h1, chs, h2⟩ := decompile_reads h
  obtain ⟨raws, h3⟩ := tidy_sectors ht h2 (fun _ => .first)
  exact ⟨raws, h1, h3⟩

/-- C110: tidiness is exactly what is needed. -/
theorem accepted_file_in_format_exact (p : Profile) (buf : Bytes) (fuel : Nat) (f : FmpFile) (h : decompile p buf fuel = .ok (some f)) :
    Spec.Tidy p buf ↔ ∃ raws, Spec.RawFileOf buf raws :=
  ⟨accepted_file_in_format_partial p buf fuel f h, fun ⟨_, hr⟩ => rawFile_tidy hr p⟩

/-- C110: so the result for a tidy file is a function of its chunks: every file with these chunks gives the same result. -/
theorem accepted_file_determined (p : Profile) (buf : Bytes) (fuel : Nat) (f : FmpFile) (h : decompile p buf fuel = .ok (some f))
    (ht : Spec.Tidy p buf) : ∃ raws, Spec.RawFileOf buf raws ∧
      ∀ buf' g, Spec.RawFileOf buf' raws → ((∃ fuel, decompile p buf' fuel = .ok (some g)) ↔ g = f) := by
  obtain ⟨raws, hr⟩ := accepted_file_in_format_partial p buf fuel f h ht
  refine ⟨raws, hr, fun buf' g hr' => ?_⟩
  rw [← (placement_irrelevant p buf buf' raws hr hr').1 g]
  constructor
  · rintro ⟨fuel', h'⟩
    rcases Nat.le_total fuel fuel' with hle | hle
    · rw [decompile_mono h (by simp) _ hle] at h'
      cases h'; rfl
    · rw [decompile_mono h' (by simp) _ hle] at h
      cases h; rfl
  · rintro rfl
    exact ⟨fuel, h⟩

/-- C110 is false of files that are not tidy: the decompiler accepts a file with the opcode 0x1F, which is not in the format. -/
theorem accepted_file_in_format_refuted :
    ¬∀ (p : Profile) (buf : Bytes) (fuel : Nat) (f : FmpFile), decompile p buf fuel = .ok (some f) → ∃ raws, Spec.RawFileOf buf raws := by
  intro h
  have hd : decodeAll .debug [0x1F, 0, 0, 0] 9 0 [] = some ([⟨.refLong, 0x1F, some [], some [], [], none, none⟩], []) := by rfl
  obtain ⟨hl, chs2, hr, hz⟩ := file_of_body hd (by decide) (by decide)
  obtain ⟨fuel, hf⟩ := decompile_run hl hr
  have hok : decompile .debug (threeSectors 0 [0x1F, 0, 0, 0]) fuel = .ok (some {}) := by
    rw [hf fuel (Nat.le_refl _), runChunks_append]
    rw [show runChunks .debug {} [⟨.refLong, 0x1F, some [], some [], [], none, none⟩] = .ok {} from rfl, ok_bind,
      runChunks_other .debug {} chs2 (fun ch hc => by rw [(hz ch hc).1]; rfl)]
    rfl
  obtain ⟨raws, hraw⟩ := h _ _ _ _ hok
  obtain ⟨_, _, _, l4⟩ := threeSectors_spec 0 [0x1F, 0, 0, 0] (by decide)
  exact ((rawFile_tidy hraw .debug).defined 2 8212 [] 0x1F .first .start (by omega) (l4 0)).1 rfl

/-- The example file of C78, and its scattered copy, are tidy. -/
example (p : Profile) : Spec.Tidy p (disk scattered) ∧ Spec.Tidy p (itemFile exampleItems) :=
  ⟨rawFile_tidy scattered_holds p, rawFile_tidy exampleFile_ok.1 p⟩

example (p : Profile) : ∃ fuel, decompile p (itemFile exampleItems) fuel = .ok (some exampleFile.file) := exampleFile_decompiles p

/-- A chunk that is accepted in the middle of a buffer: a two-byte directory number. -/
example (p : Profile) : getChunk p [9, 0x28, 0x81, 5, 7] 1 [] 0 = .ok (.ok ⟨.pathPush, 0x28, some [0x81, 5], none, [133], none, none⟩ 4 [133]) := by
  cases p <;> rfl

end BurnFm.Props
