import Verif.Proofs.Unknown
import Verif.Props.ChunkFormat
import Verif.Props.FileContents

/-! Property C102: content that the decoder does not know. -/

namespace BurnFm.Props
open Spec

/-- C102: a byte that does not begin a chunk is never decoded as one, and is the only thing reported as an invalid opcode. -/
theorem unknown_opcode_no_chunk (p : Profile) (code : Bytes) (o loc : Nat) (path : DirPath) (b : UInt8) (hb : code[o]? = some b) :
    (¬BeginsChunk b → ∀ ch o' path', getChunk p code o path loc ≠ .ok (.ok ch o' path')) ∧
    (getChunk p code o path loc = .ok .invalid → ¬BeginsChunk b) := by
  rw [beginsChunk_iff]
  refine ⟨fun h ch o' path' hc => ?_, fun h => ?_⟩
  · obtain ⟨b', body, hb', hbody, _⟩ := getChunk_ok hc
    rw [hb] at hb'
    cases hb'
    rw [chunkBody_none.mpr h] at hbody
    cases hbody
  · unfold getChunk at h
    rw [idx_of hb, ok_bind] at h
    obtain ⟨r, hr, h⟩ := bind_ok.mp h
    cases r with
    | none => exact chunkBody_none.mp hr
    | some body => cases h

/-- C102: a byte that does not begin a chunk is reported as an invalid opcode, if it is not the first one of its block. -/
theorem unknown_opcode_reported_partial (p : Profile) (code : Bytes) (o loc : Nat) (path : DirPath) (b : UInt8) (hb : code[o]? = some b)
    (hu : ¬BeginsChunk b) (hl : loc < o) : getChunk p code o path loc = .ok .invalid := by
  rw [beginsChunk_iff] at hu
  unfold getChunk
  rw [idx_of hb, ok_bind]
  dsimp only
  rw [chunkBody_none.mpr hu, ok_bind]
  dsimp only
  unfold usub
  rw [if_pos (by omega), ok_bind, if_neg (by omega)]
  rfl

/-- C102 is false of the decoder alone: at the first byte of a block it divides by zero for its message. -/
theorem unknown_opcode_at_start (p : Profile) (code : Bytes) (o : Nat) (path : DirPath) (b : UInt8) (hb : code[o]? = some b)
    (hu : ¬BeginsChunk b) : getChunk p code o path o = .error .divZero := by
  rw [beginsChunk_iff] at hu
  unfold getChunk
  rw [idx_of hb, ok_bind]
  dsimp only
  rw [chunkBody_none.mpr hu, ok_bind]
  dsimp only
  unfold usub
  rw [if_pos (by omega), ok_bind, if_pos (by omega)]

theorem unknown_opcode_reported_refuted : ¬∀ (p : Profile) (code : Bytes) (o loc : Nat) (path : DirPath) (b : UInt8),
    code[o]? = some b → ¬BeginsChunk b → getChunk p code o path loc = .ok .invalid := by
  intro h
  have h1 := h .debug [0x18] 0 0 [] 0x18 rfl (by decide)
  rw [unknown_opcode_at_start .debug [0x18] 0 [] 0x18 rfl (by decide)] at h1
  cases h1

/-- Bytes that begin a chunk, the second one with a delayed pop, and bytes that do not. -/
example : BeginsChunk 0x06 ∧ BeginsChunk 0xC6 ∧ ¬BeginsChunk 0x18 ∧ ¬BeginsChunk 0x41 ∧ ¬BeginsChunk 0xD8 := by decide

/-- C102: a file is decompiled only if all of it is understood: all sectors in use are read from their first chunk to their
end, and everything the reader comes to begins a chunk. -/
theorem result_covers_file (p : Profile) (buf : Bytes) (fuel : Nat) (f : FmpFile) (h : decompile p buf fuel = .ok (some f)) :
    (∃ chs, FileReads p buf (nextSector buf 1) 2 chs) ∧
    ∀ i o path, InUse buf i → Reaches p buf (i * 4096) (i * 4096 + 4096) (i * 4096 + 20) o path → o < i * 4096 + 4096 →
      ∃ b, buf[o]? = some b ∧ BeginsChunk b := by
  unfold decompile at h
  obtain ⟨first, h1, h⟩ := bind_ok.mp h
  obtain ⟨r, h2, h⟩ := bind_ok.mp h
  cases r with
  | none => cases h
  | some st =>
    obtain ⟨chs, hr, _⟩ := fileLoop_reads _ _ _ _ h2
    rw [getSector_next h1] at hr
    refine ⟨⟨chs, hr⟩, fun i o path hi hre ho => ?_⟩
    obtain ⟨rest, h3, hne⟩ := fileReads_inUse hr hi
    cases h3 with
    | done => exact absurd rfl hne
    | sector _ _ _ h4 _ =>
      obtain ⟨chs', h5⟩ := readsTo_reaches h4 hre
      cases h5 with
      | done hb => omega
      | cons _ hg _ =>
        obtain ⟨b, body, hb, _⟩ := getChunk_ok hg
        refine ⟨b, hb, Classical.byContradiction fun hn => ?_⟩
        exact (unknown_opcode_no_chunk p buf o (i * 4096) path b hb).1 hn _ _ _ hg

/-- C102: a file is rejected if some sector in use contains, after any chunks of the format, a byte that does not begin a chunk. -/
theorem unknown_content_rejected (p : Profile) (buf pre bytes post : Bytes) (i : Nat) (b : UInt8) (evs : List Event) (path : DirPath)
    (hi : InUse buf i) (hp : pre.length = i * 4096 + 20) (hb : buf = pre ++ (bytes ++ b :: post)) (hf : FormatRun [] bytes evs path)
    (hl : bytes.length < 4076) (hu : ¬BeginsChunk b) (fuel : Nat) (f : FmpFile) : decompile p buf fuel ≠ .ok (some f) := by
  intro h
  obtain ⟨_, h2⟩ := result_covers_file p buf fuel f h
  obtain ⟨chs, hd, _⟩ := chunk_sequence_exact p (i * 4096) [] path bytes evs hf pre (b :: post)
  rw [← hb] at hd
  have key : ∀ (o o' : Nat) (path path' : DirPath) (chs : List Chunk), Decodes p buf (i * 4096) o path chs o' path' →
      o' < i * 4096 + 4096 → Reaches p buf (i * 4096) (i * 4096 + 4096) (i * 4096 + 20) o path →
      Reaches p buf (i * 4096) (i * 4096 + 4096) (i * 4096 + 20) o' path' ∧ o ≤ o' := by
    intro o o' path path' chs hd
    induction hd with
    | nil => exact fun _ hr => ⟨hr, Nat.le_refl _⟩
    | cons hg hlt hd ih =>
      intro hb hr
      have hle : ∀ {o₁ o' : Nat} {path₁ path' : DirPath} {chs : List Chunk}, Decodes p buf (i * 4096) o₁ path₁ chs o' path' → o₁ ≤ o' := by
        intro o₁ o' path₁ path' chs hd
        induction hd with
        | nil => exact Nat.le_refl _
        | cons _ h1 _ ih => omega
      have := hle hd
      obtain ⟨h1, h2⟩ := ih hb (.step hr (by omega) hg)
      exact ⟨h1, by omega⟩
  have hr := (key _ _ _ _ _ hd (by omega) (by rw [hp]; exact .start)).1
  obtain ⟨b', hb', hk⟩ := h2 i _ _ hi hr (by omega)
  rw [hb, List.getElem?_append_right (by omega), show pre.length + bytes.length - pre.length = bytes.length by omega,
    List.getElem?_append_right (by omega), Nat.sub_self] at hb'
  cases hb'
  exact hu hk

/-- The hypotheses are met by a file with one sector in use that enters a directory, gives it a name, and goes on with 0x18. -/
example (p : Profile) (fuel : Nat) (f : FmpFile) : decompile p (threeSectors 0 [0x20, 3, 0x02, 16, 65, 66, 0x18]) fuel ≠ .ok (some f) := by
  refine unknown_content_rejected p _ (zeros 4104 ++ ([0, 0, 0, 2] ++ (zeros 4092 ++ ([0, 0, 0, 0] ++ zeros 8)))) [0x20, 3, 0x02, 16, 65, 66]
    (zeros 4069) 2 0x18 [⟨[3], .push⟩, ⟨[3], .kv 16 [65, 66]⟩] [3] .first (by simp [zeros_length]) ?_
    (.cons (b := 0x20) (bytes := [3]) (.push1 3 (by decide))
      (.cons (b := 0x02) (bytes := [16, 65, 66]) (.shortKv 1 16 [65, 66] (by decide) rfl) (.nil _))) (by decide) (by decide) fuel f
  unfold threeSectors
  simp only [List.append_assoc]
  rfl

end BurnFm.Props
