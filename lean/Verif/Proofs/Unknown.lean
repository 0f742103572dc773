import Verif.Proofs.Terminates
import Verif.Proofs.Truncate
import Verif.Spec.Opcodes

namespace BurnFm

set_option maxRecDepth 20000 in
theorem beginsChunk_iff (b : UInt8) : Spec.BeginsChunk b ↔ stripDelay b ∈ Spec.opcodes := by
  revert b; exact byte_forall (by decide +kernel)

theorem some_map_ne_none {α : Type} {x : Res α} : (some <$> x) ≠ .ok none := by
  cases x <;> intro h <;> cases h

theorem chunkBody_none {code : Bytes} {o : Nat} {c : UInt8} : chunkBody code o c = .ok none ↔ c ∉ Spec.opcodes := by
  constructor
  · intro h hc
    unfold chunkBody at h
    simp only [Spec.opcodes, List.mem_cons, List.not_mem_nil, or_false] at hc
    rcases hc with rfl | rfl | rfl | rfl | rfl | rfl | rfl | rfl | rfl | rfl | rfl | rfl | rfl | rfl | rfl | rfl | rfl | rfl |
      rfl | rfl | rfl | rfl | rfl | rfl | rfl | rfl | rfl | rfl | rfl | rfl | rfl | rfl | rfl | rfl | rfl | rfl | rfl | rfl | rfl <;>
      exact some_map_ne_none h
  · intro hc
    unfold chunkBody
    have key : ∀ c : UInt8, c ∉ Spec.opcodes → ¬(c = 0x00) ∧ ¬(0x01 ≤ c ∧ c ≤ 0x05) ∧ ¬(c = 0x06) ∧ ¬(c = 0x07) ∧ ¬(c = 0x08) ∧
        ¬(0x09 ≤ c ∧ c ≤ 0x0D) ∧ ¬(c = 0x0E) ∧ ¬(c = 0x0F) ∧ ¬(c = 0x10) ∧ ¬(0x11 ≤ c ∧ c ≤ 0x15) ∧ ¬(c = 0x16) ∧ ¬(c = 0x17) ∧
        ¬(c = 0x1B) ∧ ¬(c = 0x19 ∨ c = 0x1A ∨ c = 0x1C ∨ c = 0x1D) ∧ ¬(c = 0x1E) ∧ ¬(c = 0x1F) ∧ ¬(c = 0x20) ∧ ¬(c = 0x23) ∧
        ¬(c = 0x28) ∧ ¬(c = 0x30) ∧ ¬(c = 0x38) ∧ ¬(c = 0x3D ∨ c = 0x40) ∧ ¬(c = 0x80) := byte_forall (by decide +kernel)
    obtain ⟨h1, h2, h3, h4, h5, h6, h7, h8, h9, h10, h11, h12, h13, h14, h15, h16, h17, h18, h19, h20, h21, h22, h23⟩ := key c hc
    rw [if_neg h1, if_neg h2, if_neg h3, if_neg h4, if_neg h5, if_neg h6, if_neg h7, if_neg h8, if_neg h9, if_neg h10, if_neg h11,
      if_neg h12, if_neg h13, if_neg h14, if_neg h15, if_neg h16, if_neg h17, if_neg h18, if_neg h19, if_neg h20, if_neg h21,
      if_neg h22, if_neg h23]

theorem sectorLoop_reads {p : Profile} {buf : Bytes} {start bound : Nat} : ∀ (fuel o : Nat) (path : DirPath) (st st' : DState),
    sectorLoop p buf start bound fuel o path st = .ok (some st') →
    ∃ chs, ReadsTo p buf start bound o path chs ∧ runChunks p st chs = .ok st' := by
  intro fuel
  induction fuel with
  | zero => intro o path st st' h; cases h
  | succ n ih =>
    intro o path st st' h
    rw [sectorLoop] at h
    split at h
    · rename_i hlt
      cases hg : getChunk p buf o path start with
      | error e => rw [hg] at h; cases h
      | ok d =>
        rw [hg, ok_bind] at h
        cases d with
        | invalid => cases h
        | ok ch off' path' =>
          dsimp only at h
          cases hd : dispatch p st path' ch with
          | error e => rw [hd] at h; cases h
          | ok st1 =>
            rw [hd, ok_bind] at h
            obtain ⟨chs, h1, h2⟩ := ih _ _ _ _ h
            refine ⟨ch :: chs, .cons hlt hg h1, ?_⟩
            rw [runChunks_cons, chunk_path_eq hg, hd, ok_bind, h2]
    · cases h
      exact ⟨[], .done (by omega), rfl⟩

theorem fileLoop_reads {p : Profile} {buf : Bytes} {n : Nat} : ∀ (fuel i : Nat) (st st' : DState),
    fileLoop p buf n fuel i st = .ok (some st') →
    ∃ chs, FileReads p buf n i chs ∧ runChunks p st chs = .ok st' := by
  intro fuel
  induction fuel with
  | zero => intro i st st' h; cases h
  | succ m ih =>
    intro i st st' h
    rw [fileLoop] at h
    split at h
    · rename_i hi
      cases h
      subst hi
      exact ⟨[], .done, rfl⟩
    · rename_i hi
      dsimp only at h
      obtain ⟨sec, h1, h⟩ := bind_ok.mp h
      split at h
      · cases h
      · rename_i hn
        obtain ⟨r, h2, h⟩ := bind_ok.mp h
        cases r with
        | none => cases h
        | some st1 =>
          dsimp only at h
          obtain ⟨a, ha, hra⟩ := sectorLoop_reads _ _ _ _ _ h2
          rw [getSector_next h1] at h
          obtain ⟨b, hb, hrb⟩ := ih _ _ _ h
          refine ⟨a ++ b, .sector hi (by omega) (getSector_length ⟨_, h1⟩) ha hb, ?_⟩
          rw [runChunks_append, hra, ok_bind, hrb]

theorem readsTo_reaches {p : Profile} {buf : Bytes} {start bound s₀ : Nat} {chs : List Chunk}
    (h : ReadsTo p buf start bound s₀ [] chs) {o : Nat} {path : DirPath} (hr : Reaches p buf start bound s₀ o path) :
    ∃ chs', ReadsTo p buf start bound o path chs' := by
  induction hr with
  | start => exact ⟨chs, h⟩
  | step _ hlt hg ih =>
    obtain ⟨chs', h'⟩ := ih
    cases h' with
    | done hb => omega
    | cons _ hg' h2 =>
      rw [hg] at hg'
      cases hg'
      exact ⟨_, h2⟩

theorem fileReads_inUse {p : Profile} {buf : Bytes} {n : Nat} {chs : List Chunk} (h : FileReads p buf n 2 chs) {i : Nat}
    (hi : Spec.InUse buf i) : ∃ rest, FileReads p buf n i rest ∧ i ≠ 0 := by
  induction hi with
  | first => exact ⟨chs, h, by omega⟩
  | next _ hne ih =>
    obtain ⟨rest, h', _⟩ := ih
    cases h' with
    | done => exact absurd rfl ‹_ ≠ 0›
    | sector _ _ _ _ h2 => exact ⟨_, h2, hne⟩

end BurnFm
