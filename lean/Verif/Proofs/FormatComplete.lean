import Verif.Proofs.Raw

/-! Every chunk that the decoder accepts is written in the format. -/

namespace BurnFm
open Spec

/-- A chunk of the format at the start of `rest`, of `len` bytes. -/
def HasChunk (b : UInt8) (rest : Bytes) (len : Nat) : Prop :=
  ∃ bytes post w n, rest = bytes ++ post ∧ len = bytes.length ∧ ChunkFormat (opcode b) bytes w n

theorem length_two {l : Bytes} (h : l.length = 2) : ∃ a b, l = [a, b] := by
  rcases l with _ | ⟨a, _ | ⟨b, _ | ⟨c, l⟩⟩⟩ <;> simp at h
  exact ⟨a, b, rfl⟩

theorem length_three {l : Bytes} (h : l.length = 3) : ∃ a b c, l = [a, b, c] := by
  rcases l with _ | ⟨a, _ | ⟨b, _ | ⟨c, _ | ⟨d, l⟩⟩⟩⟩ <;> simp at h
  exact ⟨a, b, c, rfl⟩

theorem slice_zero_ok {l d : Bytes} {j : Nat} : slice l 0 j = .ok d ↔ d.length = j ∧ ∃ post, l = d ++ post := by
  rw [slice_ok]
  constructor
  · rintro ⟨_, h, rfl⟩
    simp only [List.drop_zero, Nat.sub_zero]
    exact ⟨by rw [List.length_take]; omega, l.drop j, (List.take_append_drop _ _).symm⟩
  · rintro ⟨rfl, post, rfl⟩
    exact ⟨by omega, by simp, by simp⟩

theorem slice_off_ok {l d : Bytes} {a n : Nat} : slice l a (a + n) = .ok d ↔ d.length = n ∧ ∃ pre post, pre.length = a ∧ l = pre ++ (d ++ post) := by
  rw [slice_ok]
  constructor
  · rintro ⟨_, h, rfl⟩
    refine ⟨by rw [List.length_take, List.length_drop]; omega, l.take a, (l.drop a).drop n, by rw [List.length_take]; omega, ?_⟩
    rw [show a + n - a = n by omega, List.take_append_drop, List.take_append_drop]
  · rintro ⟨rfl, pre, post, rfl, rfl⟩
    exact ⟨by omega, by simp, by simp⟩

theorem idx_cons_ok {x y : UInt8} {l : Bytes} {i : Nat} : idx (x :: l) (i + 1) = .ok y ↔ idx l i = .ok y := by
  rw [idx_ok, idx_ok, List.getElem?_cons_succ]

theorem idx_zero_ok {l : Bytes} {y : UInt8} : idx l 0 = .ok y ↔ ∃ post, l = y :: post := by
  rw [idx_ok]
  cases l <;> simp [eq_comm]

theorem take_n {l : Bytes} {n : Nat} (h : n ≤ l.length) : ∃ d post, l = d ++ post ∧ d.length = n :=
  ⟨l.take n, l.drop n, (List.take_append_drop _ _).symm, by rw [List.length_take]; omega⟩

theorem slice_at (pre l : Bytes) (i j : Nat) : slice (pre ++ l) (pre.length + i) (pre.length + j) = slice l i j := slice_append pre l i j

theorem complete_empty {pre rest : Bytes} {b : UInt8} {body : Body} (hop : opcode b = 0x00) (h : armEmpty (pre ++ b :: rest) pre.length = .ok body)
    (he : body.off ≤ (pre ++ b :: rest).length) : ∃ k, body.off = pre.length + (1 + k) ∧ HasChunk b rest k := by
  unfold armEmpty at h
  obtain ⟨d, _, h⟩ := bind_ok.mp h
  obtain ⟨y, _, h⟩ := bind_ok.mp h
  cases h
  rcases rest with _ | ⟨x, rest⟩
  · simp at he
  · exact ⟨1, rfl, [x], rest, _, _, rfl, rfl, by rw [hop]; exact .empty x⟩

theorem complete_kv {pre rest : Bytes} {b : UInt8} {body : Body} (hop : opcode b = 0x06) (h : armKv (pre ++ b :: rest) pre.length = .ok body) :
    ∃ k, body.off = pre.length + (1 + k) ∧ HasChunk b rest k := by
  unfold armKv at h
  obtain ⟨k, h1, h⟩ := bind_ok.mp h
  obtain ⟨len, h2, h⟩ := bind_ok.mp h
  obtain ⟨d, h3, h⟩ := bind_ok.mp h
  cases h
  rw [idx_append, idx_cons_ok, idx_zero_ok] at h1
  obtain ⟨rest, rfl⟩ := h1
  rw [idx_append, idx_cons_ok, idx_cons_ok, idx_zero_ok] at h2
  obtain ⟨rest, rfl⟩ := h2
  rw [slice_at, Nat.add_comm 3, slice_cons, slice_cons, slice_cons, slice_zero_ok] at h3
  obtain ⟨h3, rest, rfl⟩ := h3
  exact ⟨2 + d.length, by dsimp only; omega, k :: len :: d, rest, _, _, rfl, by simp; omega, by rw [hop]; exact .kv k len d h3⟩

theorem complete_segment {pre rest : Bytes} {b : UInt8} {body : Body} (hop : opcode b = 0x07)
    (h : armSegment (pre ++ b :: rest) pre.length = .ok body) : ∃ k, body.off = pre.length + (1 + k) ∧ HasChunk b rest k := by
  unfold armSegment at h
  obtain ⟨s, h1, h⟩ := bind_ok.mp h
  obtain ⟨l, h2, h⟩ := bind_ok.mp h
  obtain ⟨d, h3, h⟩ := bind_ok.mp h
  cases h
  rw [idx_append, idx_cons_ok, idx_zero_ok] at h1
  obtain ⟨rest, rfl⟩ := h1
  rw [slice_at, slice_cons, slice_cons, slice_zero_ok] at h2
  obtain ⟨h2, rest, rfl⟩ := h2
  obtain ⟨l1, l2, rfl⟩ := length_two h2
  rw [slice_at, Nat.add_comm 4, getInt_two] at h3
  change slice (b :: s :: l1 :: l2 :: rest) _ _ = _ at h3
  rw [slice_cons, slice_cons, slice_cons, slice_cons, slice_zero_ok] at h3
  obtain ⟨h3, rest, rfl⟩ := h3
  exact ⟨3 + d.length, by dsimp only; rw [getInt_two]; omega, s :: l1 :: l2 :: d, rest, _, _, rfl, by simp; omega,
    by rw [hop]; exact .segment s l1 l2 d h3⟩

theorem complete_fixed {pre rest d : Bytes} {b : UInt8} {n : Nat} (h : slice (pre ++ b :: rest) (pre.length + 1) (pre.length + (1 + n)) = .ok d) :
    d.length = n ∧ ∃ post, rest = d ++ post := by
  rw [slice_at, Nat.add_comm 1, slice_cons, slice_zero_ok] at h
  exact h

theorem complete_data2 {pre rest : Bytes} {b : UInt8} {body : Body} (hop : opcode b = 0x08)
    (h : armData2 (pre ++ b :: rest) pre.length = .ok body) : ∃ k, body.off = pre.length + (1 + k) ∧ HasChunk b rest k := by
  unfold armData2 at h
  obtain ⟨d, h3, h⟩ := bind_ok.mp h
  cases h
  have hf := complete_fixed (n := 2) h3; clear h3
  obtain ⟨h3, rest, rfl⟩ := hf
  exact ⟨2, rfl, d, rest, _, _, rfl, h3.symm, by rw [hop]; exact .data2 d h3⟩

theorem complete_data3 {pre rest : Bytes} {b : UInt8} {body : Body} (hop : opcode b = 0x10)
    (h : armData3 (pre ++ b :: rest) pre.length = .ok body) : ∃ k, body.off = pre.length + (1 + k) ∧ HasChunk b rest k := by
  unfold armData3 at h
  obtain ⟨d, h3, h⟩ := bind_ok.mp h
  cases h
  have hf := complete_fixed (n := 3) h3; clear h3
  obtain ⟨h3, rest, rfl⟩ := hf
  exact ⟨3, rfl, d, rest, _, _, rfl, h3.symm, by rw [hop]; exact .data3 d h3⟩

theorem complete_push2 {pre rest : Bytes} {b : UInt8} {body : Body} (hop : opcode b = 0x28)
    (h : armPush2 (pre ++ b :: rest) pre.length = .ok body) : ∃ k, body.off = pre.length + (1 + k) ∧ HasChunk b rest k := by
  unfold armPush2 at h
  obtain ⟨d, h3, h⟩ := bind_ok.mp h
  cases h
  have hf := complete_fixed (n := 2) h3; clear h3
  obtain ⟨h3, rest, rfl⟩ := hf
  obtain ⟨l1, l2, rfl⟩ := length_two h3
  exact ⟨2, rfl, _, rest, _, _, rfl, h3.symm, by rw [hop]; exact .push2 l1 l2⟩

theorem complete_push3 {pre rest : Bytes} {b : UInt8} {body : Body} (hop : opcode b = 0x30)
    (h : armPush3 (pre ++ b :: rest) pre.length = .ok body) : ∃ k, body.off = pre.length + (1 + k) ∧ HasChunk b rest k := by
  unfold armPush3 at h
  obtain ⟨d, h3, h⟩ := bind_ok.mp h
  cases h
  have hf := complete_fixed (n := 3) h3; clear h3
  obtain ⟨h3, rest, rfl⟩ := hf
  obtain ⟨l1, l2, l3, rfl⟩ := length_three h3
  exact ⟨3, rfl, _, rest, _, _, rfl, h3.symm, by rw [hop]; exact .push3 l1 l2 l3⟩

theorem complete_smallKv {pre rest : Bytes} {b c : UInt8} {body : Body} (hop : opcode b = c.toNat) (hc1 : 1 ≤ c.toNat) (hc2 : c.toNat ≤ 5)
    (h : armSmallKv (pre ++ b :: rest) pre.length c = .ok body) : ∃ k, body.off = pre.length + (1 + k) ∧ HasChunk b rest k := by
  unfold armSmallKv at h
  obtain ⟨k, h1, h⟩ := bind_ok.mp h
  dsimp only at h
  obtain ⟨d, h3, h⟩ := bind_ok.mp h
  cases h
  rw [idx_append, idx_cons_ok, idx_zero_ok] at h1
  obtain ⟨rest, rfl⟩ := h1
  rw [slice_at, Nat.add_comm 2, slice_cons, slice_cons, slice_zero_ok] at h3
  obtain ⟨h3, rest, rfl⟩ := h3
  have hs : (if c = 0x01 then 1 else 0) + 2 * (c.toNat - 1) = shortLen (c.toNat - 1) := by
    unfold shortLen
    by_cases h0 : c = 1
    · subst h0; rfl
    · rw [if_neg h0, if_neg]
      · omega
      · intro hh; apply h0; rw [← UInt8.toNat_inj]; show c.toNat = 1; omega
  have := ChunkFormat.shortKv (c.toNat - 1) k d (by omega) (by rw [h3, hs])
  rw [show 1 + (c.toNat - 1) = c.toNat by omega, ← hop] at this
  exact ⟨1 + d.length, by dsimp only; rw [h3]; omega, k :: d, rest, _, _, rfl, by simp; omega, this⟩

theorem complete_smallKvE {pre rest : Bytes} {b c : UInt8} {body : Body} (hop : opcode b = c.toNat) (hc1 : 9 ≤ c.toNat) (hc2 : c.toNat ≤ 13)
    (h : armSmallKvE (pre ++ b :: rest) pre.length c = .ok body) : ∃ k, body.off = pre.length + (1 + k) ∧ HasChunk b rest k := by
  unfold armSmallKvE at h
  obtain ⟨k, h1, h⟩ := bind_ok.mp h
  dsimp only at h
  obtain ⟨d, h3, h⟩ := bind_ok.mp h
  cases h
  have hf := complete_fixed (n := 2) h1; clear h1
  obtain ⟨h1, rest, rfl⟩ := hf
  obtain ⟨k1, k2, rfl⟩ := length_two h1
  rw [slice_at, Nat.add_comm 3] at h3
  change slice (b :: k1 :: k2 :: rest) _ _ = _ at h3
  rw [slice_cons, slice_cons, slice_cons, slice_zero_ok] at h3
  obtain ⟨h3, rest, rfl⟩ := h3
  have hs : (if c = 0x09 then 1 else 0) + 2 * (c.toNat - 9) = shortLen (c.toNat - 9) := by
    unfold shortLen
    by_cases h0 : c = 9
    · subst h0; rfl
    · rw [if_neg h0, if_neg]
      · omega
      · intro hh; apply h0; rw [← UInt8.toNat_inj]; show c.toNat = 9; omega
  have := ChunkFormat.shortKvE (c.toNat - 9) k1 k2 d (by omega) (by rw [h3, hs])
  rw [show 9 + (c.toNat - 9) = c.toNat by omega, ← hop] at this
  exact ⟨2 + d.length, by dsimp only; rw [h3]; omega, k1 :: k2 :: d, rest, _, _, rfl, by simp; omega, this⟩

theorem complete_kvE {pre rest : Bytes} {b : UInt8} {body : Body} (hop : opcode b = 0x0E)
    (h : armKvE (pre ++ b :: rest) pre.length = .ok body) : ∃ k, body.off = pre.length + (1 + k) ∧ HasChunk b rest k := by
  unfold armKvE at h
  obtain ⟨n, h1, h⟩ := bind_ok.mp h
  rw [idx_append, idx_cons_ok, idx_zero_ok] at h1
  obtain ⟨rest, rfl⟩ := h1
  by_cases hn : n ≠ 0xFF
  · rw [if_pos hn] at h
    obtain ⟨k, h2, h⟩ := bind_ok.mp h
    obtain ⟨len, h3, h⟩ := bind_ok.mp h
    obtain ⟨d, h4, h⟩ := bind_ok.mp h
    cases h
    have hf := complete_fixed (n := 2) h2; clear h2
    obtain ⟨h2, r, h5⟩ := hf
    obtain ⟨k1, k2, rfl⟩ := length_two h2
    cases h5
    change idx (pre ++ b :: n :: k2 :: r) _ = _ at h3
    rw [idx_append, idx_cons_ok, idx_cons_ok, idx_cons_ok, idx_zero_ok] at h3
    obtain ⟨rest, rfl⟩ := h3
    rw [slice_at, Nat.add_comm 4] at h4
    change slice (b :: n :: k2 :: len :: rest) _ _ = _ at h4
    rw [slice_cons, slice_cons, slice_cons, slice_cons, slice_zero_ok] at h4
    obtain ⟨h4, rest, rfl⟩ := h4
    exact ⟨3 + d.length, by dsimp only; omega, n :: k2 :: len :: d, rest, _, _, rfl, by simp; omega,
      by rw [hop]; exact .kvE n k2 len d hn h4⟩
  · rw [if_neg hn] at h
    obtain ⟨d, h2, h⟩ := bind_ok.mp h
    cases h
    rw [Decidable.not_not] at hn
    subst hn
    have hf := complete_fixed (n := 6) h2; clear h2
    obtain ⟨h2, r, h5⟩ := hf
    rcases d with _ | ⟨x, d⟩
    · cases h2
    · cases h5
      exact ⟨6, rfl, 0xFF :: d, r, _, _, rfl, h2.symm, by rw [hop]; exact .dataFF d (by simpa using h2)⟩

theorem complete_segmentE {pre rest : Bytes} {b : UInt8} {body : Body} (hop : opcode b = 0x0F)
    (h : armSegmentE (pre ++ b :: rest) pre.length = .ok body) (h80 : (pre ++ b :: rest)[pre.length + 1]? = some 0x80) :
    ∃ k, body.off = pre.length + (1 + k) ∧ HasChunk b rest k := by
  unfold armSegmentE at h
  rw [idx_of h80, ok_bind, if_pos rfl] at h
  have h1 := idx_of h80
  rw [idx_append, idx_cons_ok, idx_zero_ok] at h1
  obtain ⟨rest, rfl⟩ := h1
  obtain ⟨s, h1, h⟩ := bind_ok.mp h
  obtain ⟨l, h2, h⟩ := bind_ok.mp h
  obtain ⟨d, h3, h⟩ := bind_ok.mp h
  cases h
  rw [idx_append, idx_cons_ok, idx_cons_ok, idx_zero_ok] at h1
  obtain ⟨rest, rfl⟩ := h1
  rw [slice_at, slice_cons, slice_cons, slice_cons, slice_zero_ok] at h2
  obtain ⟨h2, rest, rfl⟩ := h2
  obtain ⟨l1, l2, rfl⟩ := length_two h2
  rw [slice_at, Nat.add_comm 5, getInt_two] at h3
  change slice (b :: 0x80 :: s :: l1 :: l2 :: rest) _ _ = _ at h3
  rw [slice_cons, slice_cons, slice_cons, slice_cons, slice_cons, slice_zero_ok] at h3
  obtain ⟨h3, rest, rfl⟩ := h3
  exact ⟨4 + d.length, by dsimp only; rw [getInt_two]; omega, 0x80 :: s :: l1 :: l2 :: d, rest, _, _, rfl, by simp; omega,
    by rw [hop]; exact .segmentE s l1 l2 d h3⟩

theorem complete_dataN {pre rest : Bytes} {b c : UInt8} {body : Body} (hop : opcode b = c.toNat) (hc1 : 0x11 ≤ c.toNat) (hc2 : c.toNat ≤ 0x15)
    (h : armDataN (pre ++ b :: rest) pre.length c = .ok body) : ∃ k, body.off = pre.length + (1 + k) ∧ HasChunk b rest k := by
  unfold armDataN at h
  dsimp only at h
  obtain ⟨d, h3, h⟩ := bind_ok.mp h
  cases h
  have hf := complete_fixed h3; clear h3
  obtain ⟨h3, rest, rfl⟩ := hf
  have hs : 3 + (if c = 0x11 then 1 else 0) + 2 * (c.toNat - 0x11) = 3 + shortLen (c.toNat - 0x11) := by
    unfold shortLen
    by_cases h0 : c = 0x11
    · subst h0; rfl
    · have h5 : ¬ c.toNat - 0x11 = 0 := by
        intro hh; apply h0; rw [← UInt8.toNat_inj]; show c.toNat = 0x11; omega
      rw [if_neg h0, if_neg h5]
  have := ChunkFormat.dataN (c.toNat - 0x11) d (by omega) (by rw [h3, hs])
  rw [show 0x11 + (c.toNat - 0x11) = c.toNat by omega, ← hop] at this
  exact ⟨d.length, by dsimp only; rw [h3], d, rest, _, _, rfl, rfl, this⟩

theorem complete_ref3 {pre rest : Bytes} {b : UInt8} {body : Body} (hop : opcode b = 0x16)
    (h : armRef3 (pre ++ b :: rest) pre.length = .ok body) : ∃ k, body.off = pre.length + (1 + k) ∧ HasChunk b rest k := by
  unfold armRef3 at h
  obtain ⟨r, h1, h⟩ := bind_ok.mp h
  obtain ⟨len, h2, h⟩ := bind_ok.mp h
  obtain ⟨d, h3, h⟩ := bind_ok.mp h
  cases h
  have hf := complete_fixed (n := 3) h1; clear h1
  obtain ⟨h1, rest, rfl⟩ := hf
  obtain ⟨k1, k2, k3, rfl⟩ := length_three h1
  change idx (pre ++ b :: k1 :: k2 :: k3 :: rest) _ = _ at h2
  rw [idx_append, idx_cons_ok, idx_cons_ok, idx_cons_ok, idx_cons_ok, idx_zero_ok] at h2
  obtain ⟨rest, rfl⟩ := h2
  rw [slice_at, Nat.add_comm 5] at h3
  change slice (b :: k1 :: k2 :: k3 :: len :: rest) _ _ = _ at h3
  rw [slice_cons, slice_cons, slice_cons, slice_cons, slice_cons, slice_zero_ok] at h3
  obtain ⟨h3, rest, rfl⟩ := h3
  exact ⟨4 + d.length, by dsimp only; omega, k1 :: k2 :: k3 :: len :: d, rest, _, _, rfl, by simp; omega,
    by rw [hop]; exact .ref3 k1 k2 k3 len d h3⟩

theorem complete_ref3Long {pre rest : Bytes} {b : UInt8} {body : Body} (hop : opcode b = 0x17)
    (h : armRef3Long (pre ++ b :: rest) pre.length = .ok body) : ∃ k, body.off = pre.length + (1 + k) ∧ HasChunk b rest k := by
  unfold armRef3Long at h
  obtain ⟨r, h1, h⟩ := bind_ok.mp h
  obtain ⟨l, h2, h⟩ := bind_ok.mp h
  dsimp only at h
  obtain ⟨d, h3, h⟩ := bind_ok.mp h
  cases h
  have hf := complete_fixed (n := 3) h1; clear h1
  obtain ⟨h1, rest, rfl⟩ := hf
  obtain ⟨k1, k2, k3, rfl⟩ := length_three h1
  change slice (pre ++ b :: k1 :: k2 :: k3 :: rest) _ _ = _ at h2
  rw [slice_at, slice_cons, slice_cons, slice_cons, slice_cons, slice_zero_ok] at h2
  obtain ⟨h2, rest, rfl⟩ := h2
  obtain ⟨l1, l2, rfl⟩ := length_two h2
  rw [slice_at, Nat.add_comm 6, getPathInt_two] at h3
  change slice (b :: k1 :: k2 :: k3 :: l1 :: l2 :: rest) _ _ = _ at h3
  rw [slice_cons, slice_cons, slice_cons, slice_cons, slice_cons, slice_cons, slice_zero_ok] at h3
  obtain ⟨h3, rest, rfl⟩ := h3
  exact ⟨5 + d.length, by dsimp only; rw [getPathInt_two]; omega, k1 :: k2 :: k3 :: l1 :: l2 :: d, rest, _, _, rfl, by simp; omega,
    by rw [hop]; exact .ref3Long k1 k2 k3 l1 l2 d h3⟩

theorem complete_data1B {pre rest : Bytes} {b : UInt8} {body : Body} (hop : opcode b = 0x1B)
    (h : armData1B (pre ++ b :: rest) pre.length = .ok body) (he : body.off ≤ (pre ++ b :: rest).length) :
    ∃ k, body.off = pre.length + (1 + k) ∧ HasChunk b rest k := by
  unfold armData1B at h
  obtain ⟨n, h1, h⟩ := bind_ok.mp h
  rw [idx_append, idx_cons_ok, idx_zero_ok] at h1
  obtain ⟨rest, rfl⟩ := h1
  by_cases hn : n = 0
  · rw [if_pos hn] at h
    subst hn
    obtain ⟨k, h2, h⟩ := bind_ok.mp h
    obtain ⟨d, h3, h⟩ := bind_ok.mp h
    cases h
    rw [idx_append, idx_cons_ok, idx_cons_ok, idx_zero_ok] at h2
    obtain ⟨rest, rfl⟩ := h2
    rw [slice_at, slice_cons, slice_cons, slice_cons, slice_zero_ok] at h3
    obtain ⟨h3, rest, rfl⟩ := h3
    exact ⟨6, rfl, 0 :: k :: d, rest, _, _, rfl, by simp [h3], by rw [hop]; exact .kv1B k d h3⟩
  · rw [if_neg hn] at h
    obtain ⟨d, h3, h⟩ := bind_ok.mp h
    cases h
    rw [slice_at, Nat.add_comm 2, slice_cons, slice_cons, slice_zero_ok] at h3
    obtain ⟨h3, rest, rfl⟩ := h3
    obtain ⟨sl, rest, rfl, h4⟩ := take_n (l := rest) (n := 4) (by simp at he; omega)
    exact ⟨1 + d.length + 4, by dsimp only; omega, n :: d ++ sl, rest, _, _, by simp, by simp; omega, by rw [hop]; exact .data1B n d sl hn h3 h4⟩

theorem complete_dataSlack {pre rest : Bytes} {b c : UInt8} {body : Body} (hop : opcode b = c.toNat)
    (hc : c = 0x19 ∨ c = 0x1A ∨ c = 0x1C ∨ c = 0x1D) (h : armDataSlack (pre ++ b :: rest) pre.length c = .ok body)
    (he : body.off ≤ (pre ++ b :: rest).length) : ∃ k, body.off = pre.length + (1 + k) ∧ HasChunk b rest k := by
  unfold armDataSlack at h
  obtain ⟨n, h1, h⟩ := bind_ok.mp h
  rw [idx_append, idx_cons_ok, idx_zero_ok] at h1
  obtain ⟨rest, rfl⟩ := h1
  obtain ⟨d, h3, h⟩ := bind_ok.mp h
  cases h
  rw [slice_at, Nat.add_comm 2, slice_cons, slice_cons, slice_zero_ok] at h3
  obtain ⟨h3, rest, rfl⟩ := h3
  have fin : ∀ i, i < 5 → i ≠ 2 → c.toNat = 0x19 + i → (if c = 0x19 then 1 else 0) + 2 * (c.toNat - 0x19) = shortLen i →
      ∃ k, pre.length + (2 + n.toNat + (if c = 0x19 then 1 else 0) + 2 * (c.toNat - 0x19)) = pre.length + (1 + k) ∧
        HasChunk b (n :: (d ++ rest)) k := by
    intro i hi h2 hci hs
    obtain ⟨sl, rest, rfl, h4⟩ := take_n (l := rest) (n := shortLen i) (by simp at he; omega)
    exact ⟨1 + d.length + shortLen i, by omega, n :: d ++ sl, rest, _, _, by simp, by simp; omega, by
      rw [hop, hci]; exact .dataSlack i n d sl hi h2 h3 h4⟩
  rcases hc with rfl | rfl | rfl | rfl
  · exact fin 0 (by decide) (by decide) rfl rfl
  · exact fin 1 (by decide) (by decide) rfl rfl
  · exact fin 3 (by decide) (by decide) rfl rfl
  · exact fin 4 (by decide) (by decide) rfl rfl

theorem complete_longKv {pre rest : Bytes} {b : UInt8} {body : Body} (hop : opcode b = 0x1E)
    (h : armLongKv (pre ++ b :: rest) pre.length = .ok body) : ∃ k, body.off = pre.length + (1 + k) ∧ HasChunk b rest k := by
  unfold armLongKv at h
  obtain ⟨klen, h1, h⟩ := bind_ok.mp h
  obtain ⟨r, h2, h⟩ := bind_ok.mp h
  obtain ⟨len, h3, h⟩ := bind_ok.mp h
  obtain ⟨d, h4, h⟩ := bind_ok.mp h
  cases h
  rw [idx_append, idx_cons_ok, idx_zero_ok] at h1
  obtain ⟨rest, rfl⟩ := h1
  rw [slice_at, Nat.add_comm 2, slice_cons, slice_cons, slice_zero_ok] at h2
  obtain ⟨h2, rest, rfl⟩ := h2
  rw [idx_append, Nat.add_comm 2, idx_cons_ok, idx_cons_ok, ← h2, ← Nat.add_zero r.length, idx_append, idx_zero_ok] at h3
  obtain ⟨rest, rfl⟩ := h3
  rw [slice_at, Nat.add_comm 3, Nat.add_right_comm, slice_cons, slice_cons, ← h2, Nat.add_assoc, slice_at, slice_cons, slice_zero_ok] at h4
  obtain ⟨h4, rest, rfl⟩ := h4
  exact ⟨2 + r.length + d.length, by dsimp only; omega, klen :: r ++ len :: d, rest, _, _, by simp, by simp; omega,
    by rw [hop]; exact .longKv klen len r d h2 h4⟩

theorem complete_push1 {pre rest : Bytes} {b : UInt8} {body : Body} (hop : opcode b = 0x20)
    (h : armPush1 (pre ++ b :: rest) pre.length = .ok body) : ∃ k, body.off = pre.length + (1 + k) ∧ HasChunk b rest k := by
  unfold armPush1 at h
  obtain ⟨n, h1, h⟩ := bind_ok.mp h
  rw [idx_append, idx_cons_ok, idx_zero_ok] at h1
  obtain ⟨rest, rfl⟩ := h1
  by_cases hn : n = 0xFE
  · rw [if_pos hn] at h
    subst hn
    obtain ⟨d, h2, h⟩ := bind_ok.mp h
    obtain ⟨i, _, h⟩ := bind_ok.mp h
    cases h
    rw [slice_at, slice_cons, slice_cons, slice_zero_ok] at h2
    obtain ⟨h2, rest, rfl⟩ := h2
    rcases d with _ | ⟨x, d⟩
    · cases h2
    · exact ⟨9, rfl, 0xFE :: x :: d, rest, _, _, rfl, by simpa using h2.symm, by rw [hop]; exact .pushFE x d (by simpa using h2)⟩
  · rw [if_neg hn] at h
    obtain ⟨d, _, h⟩ := bind_ok.mp h
    cases h
    exact ⟨1, rfl, [n], rest, _, _, rfl, rfl, by rw [hop]; exact .push1 n hn⟩

theorem complete_data23 {pre rest : Bytes} {b : UInt8} {body : Body} (hop : opcode b = 0x23)
    (h : armData23 (pre ++ b :: rest) pre.length = .ok body) : ∃ k, body.off = pre.length + (1 + k) ∧ HasChunk b rest k := by
  unfold armData23 at h
  obtain ⟨n, h1, h⟩ := bind_ok.mp h
  rw [idx_append, idx_cons_ok, idx_zero_ok] at h1
  obtain ⟨rest, rfl⟩ := h1
  obtain ⟨d, h3, h⟩ := bind_ok.mp h
  cases h
  rw [slice_at, Nat.add_comm 2, slice_cons, slice_cons, slice_zero_ok] at h3
  obtain ⟨h3, rest, rfl⟩ := h3
  exact ⟨1 + d.length, by dsimp only; omega, n :: d, rest, _, _, rfl, by simp; omega, by rw [hop]; exact .data23 n d h3⟩

theorem complete_pushN {pre rest : Bytes} {b : UInt8} {body : Body} (hop : opcode b = 0x38)
    (h : armPushN (pre ++ b :: rest) pre.length = .ok body) (he : body.off ≤ (pre ++ b :: rest).length)
    (h2 : ∀ len, (pre ++ b :: rest)[pre.length + 1]? = some len → 2 ≤ len.toNat) :
    ∃ k, body.off = pre.length + (1 + k) ∧ HasChunk b rest k := by
  unfold armPushN at h
  obtain ⟨n, h1, h⟩ := bind_ok.mp h
  have h2 := h2 n (idx_ok.mp h1)
  rw [idx_append, idx_cons_ok, idx_zero_ok] at h1
  obtain ⟨rest, rfl⟩ := h1
  obtain ⟨d, h3, h⟩ := bind_ok.mp h
  cases h
  rw [slice_at, slice_cons, slice_cons, slice_zero_ok] at h3
  obtain ⟨h3, rest, rfl⟩ := h3
  obtain ⟨n1, n2, rfl⟩ := length_two h3
  obtain ⟨d, rest, rfl, h4⟩ := take_n (l := rest) (n := n.toNat - 2) (by simp at he; omega)
  exact ⟨3 + d.length, by dsimp only; omega, n :: n1 :: n2 :: d, rest, _, _, by simp, by simp; omega,
    by rw [hop]; exact .pushN n n1 n2 d (by omega)⟩

/-- What the decoder accepts, apart from the opcode 0x1F, a bare 0x0F, a 0x38 of less than two bytes and chunks that run over the
end of the buffer, is in the format. -/
theorem format_complete {pre rest : Bytes} {b : UInt8} {body : Body}
    (h : chunkBody (pre ++ b :: rest) pre.length (stripDelay b) = .ok (some body)) (he : body.off ≤ (pre ++ b :: rest).length)
    (h1F : opcode b ≠ 0x1F) (h0F : opcode b = 0x0F → (pre ++ b :: rest)[pre.length + 1]? = some 0x80)
    (h38 : opcode b = 0x38 → ∀ len, (pre ++ b :: rest)[pre.length + 1]? = some len → 2 ≤ len.toNat) :
    ∃ k, body.off = pre.length + (1 + k) ∧ HasChunk b rest k := by
  have hop : ∀ {c : UInt8}, stripDelay b = c → opcode b = c.toNat := fun hc => by rw [← hc, opcode_strip]
  apply chunkBody_elim h
  · intro hc h; exact complete_empty (hop hc) h he
  · intro h1 h2 h; exact complete_smallKv (hop rfl) (UInt8.le_iff_toNat_le.mp h1) (UInt8.le_iff_toNat_le.mp h2) h
  · intro hc h; exact complete_kv (hop hc) h
  · intro hc h; exact complete_segment (hop hc) h
  · intro hc h; exact complete_data2 (hop hc) h
  · intro h1 h2 h; exact complete_smallKvE (hop rfl) (UInt8.le_iff_toNat_le.mp h1) (UInt8.le_iff_toNat_le.mp h2) h
  · intro hc h; exact complete_kvE (hop hc) h
  · intro hc h; exact complete_segmentE (hop hc) h (h0F (hop hc))
  · intro hc h; exact complete_data3 (hop hc) h
  · intro h1 h2 h; exact complete_dataN (hop rfl) (UInt8.le_iff_toNat_le.mp h1) (UInt8.le_iff_toNat_le.mp h2) h
  · intro hc h; exact complete_ref3 (hop hc) h
  · intro hc h; exact complete_ref3Long (hop hc) h
  · intro hc h; exact complete_data1B (hop hc) h he
  · intro hc h; exact complete_dataSlack (hop rfl) hc h he
  · intro hc h; exact complete_longKv (hop hc) h
  · intro hc h; exact absurd (hop hc) h1F
  · intro hc h; exact complete_push1 (hop hc) h
  · intro hc h; exact complete_data23 (hop hc) h
  · intro hc h; exact complete_push2 (hop hc) h
  · intro hc h; exact complete_push3 (hop hc) h
  · intro hc h; exact complete_pushN (hop hc) h he (h38 (hop hc))
  · intro hc h
    cases h
    refine ⟨0, rfl, [], rest, some .pop, 0, rfl, rfl, .pop _ ?_⟩
    rcases hc with hc | hc
    · exact Or.inl (hop hc)
    · exact Or.inr (hop hc)
  · intro hc h
    cases h
    exact ⟨0, rfl, [], rest, none, 0, rfl, rfl, by rw [hop hc]; exact .noop⟩

end BurnFm
