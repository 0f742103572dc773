import Verif.Model.Chunk
import Verif.Spec.Slice
import Verif.Spec.Path
import Verif.Proofs.Base
import Verif.Proofs.Encoding

/-! Helper lemmas about the chunk decoder. -/

namespace BurnFm

theorem some_map_ok {x : Res Body} {b : Body} : (some <$> x) = (.ok (some b) : Res (Option Body)) ↔ x = .ok b := by
  cases x <;> simp [Functor.map, Except.map]

theorem some_map_none {x : Res Body} : (some <$> x) ≠ (.ok none : Res (Option Body)) := by
  cases x <;> simp [Functor.map, Except.map]

/-- Elimination of the opcode dispatch: a property of (opcode, body) holds of every decoded body if it
holds arm by arm. -/
theorem chunkBody_elim {code : Bytes} {o : Nat} {c : UInt8} {b : Body} (h : chunkBody code o c = .ok (some b))
    {P : Prop}
    (h00 : c = 0x00 → armEmpty code o = .ok b → P)
    (h01 : 0x01 ≤ c → c ≤ 0x05 → armSmallKv code o c = .ok b → P)
    (h06 : c = 0x06 → armKv code o = .ok b → P)
    (h07 : c = 0x07 → armSegment code o = .ok b → P)
    (h08 : c = 0x08 → armData2 code o = .ok b → P)
    (h09 : 0x09 ≤ c → c ≤ 0x0D → armSmallKvE code o c = .ok b → P)
    (h0E : c = 0x0E → armKvE code o = .ok b → P)
    (h0F : c = 0x0F → armSegmentE code o = .ok b → P)
    (h10 : c = 0x10 → armData3 code o = .ok b → P)
    (h11 : 0x11 ≤ c → c ≤ 0x15 → armDataN code o c = .ok b → P)
    (h16 : c = 0x16 → armRef3 code o = .ok b → P)
    (h17 : c = 0x17 → armRef3Long code o = .ok b → P)
    (h1B : c = 0x1B → armData1B code o = .ok b → P)
    (h19 : (c = 0x19 ∨ c = 0x1A ∨ c = 0x1C ∨ c = 0x1D) → armDataSlack code o c = .ok b → P)
    (h1E : c = 0x1E → armLongKv code o = .ok b → P)
    (h1F : c = 0x1F → armLongKv2 code o = .ok b → P)
    (h20 : c = 0x20 → armPush1 code o = .ok b → P)
    (h23 : c = 0x23 → armData23 code o = .ok b → P)
    (h28 : c = 0x28 → armPush2 code o = .ok b → P)
    (h30 : c = 0x30 → armPush3 code o = .ok b → P)
    (h38 : c = 0x38 → armPushN code o = .ok b → P)
    (h40 : (c = 0x3D ∨ c = 0x40) → armPop o = .ok b → P)
    (h80 : c = 0x80 → armNoop o = .ok b → P) : P := by
  unfold chunkBody at h
  by_cases hc : c = 0x00
  · rw [if_pos hc] at h; exact h00 hc (some_map_ok.mp h)
  rw [if_neg hc] at h; clear hc
  by_cases hc : 0x01 ≤ c ∧ c ≤ 0x05
  · rw [if_pos hc] at h; exact h01 hc.1 hc.2 (some_map_ok.mp h)
  rw [if_neg hc] at h; clear hc
  by_cases hc : c = 0x06
  · rw [if_pos hc] at h; exact h06 hc (some_map_ok.mp h)
  rw [if_neg hc] at h; clear hc
  by_cases hc : c = 0x07
  · rw [if_pos hc] at h; exact h07 hc (some_map_ok.mp h)
  rw [if_neg hc] at h; clear hc
  by_cases hc : c = 0x08
  · rw [if_pos hc] at h; exact h08 hc (some_map_ok.mp h)
  rw [if_neg hc] at h; clear hc
  by_cases hc : 0x09 ≤ c ∧ c ≤ 0x0D
  · rw [if_pos hc] at h; exact h09 hc.1 hc.2 (some_map_ok.mp h)
  rw [if_neg hc] at h; clear hc
  by_cases hc : c = 0x0E
  · rw [if_pos hc] at h; exact h0E hc (some_map_ok.mp h)
  rw [if_neg hc] at h; clear hc
  by_cases hc : c = 0x0F
  · rw [if_pos hc] at h; exact h0F hc (some_map_ok.mp h)
  rw [if_neg hc] at h; clear hc
  by_cases hc : c = 0x10
  · rw [if_pos hc] at h; exact h10 hc (some_map_ok.mp h)
  rw [if_neg hc] at h; clear hc
  by_cases hc : 0x11 ≤ c ∧ c ≤ 0x15
  · rw [if_pos hc] at h; exact h11 hc.1 hc.2 (some_map_ok.mp h)
  rw [if_neg hc] at h; clear hc
  by_cases hc : c = 0x16
  · rw [if_pos hc] at h; exact h16 hc (some_map_ok.mp h)
  rw [if_neg hc] at h; clear hc
  by_cases hc : c = 0x17
  · rw [if_pos hc] at h; exact h17 hc (some_map_ok.mp h)
  rw [if_neg hc] at h; clear hc
  by_cases hc : c = 0x1B
  · rw [if_pos hc] at h; exact h1B hc (some_map_ok.mp h)
  rw [if_neg hc] at h; clear hc
  by_cases hc : c = 0x19 ∨ c = 0x1A ∨ c = 0x1C ∨ c = 0x1D
  · rw [if_pos hc] at h; exact h19 hc (some_map_ok.mp h)
  rw [if_neg hc] at h; clear hc
  by_cases hc : c = 0x1E
  · rw [if_pos hc] at h; exact h1E hc (some_map_ok.mp h)
  rw [if_neg hc] at h; clear hc
  by_cases hc : c = 0x1F
  · rw [if_pos hc] at h; exact h1F hc (some_map_ok.mp h)
  rw [if_neg hc] at h; clear hc
  by_cases hc : c = 0x20
  · rw [if_pos hc] at h; exact h20 hc (some_map_ok.mp h)
  rw [if_neg hc] at h; clear hc
  by_cases hc : c = 0x23
  · rw [if_pos hc] at h; exact h23 hc (some_map_ok.mp h)
  rw [if_neg hc] at h; clear hc
  by_cases hc : c = 0x28
  · rw [if_pos hc] at h; exact h28 hc (some_map_ok.mp h)
  rw [if_neg hc] at h; clear hc
  by_cases hc : c = 0x30
  · rw [if_pos hc] at h; exact h30 hc (some_map_ok.mp h)
  rw [if_neg hc] at h; clear hc
  by_cases hc : c = 0x38
  · rw [if_pos hc] at h; exact h38 hc (some_map_ok.mp h)
  rw [if_neg hc] at h; clear hc
  by_cases hc : c = 0x3D ∨ c = 0x40
  · rw [if_pos hc] at h; exact h40 hc (some_map_ok.mp h)
  rw [if_neg hc] at h; clear hc
  by_cases hc : c = 0x80
  · rw [if_pos hc] at h; exact h80 hc (some_map_ok.mp h)
  rw [if_neg hc] at h; clear hc
  cases h

theorem progress_body {code : Bytes} {o : Nat} {c : UInt8} {b : Body} (h : chunkBody code o c = .ok (some b)) :
    o < b.off ∨ (c = 0x0F ∧ code[o+1]? ≠ some 0x80 ∧ b.off = o) := by
  apply chunkBody_elim h
  all_goals intros
  all_goals rename_i h
  all_goals simp only [armEmpty, armSmallKv, armKv, armSegment, armData2, armSmallKvE, armKvE, armSegmentE, armData3,
     armDataN, armRef3, armRef3Long, armData1B, armDataSlack, armLongKv, armLongKv2, armPush1, armData23,
     armPush2, armPush3, armPushN, armPop, armNoop, pure_ok, ite_ok, bind_ok, idx_ok, slice_ok, Except.ok.injEq] at h
  all_goals grind

theorem stuck_body {code : Bytes} {o : Nat} {b : Body} (h : chunkBody code o 0x0F = .ok (some b))
    (hs : code[o+1]? ≠ some 0x80) : b.off = o := by
  rw [show chunkBody code o 0x0F = some <$> armSegmentE code o from rfl, some_map_ok] at h
  simp only [armSegmentE, pure_ok, ite_ok, bind_ok, idx_ok, Except.ok.injEq] at h
  grind

theorem data_body {code : Bytes} {o : Nat} {c : UInt8} {b : Body} {d : Bytes}
    (h : chunkBody code o c = .ok (some b)) (hd : b.data = some d) :
    ∃ i j, slice code i j = .ok d ∧ o < i ∧ (c ≠ 0x38 → j ≤ b.off) := by
  apply chunkBody_elim h
  all_goals intros
  all_goals rename_i h
  all_goals simp only [armEmpty, armSmallKv, armKv, armSegment, armData2, armSmallKvE, armKvE, armSegmentE, armData3,
     armDataN, armRef3, armRef3Long, armData1B, armDataSlack, armLongKv, armLongKv2, armPush1, armData23,
     armPush2, armPush3, armPushN, armPop, armNoop, pure_ok, ite_ok, bind_ok, idx_ok, Except.ok.injEq] at h
  all_goals grind

theorem ref_body {code : Bytes} {o : Nat} {c : UInt8} {b : Body} {r : Bytes}
    (h : chunkBody code o c = .ok (some b)) (hr : b.refData = some r) :
    ∃ d i j i' j', b.data = some d ∧ slice code i j = .ok r ∧ slice code i' j' = .ok d ∧ o < i ∧ o < i' ∧
      j' ≤ b.off ∧ (c ≠ 0x1F → j ≤ i') := by
  apply chunkBody_elim h
  all_goals intros
  all_goals rename_i h
  all_goals simp only [armEmpty, armSmallKv, armKv, armSegment, armData2, armSmallKvE, armKvE, armSegmentE, armData3,
     armDataN, armRef3, armRef3Long, armData1B, armDataSlack, armLongKv, armLongKv2, armPush1, armData23,
     armPush2, armPush3, armPushN, armPop, armNoop, pure_ok, ite_ok, bind_ok, idx_ok, Except.ok.injEq] at h
  all_goals grind

theorem path_body {code : Bytes} {o : Nat} {c : UInt8} {b : Body}
    (h : chunkBody code o c = .ok (some b)) :
    (b.ctype = .pathPush ∧ ∃ n, b.pathOp = .push n) ∨ (b.ctype = .pathPop ∧ b.pathOp = .pop) ∨
    (b.ctype ≠ .pathPush ∧ b.ctype ≠ .pathPop ∧ b.pathOp = .keep) := by
  apply chunkBody_elim h
  all_goals intros
  all_goals rename_i h
  all_goals simp only [armEmpty, armSmallKv, armKv, armSegment, armData2, armSmallKvE, armKvE, armSegmentE, armData3,
     armDataN, armRef3, armRef3Long, armData1B, armDataSlack, armLongKv, armLongKv2, armPush1, armData23,
     armPush2, armPush3, armPushN, armPop, armNoop, pure_ok, ite_ok, bind_ok, idx_ok, slice_ok, Except.ok.injEq] at h
  all_goals grind

/-- Inversion of a successful `getChunk`. -/
theorem getChunk_ok {p : Profile} {code : Bytes} {o loc off : Nat} {path path' : DirPath} {ch : Chunk}
    (h : getChunk p code o path loc = .ok (.ok ch off path')) :
    ∃ b body, code[o]? = some b ∧ chunkBody code o (stripDelay b) = .ok (some body) ∧ off = body.off ∧
      path' = (if delayBits b then (body.pathOp.apply path).dropLast else body.pathOp.apply path) ∧
      ch = { ctype := body.ctype, code := stripDelay b, data := body.data, refData := body.refData,
             path := path', segmentIdx := body.segidx, refSimple := body.refSimple } := by
  unfold getChunk at h
  simp only [bind_ok, idx_ok] at h
  obtain ⟨b, hb, ob, hbody, h⟩ := h
  cases ob with
  | none =>
    simp only [bind_ok] at h
    obtain ⟨d, _, h⟩ := h
    simp only [ite_ok, pure_ok] at h
    rcases h with ⟨_, h⟩ | ⟨_, h⟩ <;> cases h
  | some body =>
    simp only [pure_ok, Except.ok.injEq, Decoded.ok.injEq] at h
    obtain ⟨h1, h2, h3⟩ := h
    refine ⟨b, body, hb, hbody, h2.symm, h3.symm, ?_⟩
    rw [← h1, ← h3]

theorem getChunk_of_body {p : Profile} {code : Bytes} {o loc : Nat} {path : DirPath} {b : UInt8} {body : Body}
    (hb : code[o]? = some b) (h : chunkBody code o (stripDelay b) = .ok (some body)) :
    getChunk p code o path loc = .ok (.ok
      { ctype := body.ctype, code := stripDelay b, data := body.data, refData := body.refData,
        path := (if delayBits b then (body.pathOp.apply path).dropLast else body.pathOp.apply path),
        segmentIdx := body.segidx, refSimple := body.refSimple } body.off
      (if delayBits b then (body.pathOp.apply path).dropLast else body.pathOp.apply path)) := by
  unfold getChunk
  rw [idx_of hb, ok_bind]
  simp only [h, ok_bind]
  rfl

theorem sliceAt_of_slice {code : Bytes} {i j : Nat} {d : Bytes} (h : slice code i j = .ok d) :
    Spec.SliceAt code i d ∧ i + d.length = j := by
  obtain ⟨h1, h2, h3⟩ := slice_ok.mp h
  refine ⟨⟨code.take i, code.drop j, ?_, by simp; omega⟩, by rw [slice_length h]; omega⟩
  rw [h3, List.append_assoc]
  conv => lhs; rw [← List.take_append_drop i code]
  congr 1
  conv => lhs; rw [← List.take_append_drop (j - i) (code.drop i)]
  congr 1
  rw [List.drop_drop]
  congr 1; omega

/-- Opcode facts checked for all 256 bytes. -/
theorem byte_forall {P : UInt8 → Prop} (h : ∀ n : Fin 256, P (UInt8.ofNat n.val)) (b : UInt8) : P b := by
  have := h ⟨b.toNat, b.toNat_lt⟩
  simpa using this

set_option maxRecDepth 10000 in
theorem delayBits_iff (b : UInt8) : delayBits b = true ↔ 192 ≤ b.toNat := by
  revert b; exact byte_forall (by decide)

set_option maxRecDepth 10000 in
theorem strip_0F (b : UInt8) : stripDelay b = 0x0F ↔ b = 0x0F ∨ b = 0xCF := by
  revert b; exact byte_forall (by decide)

set_option maxRecDepth 10000 in
theorem strip_1F (b : UInt8) : stripDelay b = 0x1F ↔ b = 0x1F ∨ b = 0xDF := by
  revert b; exact byte_forall (by decide)

set_option maxRecDepth 10000 in
theorem strip_38 (b : UInt8) : stripDelay b = 0x38 ↔ b = 0x38 ∨ b = 0xF8 := by
  revert b; exact byte_forall (by decide)

theorem small_1_5 {c : UInt8} (h1 : 0x01 ≤ c) (h2 : c ≤ 0x05) : c = 1 ∨ c = 2 ∨ c = 3 ∨ c = 4 ∨ c = 5 := by
  rw [UInt8.le_iff_toNat_le] at h1 h2
  simp only [← UInt8.toNat_inj]
  have e1 : (1 : UInt8).toNat = 1 := rfl
  have e5 : (5 : UInt8).toNat = 5 := rfl
  simp only [UInt8.reduceToNat] at *
  omega

theorem small_9_13 {c : UInt8} (h1 : 0x09 ≤ c) (h2 : c ≤ 0x0D) :
    c = 9 ∨ c = 10 ∨ c = 11 ∨ c = 12 ∨ c = 13 := by
  rw [UInt8.le_iff_toNat_le] at h1 h2
  simp only [← UInt8.toNat_inj]
  simp only [UInt8.reduceToNat] at *
  omega

theorem small_17_21 {c : UInt8} (h1 : 0x11 ≤ c) (h2 : c ≤ 0x15) :
    c = 17 ∨ c = 18 ∨ c = 19 ∨ c = 20 ∨ c = 21 := by
  rw [UInt8.le_iff_toNat_le] at h1 h2
  simp only [← UInt8.toNat_inj]
  simp only [UInt8.reduceToNat] at *
  omega

theorem chunkBody_1_5 {c : UInt8} (h1 : 0x01 ≤ c) (h2 : c ≤ 0x05) (code : Bytes) (o : Nat) :
    chunkBody code o c = some <$> armSmallKv code o c := by
  rcases small_1_5 h1 h2 with h | h | h | h | h <;> subst h <;> rfl

theorem chunkBody_9_13 {c : UInt8} (h1 : 0x09 ≤ c) (h2 : c ≤ 0x0D) (code : Bytes) (o : Nat) :
    chunkBody code o c = some <$> armSmallKvE code o c := by
  rcases small_9_13 h1 h2 with h | h | h | h | h <;> subst h <;> rfl

theorem chunkBody_17_21 {c : UInt8} (h1 : 0x11 ≤ c) (h2 : c ≤ 0x15) (code : Bytes) (o : Nat) :
    chunkBody code o c = some <$> armDataN code o c := by
  rcases small_17_21 h1 h2 with h | h | h | h | h <;> subst h <;> rfl

/-- Moving a chunk to another buffer and offset: if everything it reads (relative positions satisfying
`R`) can be read there too, it decodes to the same thing there. -/
theorem chunkBody_transport {code code' : Bytes} {o o' : Nat} {c : UInt8} {b : Body} {R : Nat → Prop}
    (h : chunkBody code o c = .ok (some b))
    (hI : ∀ k a, R (k + 1) → idx code (o + k) = .ok a → idx code' (o' + k) = .ok a)
    (hS : ∀ j k d, R k → slice code (o + j) (o + k) = .ok d → slice code' (o' + j) (o' + k) = .ok d)
    (h1 : ∃ a, idx code' 1 = .ok a)
    (hR : ∀ k, o + k ≤ b.off → R k)
    (hX : (c = 0x1F ∧ ∃ r, b.refData = some r ∧ b.off < o + 2 + r.length) ∨ (c = 0x38 ∧ b.off < o + 4) ∨
        (c = 0x0F ∧ b.off = o) → ∀ k, R k) :
    chunkBody code' o' c = .ok (some { b with off := b.off - o + o' }) := by
  obtain ⟨x1, h1⟩ := h1
  apply chunkBody_elim h
  · intro hc ha
    rw [show chunkBody code' o' c = some <$> armEmpty code' o' by rw [hc]; rfl, some_map_ok]
    simp only [armEmpty, pure_ok, ite_ok, bind_ok, Except.ok.injEq] at ha ⊢
    obtain ⟨d, hd, _, _, rfl⟩ := ha
    exact ⟨d, hS _ _ _ (hR _ (by dsimp only; omega)) hd, _, h1, by dsimp only; congr 1; omega⟩
  · intro hc1 hc2 ha
    rw [chunkBody_1_5 hc1 hc2, some_map_ok]
    simp only [armSmallKv, pure_ok, ite_ok, bind_ok, Except.ok.injEq] at ha ⊢
    obtain ⟨k, hk, d, hd, rfl⟩ := ha
    exact ⟨k, hI _ _ (hR _ (by dsimp only; omega)) hk, d, hS _ _ _ (hR _ (by dsimp only; omega)) hd, by dsimp only; congr 1; omega⟩
  · intro hc ha
    rw [show chunkBody code' o' c = some <$> armKv code' o' by rw [hc]; rfl, some_map_ok]
    simp only [armKv, pure_ok, ite_ok, bind_ok, Except.ok.injEq] at ha ⊢
    obtain ⟨k, hk, l, hl, d, hd, rfl⟩ := ha
    exact ⟨k, hI _ _ (hR _ (by dsimp only; omega)) hk, l, hI _ _ (hR _ (by dsimp only; omega)) hl, d, hS _ _ _ (hR _ (by dsimp only; omega)) hd, by dsimp only; congr 1; omega⟩
  · intro hc ha
    rw [show chunkBody code' o' c = some <$> armSegment code' o' by rw [hc]; rfl, some_map_ok]
    simp only [armSegment, pure_ok, ite_ok, bind_ok, Except.ok.injEq] at ha ⊢
    obtain ⟨k, hk, l, hl, d, hd, rfl⟩ := ha
    exact ⟨k, hI _ _ (hR _ (by dsimp only; omega)) hk, l, hS _ _ _ (hR _ (by dsimp only; omega)) hl, d, hS _ _ _ (hR _ (by dsimp only; omega)) hd, by dsimp only; congr 1; omega⟩
  · intro hc ha
    rw [show chunkBody code' o' c = some <$> armData2 code' o' by rw [hc]; rfl, some_map_ok]
    simp only [armData2, pure_ok, ite_ok, bind_ok, Except.ok.injEq] at ha ⊢
    obtain ⟨d, hd, rfl⟩ := ha
    exact ⟨d, hS _ _ _ (hR _ (by dsimp only; omega)) hd, by dsimp only; congr 1; omega⟩
  · intro hc1 hc2 ha
    rw [chunkBody_9_13 hc1 hc2, some_map_ok]
    simp only [armSmallKvE, pure_ok, ite_ok, bind_ok, Except.ok.injEq] at ha ⊢
    obtain ⟨k, hk, d, hd, rfl⟩ := ha
    exact ⟨k, hS _ _ _ (hR _ (by dsimp only; omega)) hk, d, hS _ _ _ (hR _ (by dsimp only; omega)) hd, by dsimp only; congr 1; omega⟩
  · intro hc ha
    rw [show chunkBody code' o' c = some <$> armKvE code' o' by rw [hc]; rfl, some_map_ok]
    simp only [armKvE, pure_ok, ite_ok, bind_ok, Except.ok.injEq] at ha ⊢
    obtain ⟨n, hn, ⟨hx, k, hk, l, hl, d, hd, rfl⟩ | ⟨hx, d, hd, rfl⟩⟩ := ha
    · exact ⟨n, hI _ _ (hR _ (by dsimp only; omega)) hn, .inl ⟨hx, k, hS _ _ _ (hR _ (by dsimp only; omega)) hk, l, hI _ _ (hR _ (by dsimp only; omega)) hl, d, hS _ _ _ (hR _ (by dsimp only; omega)) hd, by dsimp only; congr 1; omega⟩⟩
    · exact ⟨n, hI _ _ (hR _ (by dsimp only; omega)) hn, .inr ⟨hx, d, hS _ _ _ (hR _ (by dsimp only; omega)) hd, by dsimp only; congr 1; omega⟩⟩
  · intro hc ha
    rw [show chunkBody code' o' c = some <$> armSegmentE code' o' by rw [hc]; rfl, some_map_ok]
    simp only [armSegmentE, pure_ok, ite_ok, bind_ok, Except.ok.injEq] at ha ⊢
    obtain ⟨n, hn, ⟨hx, k, hk, l, hl, d, hd, rfl⟩ | ⟨hx, rfl⟩⟩ := ha
    · exact ⟨n, hI _ _ (hR _ (by dsimp only; omega)) hn, .inl ⟨hx, k, hI _ _ (hR _ (by dsimp only; omega)) hk, l, hS _ _ _ (hR _ (by dsimp only; omega)) hl, d, hS _ _ _ (hR _ (by dsimp only; omega)) hd, by dsimp only; congr 1; omega⟩⟩
    · exact ⟨n, hI _ _ (hX (.inr (.inr ⟨hc, rfl⟩)) _) hn, .inr ⟨hx, by dsimp only; congr 1; omega⟩⟩
  · intro hc ha
    rw [show chunkBody code' o' c = some <$> armData3 code' o' by rw [hc]; rfl, some_map_ok]
    simp only [armData3, pure_ok, ite_ok, bind_ok, Except.ok.injEq] at ha ⊢
    obtain ⟨d, hd, rfl⟩ := ha
    exact ⟨d, hS _ _ _ (hR _ (by dsimp only; omega)) hd, by dsimp only; congr 1; omega⟩
  · intro hc1 hc2 ha
    rw [chunkBody_17_21 hc1 hc2, some_map_ok]
    simp only [armDataN, pure_ok, ite_ok, bind_ok, Except.ok.injEq] at ha ⊢
    obtain ⟨d, hd, rfl⟩ := ha
    exact ⟨d, hS _ _ _ (hR _ (by dsimp only; omega)) hd, by dsimp only; congr 1; omega⟩
  · intro hc ha
    rw [show chunkBody code' o' c = some <$> armRef3 code' o' by rw [hc]; rfl, some_map_ok]
    simp only [armRef3, pure_ok, ite_ok, bind_ok, Except.ok.injEq] at ha ⊢
    obtain ⟨k, hk, l, hl, d, hd, rfl⟩ := ha
    exact ⟨k, hS _ _ _ (hR _ (by dsimp only; omega)) hk, l, hI _ _ (hR _ (by dsimp only; omega)) hl, d, hS _ _ _ (hR _ (by dsimp only; omega)) hd, by dsimp only; congr 1; omega⟩
  · intro hc ha
    rw [show chunkBody code' o' c = some <$> armRef3Long code' o' by rw [hc]; rfl, some_map_ok]
    simp only [armRef3Long, pure_ok, ite_ok, bind_ok, Except.ok.injEq] at ha ⊢
    obtain ⟨k, hk, l, hl, d, hd, rfl⟩ := ha
    exact ⟨k, hS _ _ _ (hR _ (by dsimp only; omega)) hk, l, hS _ _ _ (hR _ (by dsimp only; omega)) hl, d, hS _ _ _ (hR _ (by dsimp only; omega)) hd, by dsimp only; congr 1; omega⟩
  · intro hc ha
    rw [show chunkBody code' o' c = some <$> armData1B code' o' by rw [hc]; rfl, some_map_ok]
    simp only [armData1B, pure_ok, ite_ok, bind_ok, Except.ok.injEq] at ha ⊢
    obtain ⟨n, hn, ⟨hx, k, hk, d, hd, rfl⟩ | ⟨hx, d, hd, rfl⟩⟩ := ha
    · exact ⟨n, hI _ _ (hR _ (by dsimp only; omega)) hn, .inl ⟨hx, k, hI _ _ (hR _ (by dsimp only; omega)) hk, d, hS _ _ _ (hR _ (by dsimp only; omega)) hd, by dsimp only; congr 1; omega⟩⟩
    · exact ⟨n, hI _ _ (hR _ (by dsimp only; omega)) hn, .inr ⟨hx, d, hS _ _ _ (hR _ (by dsimp only; omega)) hd, by dsimp only; congr 1; omega⟩⟩
  · intro hc ha
    rw [show chunkBody code' o' c = some <$> armDataSlack code' o' c by rcases hc with hc | hc | hc | hc <;> rw [hc] <;> rfl, some_map_ok]
    simp only [armDataSlack, pure_ok, ite_ok, bind_ok, Except.ok.injEq] at ha ⊢
    obtain ⟨k, hk, d, hd, rfl⟩ := ha
    exact ⟨k, hI _ _ (hR _ (by dsimp only; omega)) hk, d, hS _ _ _ (hR _ (by dsimp only; omega)) hd, by dsimp only; congr 1; omega⟩
  · intro hc ha
    rw [show chunkBody code' o' c = some <$> armLongKv code' o' by rw [hc]; rfl, some_map_ok]
    simp only [armLongKv, pure_ok, ite_ok, bind_ok, Except.ok.injEq] at ha ⊢
    obtain ⟨k, hk, l, hl, m, hm, d, hd, rfl⟩ := ha
    exact ⟨k, hI _ _ (hR _ (by dsimp only; omega)) hk, l, hS _ _ _ (hR _ (by dsimp only; omega)) hl, m, hI _ _ (hR _ (by dsimp only; omega)) hm, d, hS _ _ _ (hR _ (by dsimp only; omega)) hd, by dsimp only; congr 1; omega⟩
  · intro hc ha
    rw [show chunkBody code' o' c = some <$> armLongKv2 code' o' by rw [hc]; rfl, some_map_ok]
    simp only [armLongKv2, pure_ok, ite_ok, bind_ok, Except.ok.injEq] at ha ⊢
    obtain ⟨k, hk, l, hl, m, hm, d, hd, rfl⟩ := ha
    have hlen := slice_length hl
    have hR2 : R (2 + k.toNat) := by
      by_cases hlt : o + (4 + getInt m) < o + 2 + l.length
      · exact hX (.inl ⟨hc, l, rfl, hlt⟩) _
      · exact hR _ (by dsimp only; omega)
    exact ⟨k, hI _ _ (hR _ (by dsimp only; omega)) hk, l, hS _ _ _ hR2 hl, m, hS _ _ _ (hR _ (by dsimp only; omega)) hm, d, hS _ _ _ (hR _ (by dsimp only; omega)) hd, by dsimp only; congr 1; omega⟩
  · intro hc ha
    rw [show chunkBody code' o' c = some <$> armPush1 code' o' by rw [hc]; rfl, some_map_ok]
    simp only [armPush1, pure_ok, ite_ok, bind_ok, Except.ok.injEq] at ha ⊢
    obtain ⟨n, hn, ⟨hx, d, hd, k, hk, rfl⟩ | ⟨hx, d, hd, rfl⟩⟩ := ha
    · exact ⟨n, hI _ _ (hR _ (by dsimp only; omega)) hn, .inl ⟨hx, d, hS _ _ _ (hR _ (by dsimp only; omega)) hd, k, hS _ _ _ (hR _ (by dsimp only; omega)) hk, by dsimp only; congr 1; omega⟩⟩
    · exact ⟨n, hI _ _ (hR _ (by dsimp only; omega)) hn, .inr ⟨hx, d, hS _ _ _ (hR _ (by dsimp only; omega)) hd, by dsimp only; congr 1; omega⟩⟩
  · intro hc ha
    rw [show chunkBody code' o' c = some <$> armData23 code' o' by rw [hc]; rfl, some_map_ok]
    simp only [armData23, pure_ok, ite_ok, bind_ok, Except.ok.injEq] at ha ⊢
    obtain ⟨k, hk, d, hd, rfl⟩ := ha
    exact ⟨k, hI _ _ (hR _ (by dsimp only; omega)) hk, d, hS _ _ _ (hR _ (by dsimp only; omega)) hd, by dsimp only; congr 1; omega⟩
  · intro hc ha
    rw [show chunkBody code' o' c = some <$> armPush2 code' o' by rw [hc]; rfl, some_map_ok]
    simp only [armPush2, pure_ok, ite_ok, bind_ok, Except.ok.injEq] at ha ⊢
    obtain ⟨d, hd, rfl⟩ := ha
    exact ⟨d, hS _ _ _ (hR _ (by dsimp only; omega)) hd, by dsimp only; congr 1; omega⟩
  · intro hc ha
    rw [show chunkBody code' o' c = some <$> armPush3 code' o' by rw [hc]; rfl, some_map_ok]
    simp only [armPush3, pure_ok, ite_ok, bind_ok, Except.ok.injEq] at ha ⊢
    obtain ⟨d, hd, rfl⟩ := ha
    exact ⟨d, hS _ _ _ (hR _ (by dsimp only; omega)) hd, by dsimp only; congr 1; omega⟩
  · intro hc ha
    rw [show chunkBody code' o' c = some <$> armPushN code' o' by rw [hc]; rfl, some_map_ok]
    simp only [armPushN, pure_ok, ite_ok, bind_ok, Except.ok.injEq] at ha ⊢
    obtain ⟨k, hk, d, hd, rfl⟩ := ha
    have hR2 : R 4 := by
      by_cases hlt : o + (2 + k.toNat) < o + 4
      · exact hX (.inr (.inl ⟨hc, hlt⟩)) _
      · exact hR _ (by dsimp only; omega)
    exact ⟨k, hI _ _ (hR _ (by dsimp only; omega)) hk, d, hS _ _ _ hR2 hd, by dsimp only; congr 1; omega⟩
  · intro hc ha
    rw [show chunkBody code' o' c = some <$> armPop o' by rcases hc with hc | hc <;> rw [hc] <;> rfl, some_map_ok]
    simp only [armPop, pure_ok, ite_ok, bind_ok, Except.ok.injEq] at ha ⊢
    subst ha; dsimp only; congr 1; omega
  · intro hc ha
    rw [show chunkBody code' o' c = some <$> armNoop o' by rw [hc]; rfl, some_map_ok]
    simp only [armNoop, pure_ok, ite_ok, bind_ok, Except.ok.injEq] at ha ⊢
    subst ha; dsimp only; congr 1; omega


set_option maxRecDepth 10000 in
theorem opcode_strip (b : UInt8) : (stripDelay b).toNat = Spec.opcode b := by
  revert b; exact byte_forall (by decide)

theorem delayed_iff (b : UInt8) : Spec.delayed b ↔ delayBits b = true := (delayBits_iff b).symm

/-- The path operation of every opcode. -/
theorem pathOp_body {code : Bytes} {o : Nat} {c : UInt8} {b : Body}
    (h : chunkBody code o c = .ok (some b)) :
    ((c = 0x20 ∨ c = 0x28 ∨ c = 0x30 ∨ c = 0x38) ∧ b.ctype = .pathPush ∧ ∃ n, b.pathOp = .push n ∧
      (c = 0x20 → code[o+1]? ≠ some 0xFE → ∃ x, code[o+1]? = some x ∧ n = x.toNat) ∧
      (c = 0x20 → code[o+1]? = some 0xFE → ∃ x, code[o+2]? = some x ∧ n = x.toNat) ∧
      (c = 0x28 → ∃ x, code[o+2]? = some x ∧ n = 128 + x.toNat) ∧
      (c = 0x30 → n = 0) ∧
      (c = 0x38 → ∃ x, code[o+3]? = some x ∧ n = 128 + x.toNat)) ∨
    ((c = 0x3D ∨ c = 0x40) ∧ b.ctype = .pathPop ∧ b.pathOp = .pop) ∨
    (¬ (c = 0x20 ∨ c = 0x28 ∨ c = 0x30 ∨ c = 0x38) ∧ ¬ (c = 0x3D ∨ c = 0x40) ∧
      b.ctype ≠ .pathPush ∧ b.ctype ≠ .pathPop ∧ b.pathOp = .keep) := by
  have one : ∀ {i : Nat} {d : Bytes}, slice code i (i+1) = .ok d →
      ∃ x, code[i]? = some x ∧ getPathInt d = x.toNat := by
    intro i d h
    obtain ⟨h1, h2, h3⟩ := slice_ok.mp h
    refine ⟨code[i], List.getElem?_eq_getElem _, ?_⟩
    rw [h3, List.drop_eq_getElem_cons (by omega)]
    have e : i + 1 - i = 1 := by omega
    simp only [e, List.take_succ_cons, List.take_zero, getPathInt]
  have two : ∀ {i : Nat} {d : Bytes}, slice code i (i+2) = .ok d →
      ∃ x, code[i+1]? = some x ∧ getPathInt d = 128 + x.toNat := by
    intro i d h
    obtain ⟨h1, h2, h3⟩ := slice_ok.mp h
    refine ⟨code[i+1], List.getElem?_eq_getElem _, ?_⟩
    rw [h3, List.drop_eq_getElem_cons (by omega), List.drop_eq_getElem_cons (by omega)]
    have e : i + 2 - i = 2 := by omega
    simp only [e, List.take_succ_cons, List.take_zero, getPathInt]
    have hb : (code[i]).toNat &&& (0x7f <<< 8) = 0 := byte_and_high _
    rw [hb]
  have three : ∀ {i : Nat} {d : Bytes}, slice code i (i+3) = .ok d → getPathInt d = 0 := by
    intro i d h
    have := slice_length h
    have e : i + 3 - i = 3 := by omega
    rw [e] at this
    match d, this with
    | [_, _, _], _ => rfl
  have ne {x y : UInt8} : x.toNat ≠ y.toNat → x ≠ y := fun h e => h (by rw [e])
  apply chunkBody_elim h
  all_goals first
    | (intro h1 h2 ha
       right; right
       refine ⟨?_, ?_, ?_⟩
       · rw [UInt8.le_iff_toNat_le] at h1 h2
         simp only [← UInt8.toNat_inj, UInt8.reduceToNat] at *
         omega
       · rw [UInt8.le_iff_toNat_le] at h1 h2
         simp only [← UInt8.toNat_inj, UInt8.reduceToNat] at *
         omega
       · simp only [armSmallKv, armSmallKvE, armDataN, pure_ok, ite_ok, bind_ok, Except.ok.injEq] at ha
         grind)
    | skip
  case h20 =>
    intro hc ha
    left
    simp only [armPush1, pure_ok, ite_ok, bind_ok, idx_ok, Except.ok.injEq] at ha
    obtain ⟨n, hn, ⟨hx, d, hd, k, hk, rfl⟩ | ⟨hx, d, hd, rfl⟩⟩ := ha
    · obtain ⟨x, hx1, hx2⟩ := one (i := o + 2) hk
      refine ⟨.inl hc, rfl, _, rfl, ?_, ?_, ?_, ?_, ?_⟩ <;> subst hc <;> simp_all
    · obtain ⟨x, hx1, hx2⟩ := one (i := o + 1) hd
      refine ⟨.inl hc, rfl, _, rfl, ?_, ?_, ?_, ?_, ?_⟩ <;> subst hc <;> simp_all
  case h28 =>
    intro hc ha
    left
    simp only [armPush2, pure_ok, ite_ok, bind_ok, idx_ok, Except.ok.injEq] at ha
    obtain ⟨d, hd, rfl⟩ := ha
    obtain ⟨x, hx1, hx2⟩ := two (i := o + 1) hd
    refine ⟨.inr (.inl hc), rfl, _, rfl, ?_, ?_, ?_, ?_, ?_⟩ <;> subst hc <;> simp_all
  case h30 =>
    intro hc ha
    left
    simp only [armPush3, pure_ok, ite_ok, bind_ok, idx_ok, Except.ok.injEq] at ha
    obtain ⟨d, hd, rfl⟩ := ha
    have hx2 := three (i := o + 1) hd
    refine ⟨.inr (.inr (.inl hc)), rfl, _, rfl, ?_, ?_, ?_, ?_, ?_⟩ <;> subst hc <;> simp_all
  case h38 =>
    intro hc ha
    left
    simp only [armPushN, pure_ok, ite_ok, bind_ok, idx_ok, Except.ok.injEq] at ha
    obtain ⟨k, hk, d, hd, rfl⟩ := ha
    obtain ⟨x, hx1, hx2⟩ := two (i := o + 2) hd
    refine ⟨.inr (.inr (.inr hc)), rfl, _, rfl, ?_, ?_, ?_, ?_, ?_⟩ <;> subst hc <;> simp_all
  case h40 =>
    intro hc ha
    right; left
    simp only [armPop, pure_ok, Except.ok.injEq] at ha
    subst ha; exact ⟨hc, rfl, rfl⟩
  case h19 =>
    intro hc ha
    right; right
    refine ⟨?_, ?_, ?_⟩
    · rcases hc with rfl | rfl | rfl | rfl <;> decide
    · rcases hc with rfl | rfl | rfl | rfl <;> decide
    · simp only [armDataSlack, pure_ok, ite_ok, bind_ok, Except.ok.injEq] at ha
      grind
  all_goals
    intro hc ha
    right; right
    refine ⟨by subst hc; decide, by subst hc; decide, ?_⟩
    simp only [armEmpty, armKv, armSegment, armData2, armKvE, armSegmentE, armData3,
     armRef3, armRef3Long, armData1B, armLongKv, armLongKv2, armData23, armNoop, pure_ok, ite_ok, bind_ok,
     Except.ok.injEq] at ha
    grind

end BurnFm
