import Verif.Proofs.Chunk

/-! Properties C07-C10: the chunk decoder `get_chunk_from_code` of `src/chunk.rs`. -/

namespace BurnFm.Props

/-- C07, the part that holds: a decoded chunk moves the offset forward unless it is the segment opcode
(0x0F, or 0xCF with the delay bits) followed by a byte other than 0x80.
Missing: that opcode, see `chunk_stuck_iff` and `chunk_progress_refuted`. -/
theorem chunk_progress_partial (p : Profile) (code : Bytes) (o loc off : Nat) (path path' : DirPath) (ch : Chunk)
    (h : getChunk p code o path loc = .ok (.ok ch off path'))
    (hs : ¬ ((code[o]? = some 0x0F ∨ code[o]? = some 0xCF) ∧ code[o+1]? ≠ some 0x80)) : o < off := by
  obtain ⟨b, body, hb, hbody, hoff, _, _⟩ := getChunk_ok h
  rcases progress_body hbody with h1 | ⟨h1, h2, _⟩
  · omega
  · exfalso; apply hs
    rw [strip_0F] at h1
    rcases h1 with h1 | h1 <;> subst h1 <;> exact ⟨by simp [hb], h2⟩

example : getChunk .debug [0x06, 9, 2, 70, 71, 0x40] 0 [] 1000 = .ok (.ok
    { ctype := .refSimple, code := 6, data := some [70, 71], refData := none, path := [], segmentIdx := none,
      refSimple := some 9 } 5 []) := by decide

/-- C07: exactly when a chunk that decodes does not move the offset. It then is a no-op that also decodes
at the same place for ever. -/
theorem chunk_stuck_iff (p : Profile) (code : Bytes) (o loc off : Nat) (path path' : DirPath) (ch : Chunk)
    (h : getChunk p code o path loc = .ok (.ok ch off path')) :
    off ≤ o ↔ ((code[o]? = some 0x0F ∨ code[o]? = some 0xCF) ∧ code[o+1]? ≠ some 0x80) := by
  constructor
  · intro hle
    by_cases hs : ((code[o]? = some 0x0F ∨ code[o]? = some 0xCF) ∧ code[o+1]? ≠ some 0x80)
    · exact hs
    · have := chunk_progress_partial p code o loc off path path' ch h hs
      omega
  · rintro ⟨h1, h2⟩
    obtain ⟨b, body, hb, hbody, hoff, _, _⟩ := getChunk_ok h
    have hc : stripDelay b = 0x0F := by
      rw [strip_0F]; rw [hb] at h1; simpa using h1
    rw [hc] at hbody
    rw [hoff, stuck_body hbody h2]
    exact Nat.le_refl _

/-- C07 is false of the code: a chunk decodes without moving the offset. -/
theorem chunk_progress_refuted : ¬ ∀ (p : Profile) (code : Bytes) (o loc off : Nat) (path path' : DirPath) (ch : Chunk),
    getChunk p code o path loc = .ok (.ok ch off path') → o < off := by
  intro h
  have := h .debug [0x0F, 0x00] 0 0 0 [] [] _ rfl
  omega

/-- C08: the data of a decoded chunk is a contiguous slice of the buffer that starts after the opcode and,
but for opcode 0x38 (0xF8 with delay bits), ends at or before the new offset. -/
theorem chunk_data_slice_partial (p : Profile) (code : Bytes) (o loc off : Nat) (path path' : DirPath) (ch : Chunk)
    (d : Bytes) (h : getChunk p code o path loc = .ok (.ok ch off path')) (hd : ch.data = some d) :
    ∃ i, o < i ∧ Spec.SliceAt code i d ∧
      (code[o]? ≠ some 0x38 → code[o]? ≠ some 0xF8 → i + d.length ≤ off) := by
  obtain ⟨b, body, hb, hbody, hoff, _, rfl⟩ := getChunk_ok h
  obtain ⟨i, j, hs, hi, hj⟩ := data_body hbody hd
  obtain ⟨s1, s2⟩ := sliceAt_of_slice hs
  refine ⟨i, hi, s1, fun n1 n2 => ?_⟩
  rw [s2, hoff]
  apply hj
  intro hc
  rw [strip_38] at hc
  rcases hc with rfl | rfl
  · exact n1 hb
  · exact n2 hb

/-- C08: when there is a reference key there is data too; key and data are slices of the buffer after the
opcode, the data ends at or before the new offset, and the key ends before the data starts unless the opcode
is 0x1F (0xDF with delay bits). -/
theorem chunk_key_slice_partial (p : Profile) (code : Bytes) (o loc off : Nat) (path path' : DirPath) (ch : Chunk)
    (r : Bytes) (h : getChunk p code o path loc = .ok (.ok ch off path')) (hr : ch.refData = some r) :
    ∃ d i i', ch.data = some d ∧ o < i ∧ o < i' ∧ Spec.SliceAt code i r ∧ Spec.SliceAt code i' d ∧
      i' + d.length ≤ off ∧ (code[o]? ≠ some 0x1F → code[o]? ≠ some 0xDF → i + r.length ≤ i') := by
  obtain ⟨b, body, hb, hbody, hoff, _, rfl⟩ := getChunk_ok h
  obtain ⟨d, i, j, i', j', hd, hs, hs', hi, hi', hj', hj⟩ := ref_body hbody hr
  obtain ⟨s1, s2⟩ := sliceAt_of_slice hs
  obtain ⟨s1', s2'⟩ := sliceAt_of_slice hs'
  refine ⟨d, i, i', hd, hi, hi', s1, s1', by omega, fun n1 n2 => ?_⟩
  rw [s2]
  apply hj
  intro hc
  rw [strip_1F] at hc
  rcases hc with rfl | rfl
  · exact n1 hb
  · exact n2 hb

example : getChunk .debug [0x1E, 2, 8, 9, 1, 7] 0 [] 1000 = .ok (.ok
    { ctype := .refLong, code := 0x1E, data := some [7], refData := some [8, 9], path := [], segmentIdx := none,
      refSimple := none } 6 []) := by decide

/-- C08 is false of the code: a chunk whose key occurs only once in the buffer, and overlaps its data. Here
the first two key bytes are read again as the length of the data. -/
theorem chunk_key_overlap_refuted :
    getChunk .debug [0x1F, 4, 0, 3, 7, 8, 9] 0 [] 1000 = .ok (.ok
      { ctype := .refLong, code := 0x1F, data := some [7, 8, 9], refData := some [0, 3, 7, 8], path := [],
        segmentIdx := none, refSimple := none } 7 []) ∧
    ¬ ∃ i i', Spec.SliceAt [0x1F, 4, 0, 3, 7, 8, 9] i [0, 3, 7, 8] ∧
        Spec.SliceAt [0x1F, 4, 0, 3, 7, 8, 9] i' [7, 8, 9] ∧ (i + 4 ≤ i' ∨ i' + 3 ≤ i) := by
  refine ⟨by decide, ?_⟩
  rintro ⟨i, i', ⟨a, c, e, rfl⟩, ⟨a', c', e', rfl⟩, hov⟩
  have l1 := congrArg List.length e
  have l2 := congrArg List.length e'
  simp at l1 l2
  have g1 := congrArg (fun l => l[a.length]?) e
  have g2 := congrArg (fun l => l[a'.length]?) e'
  simp at g1 g2
  generalize a.length = x at *
  generalize a'.length = y at *
  have : x = 0 ∨ x = 1 ∨ x = 2 ∨ x = 3 := by omega
  have : y = 0 ∨ y = 1 ∨ y = 2 ∨ y = 3 ∨ y = 4 := by omega
  rcases this with h | h | h | h | h <;> subst h <;> simp at g2
  rcases ‹x = 0 ∨ _› with h | h | h | h <;> subst h <;> simp at g1
  omega

/-- C08 is false of the code: with opcode 0x38 the data can end after the new offset. -/
theorem chunk_data_span_refuted :
    ¬ ∀ (p : Profile) (code : Bytes) (o loc off : Nat) (path path' : DirPath) (ch : Chunk) (d : Bytes),
      getChunk p code o path loc = .ok (.ok ch off path') → ch.data = some d →
      ∃ i, o < i ∧ Spec.SliceAt code i d ∧ i + d.length ≤ off := by
  intro h
  obtain ⟨i, hi, _, hl⟩ := h .debug [0x38, 0, 5, 6] 0 1000 2 [] [134] _ [5, 6] rfl rfl
  simp at hl; omega

/-- C09: the path after a chunk is the one its opcode byte asks for, the chunk records it, and the type of
the chunk tells pushes and pops apart from the rest. -/
theorem chunk_path (p : Profile) (code : Bytes) (o loc off : Nat) (path path' : DirPath) (ch : Chunk)
    (h : getChunk p code o path loc = .ok (.ok ch off path')) :
    ∃ b n, code[o]? = some b ∧ path' = Spec.pathAfter b n path ∧ ch.path = path' ∧
      (ch.ctype = .pathPush ↔ Spec.isPush b) ∧ (ch.ctype = .pathPop ↔ Spec.isPop b) := by
  obtain ⟨b, body, hb, hbody, hoff, hp, rfl⟩ := getChunk_ok h
  have hop := opcode_strip b
  have hpush : Spec.isPush b ↔ (stripDelay b = 0x20 ∨ stripDelay b = 0x28 ∨ stripDelay b = 0x30 ∨ stripDelay b = 0x38) := by
    unfold Spec.isPush; rw [← hop]; simp only [← UInt8.toNat_inj, UInt8.reduceToNat]
  have hpop : Spec.isPop b ↔ (stripDelay b = 0x3D ∨ stripDelay b = 0x40) := by
    unfold Spec.isPop; rw [← hop]; simp only [← UInt8.toNat_inj, UInt8.reduceToNat]
  have hdis : Spec.isPush b → ¬ Spec.isPop b := by unfold Spec.isPush Spec.isPop; omega
  rcases pathOp_body hbody with ⟨h1, h2, n, h3, _⟩ | ⟨h1, h2, h3⟩ | ⟨h1, h1', h2, h2', h3⟩
  · have hh := hpush.mpr h1
    refine ⟨b, n, hb, ?_, rfl, by simp [h2, hh], by simp [h2, hdis hh]⟩
    rw [hp, h3]; simp only [Spec.pathAfter, hh, delayed_iff, PathOp.apply, if_true]
  · have hh := hpop.mpr h1
    have hn : ¬ Spec.isPush b := fun h => hdis h hh
    refine ⟨b, 0, hb, ?_, rfl, by simp [h2, hn], by simp [h2, hh]⟩
    rw [hp, h3]; simp only [Spec.pathAfter, hh, hn, delayed_iff, PathOp.apply, if_true, if_false]
  · rw [← hpush] at h1; rw [← hpop] at h1'
    refine ⟨b, 0, hb, ?_, rfl, by simp [h2, h1], by simp [h2', h1']⟩
    rw [hp, h3]; simp only [Spec.pathAfter, h1, h1', delayed_iff, PathOp.apply, if_false]

/-- C09: the component entered by the two opcodes the compiler writes: for 0x20 it is the byte after the
opcode (the byte after that when the first is 0xFE), for 0x28 it is 128 plus the second byte after the
opcode. (For 0x30 it is always 0, and for 0x38 it is 128 plus the third byte, see `chunk_pushed_other`.) -/
theorem chunk_pushed (p : Profile) (code : Bytes) (o loc off : Nat) (path path' : DirPath) (ch : Chunk) (x y : UInt8)
    (h : getChunk p code o path loc = .ok (.ok ch off path')) :
    (code[o]? = some 0x20 → code[o+1]? = some x → x ≠ 0xFE → path' = path ++ [x.toNat]) ∧
    (code[o]? = some 0x20 → code[o+1]? = some 0xFE → code[o+2]? = some x → path' = path ++ [x.toNat]) ∧
    (code[o]? = some 0x28 → code[o+2]? = some y → path' = path ++ [128 + y.toNat]) := by
  obtain ⟨b, body, hb, hbody, hoff, hp, rfl⟩ := getChunk_ok h
  have s20 : stripDelay 0x20 = 0x20 := rfl
  have s28 : stripDelay 0x28 = 0x28 := rfl
  have d20 : delayBits 0x20 = false := rfl
  have d28 : delayBits 0x28 = false := rfl
  rw [hb]
  refine ⟨?_, ?_, ?_⟩
  · intro e hx hne
    cases e
    rw [s20] at hbody; rw [d20] at hp
    rcases pathOp_body hbody with ⟨h1, h2, n, h3, h4, _⟩ | ⟨h1, h2, h3⟩ | ⟨h1, h1', h2, h2', h3⟩
    · obtain ⟨x', hx', rfl⟩ := h4 rfl (by rw [hx]; simpa using hne)
      rw [hx] at hx'; cases hx'
      rw [hp, h3]; rfl
    · exact absurd h1 (by decide)
    · exact absurd h1 (by decide)
  · intro e hx hx2
    cases e
    rw [s20] at hbody; rw [d20] at hp
    rcases pathOp_body hbody with ⟨h1, h2, n, h3, _, h4, _⟩ | ⟨h1, h2, h3⟩ | ⟨h1, h1', h2, h2', h3⟩
    · obtain ⟨x', hx', rfl⟩ := h4 rfl hx
      rw [hx2] at hx'; cases hx'
      rw [hp, h3]; rfl
    · exact absurd h1 (by decide)
    · exact absurd h1 (by decide)
  · intro e hx
    cases e
    rw [s28] at hbody; rw [d28] at hp
    rcases pathOp_body hbody with ⟨h1, h2, n, h3, _, _, h4, _⟩ | ⟨h1, h2, h3⟩ | ⟨h1, h1', h2, h2', h3⟩
    · obtain ⟨x', hx', rfl⟩ := h4 rfl
      rw [hx] at hx'; cases hx'
      rw [hp, h3]; rfl
    · exact absurd h1 (by decide)
    · exact absurd h1 (by decide)

/-- C09: the components entered by the other two push opcodes. -/
theorem chunk_pushed_other (p : Profile) (code : Bytes) (o loc off : Nat) (path path' : DirPath) (ch : Chunk) (y : UInt8)
    (h : getChunk p code o path loc = .ok (.ok ch off path')) :
    (code[o]? = some 0x30 → path' = path ++ [0]) ∧
    (code[o]? = some 0x38 → code[o+3]? = some y → path' = path ++ [128 + y.toNat]) := by
  obtain ⟨b, body, hb, hbody, hoff, hp, rfl⟩ := getChunk_ok h
  have s30 : stripDelay 0x30 = 0x30 := rfl
  have s38 : stripDelay 0x38 = 0x38 := rfl
  have d30 : delayBits 0x30 = false := rfl
  have d38 : delayBits 0x38 = false := rfl
  rw [hb]
  refine ⟨?_, ?_⟩
  · intro e
    cases e
    rw [s30] at hbody; rw [d30] at hp
    rcases pathOp_body hbody with ⟨h1, h2, n, h3, _, _, _, h4, _⟩ | ⟨h1, h2, h3⟩ | ⟨h1, h1', h2, h2', h3⟩
    · rw [hp, h3, h4 rfl]; rfl
    · exact absurd h1 (by decide)
    · exact absurd h1 (by decide)
  · intro e hx
    cases e
    rw [s38] at hbody; rw [d38] at hp
    rcases pathOp_body hbody with ⟨h1, h2, n, h3, _, _, _, _, h4⟩ | ⟨h1, h2, h3⟩ | ⟨h1, h1', h2, h2', h3⟩
    · obtain ⟨x', hx', rfl⟩ := h4 rfl
      rw [hx] at hx'; cases hx'
      rw [hp, h3]; rfl
    · exact absurd h1 (by decide)
    · exact absurd h1 (by decide)

/-- A delayed pop after a push: enter 5, then leave it again, at path [3]. -/
example : getChunk .debug [0xE0, 5] 0 [3] 1000 = .ok (.ok
    { ctype := .pathPush, code := 0x20, data := some [5], refData := none, path := [3], segmentIdx := none,
      refSimple := none } 2 [3]) := by decide

/-- C10, the part that holds: a chunk decoded from `pre ++ rest` consuming `n` bytes decodes to the same chunk,
path and length from `pre' ++ rest.take n ++ post'` for every `pre'` and `post'` (buffers of at least two
bytes; profile and `local` do not matter either).
Missing: the cases where the decoder reads beyond the new offset. These are opcode 0x0F when stuck, 0x38 with a
length below 2, and 0x1F with a key reaching over the end; see `chunk_local_refuted`, and
`chunk_context_independent` for what holds of them. -/
theorem chunk_local_partial (p p' : Profile) (pre pre' rest post' : Bytes) (loc loc' n : Nat) (path path' : DirPath)
    (ch : Chunk)
    (h : getChunk p (pre ++ rest) pre.length path loc = .ok (.ok ch (pre.length + n) path'))
    (h2 : 2 ≤ (pre' ++ rest.take n ++ post').length)
    (h0F : ch.code = 0x0F → n ≠ 0)
    (h38 : ch.code = 0x38 → 4 ≤ n)
    (h1F : ch.code = 0x1F → ∀ r, ch.refData = some r → 2 + r.length ≤ n) :
    getChunk p' (pre' ++ rest.take n ++ post') pre'.length path loc' = .ok (.ok ch (pre'.length + n) path') := by
  obtain ⟨b, body, hb, hbody, hoff, hp, rfl⟩ := getChunk_ok h
  dsimp only at h0F h38 h1F
  have hn : 0 < n := by
    rcases progress_body hbody with h1 | ⟨h1, h2, h3⟩
    · omega
    · have := h0F h1; omega
  have hb' : (pre' ++ rest.take n ++ post')[pre'.length]? = some b := by
    rw [List.getElem?_append_right (by omega), Nat.sub_self] at hb
    rw [List.append_assoc, List.getElem?_append_right (by omega), Nat.sub_self]
    cases rest with
    | nil => simp at hb
    | cons x xs =>
      obtain ⟨m, rfl⟩ : ∃ m, n = m + 1 := ⟨n - 1, by omega⟩
      simpa using hb
  have key := chunkBody_transport (code' := pre' ++ rest.take n ++ post') (o' := pre'.length) (R := fun k => k ≤ n)
    hbody ?_ ?_ ?_ ?_ ?_
  · rw [getChunk_of_body hb' key, hp]
    congr 2
    dsimp only; omega
  · intro k a hk hi
    rw [idx_append] at hi
    rw [List.append_assoc, idx_append]
    apply idx_extend
    rw [idx_ok] at *
    rw [List.getElem?_take, if_pos (by omega)]; exact hi
  · intro j k d hk hs
    rw [slice_append] at hs
    rw [List.append_assoc, slice_append]
    apply slice_extend
    rw [slice_ok] at *
    obtain ⟨a1, a2, a3⟩ := hs
    refine ⟨a1, by simp; omega, ?_⟩
    rw [a3, List.drop_take, List.take_take]
    congr 1; omega
  · exact ⟨_, idx_of (List.getElem?_eq_getElem (by omega))⟩
  · intro k hk; omega
  · rintro (⟨c1, r, c2, c3⟩ | ⟨c1, c2⟩ | ⟨c1, c2⟩)
    · have := h1F c1 r c2; omega
    · have := h38 c1; omega
    · have := h0F c1; omega

example : ∃ ch, getChunk .debug ([1, 2, 3] ++ [0x06, 9, 2, 70, 71, 0x40]) 3 [] 0 = .ok (.ok ch (3 + 5) []) ∧
    ch.code = 6 := ⟨_, by rfl, rfl⟩

/-- C10 for every opcode: neither the bytes before the chunk nor bytes appended after the buffer change what is
decoded or how far the offset moves. -/
theorem chunk_context_independent (p p' : Profile) (pre pre' rest post' : Bytes) (loc loc' n : Nat) (path path' : DirPath)
    (ch : Chunk)
    (h : getChunk p (pre ++ rest) pre.length path loc = .ok (.ok ch (pre.length + n) path'))
    (h2 : 2 ≤ (pre' ++ rest ++ post').length) :
    getChunk p' (pre' ++ rest ++ post') pre'.length path loc' = .ok (.ok ch (pre'.length + n) path') := by
  obtain ⟨b, body, hb, hbody, hoff, hp, rfl⟩ := getChunk_ok h
  have hb' : (pre' ++ rest ++ post')[pre'.length]? = some b := by
    rw [List.getElem?_append_right (by omega), Nat.sub_self] at hb
    rw [List.append_assoc, List.getElem?_append_right (by omega), Nat.sub_self]
    cases rest with
    | nil => simp at hb
    | cons x xs => simpa using hb
  have key := chunkBody_transport (code' := pre' ++ rest ++ post') (o' := pre'.length) (R := fun k => True)
    hbody ?_ ?_ ?_ ?_ ?_
  · rw [getChunk_of_body hb' key, hp]
    congr 2
    dsimp only; omega
  · intro k a hk hi
    rw [idx_append] at hi
    rw [List.append_assoc, idx_append]
    exact idx_extend _ hi
  · intro j k d hk hs
    rw [slice_append] at hs
    rw [List.append_assoc, slice_append]
    exact slice_extend _ hs
  · exact ⟨_, idx_of (List.getElem?_eq_getElem (by omega))⟩
  · intro k hk; trivial
  · intros; trivial

/-- C10 is false of the code as stated: two buffers that agree up to the end of the chunk but whose decoded
keys differ (opcode 0x1F with a key that reaches past the end of the chunk). -/
theorem chunk_local_refuted :
    ∃ seg post post' ch ch', getChunk .debug (seg ++ post) 0 [] 1000 = .ok (.ok ch seg.length []) ∧
      getChunk .debug (seg ++ post') 0 [] 1000 = .ok (.ok ch' seg.length []) ∧ ch ≠ ch' :=
  ⟨[0x1F, 3, 0, 0], [1], [2], _, _, rfl, rfl, by decide⟩

end BurnFm.Props
