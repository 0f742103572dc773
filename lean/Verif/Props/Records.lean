import Verif.Proofs.Assembler

/-! Properties C11-C14: records written by the assembler (`src/compile/assembler.rs`) are read back by the chunk
decoder (`src/chunk.rs`). `s` is the assembler before the call, `t` after; `p`, `path` and `loc` are the
reader's profile, directory and sector. -/

namespace BurnFm.Props

/-- C11: a key-value record is read back as written, and exactly the bytes written are consumed, if and only if
the length of the value is one of 1, 2, 4, 6, 8 or 10..255 (any length up to 255 for the keys 16 and 216). -/
theorem kv_roundtrip_iff (p : Profile) (s t : Asm) (key : UInt8) (val : Bytes) (path : DirPath) (loc : Nat)
    (h : emitKv s key val = .ok t) :
    (∃ ch, getChunk p t.buf s.idx path loc = .ok (.ok ch t.idx path) ∧ meaning ch = some (.kv key.toNat val) ∧
      ch.path = path) ↔ Spec.KvLen key val.length := by
  rw [emitKv_eq] at h
  obtain ⟨pre, post, hp, hb, hi, _, _⟩ := write_spec h
  rw [hb, ← hp, hi, ← hp]
  constructor
  · rintro ⟨ch, h1, h2, _⟩
    have hk : ch.ctype = .refSimple ∧ ch.data = some val := by
      unfold meaning at h2
      split at h2 <;> simp_all
    obtain ⟨b, body, hb1, hbody, hoff, hpath, rfl⟩ := getChunk_ok h1
    dsimp only at hk
    obtain ⟨rest, he⟩ := encKv_head key val
    have hbk : b = kvIns key val := by
      rw [he] at hb1; simp at hb1; exact hb1.symm
    subst hbk
    have small : ∀ c : UInt8, kvIns key val = c → 1 ≤ c → c ≤ 5 → stripDelay c = c →
        val.length = (if c = 0x01 then 1 else 0) + 2 * (c.toNat - 1) := by
      intro c e c1 c2 c3
      rw [e, c3, chunkBody_1_5 c1 c2, some_map_ok] at hbody
      simp only [armSmallKv, bind_ok, pure_ok, Except.ok.injEq] at hbody
      obtain ⟨k, _, d, hd, rfl⟩ := hbody
      have := slice_length hd
      have hv : d = val := by simpa using hk.2
      rw [hv] at this; omega
    have not6 : ∀ c : UInt8, kvIns key val = c → c ≠ 6 → ¬ (key = 16 ∨ key = 216) := by
      intro c e c6 hkey
      apply c6
      rw [← e]
      rcases hkey with rfl | rfl <;> rfl
    unfold Spec.KvLen
    rcases kvIns_cases key val with e | e | e | e | e | e | e
    · rw [e, show stripDelay 0 = 0 from rfl, show ∀ c o, chunkBody c o 0 = some <$> armEmpty c o from fun _ _ => rfl,
        some_map_ok] at hbody
      simp only [armEmpty, bind_ok, pure_ok, Except.ok.injEq] at hbody
      obtain ⟨_, _, _, _, rfl⟩ := hbody
      simp at hk
    · have := small 1 e (by decide) (by decide) rfl
      rw [if_neg (not6 1 e (by decide))]; left; simpa using this
    · have := small 2 e (by decide) (by decide) rfl
      rw [if_neg (not6 2 e (by decide))]; right; left; simpa using this
    · have := small 3 e (by decide) (by decide) rfl
      rw [if_neg (not6 3 e (by decide))]; right; right; left; simpa using this
    · have := small 4 e (by decide) (by decide) rfl
      rw [if_neg (not6 4 e (by decide))]; right; right; right; left; simpa using this
    · have := small 5 e (by decide) (by decide) rfl
      rw [if_neg (not6 5 e (by decide))]; right; right; right; right; left; simpa using this
    · rw [e, show stripDelay 6 = 6 from rfl, show ∀ c o, chunkBody c o 6 = some <$> armKv c o from fun _ _ => rfl,
        some_map_ok] at hbody
      simp only [armKv, bind_ok, pure_ok, Except.ok.injEq] at hbody
      obtain ⟨_, _, l, _, d, hd, rfl⟩ := hbody
      have hs := slice_length hd
      have hv : d = val := by simpa using hk.2
      have hl := l.toNat_lt
      rw [hv] at hs
      split
      · omega
      · rename_i hkey
        by_cases h10 : val.length < 10
        · exfalso
          have hc := calc_le h10
          unfold kvIns at e
          rw [if_neg (fun h => hkey (.inl h)), if_neg (fun h => hkey (.inr h)), hc] at e
          have := congrArg UInt8.toNat e
          rw [UInt8.toNat_ofNat'] at this
          simp only [UInt8.reduceToNat] at this
          omega
        · right; right; right; right; right; omega
  · intro hl
    exact decode_kv p pre post val key path loc hl

/-- C11 is false of the code: a three byte value is written but does not come back. -/
theorem kv_roundtrip_refuted : ∃ s t key val, emitKv s key val = .ok t ∧
    ¬ ∃ ch path', getChunk .debug t.buf s.idx [] 0 = .ok (.ok ch t.idx path') ∧ ch.data = some val :=
  ⟨⟨0, List.replicate 8 0⟩, ⟨5, [2, 9, 1, 2, 3, 0, 0, 0]⟩, 9, [1, 2, 3], by decide, by
    rintro ⟨ch, path', h, h2⟩
    have : getChunk .debug [2, 9, 1, 2, 3, 0, 0, 0] 0 [] 0 = .ok (.ok ⟨.refSimple, 2, some [1, 2], none, [], none, some 9⟩ 4 []) := by
      decide
    rw [this] at h
    cases h⟩

/-- C11, the part that holds, in the direction a writer needs. Missing: the other lengths, where the record is
never read back (`kv_roundtrip_iff`). -/
theorem kv_roundtrip_partial (p : Profile) (s t : Asm) (key : UInt8) (val : Bytes) (path : DirPath) (loc : Nat)
    (h : emitKv s key val = .ok t) (hl : Spec.KvLen key val.length) :
    ∃ ch, getChunk p t.buf s.idx path loc = .ok (.ok ch t.idx path) ∧ ch.ctype = .refSimple ∧
      ch.refSimple = some key.toNat ∧ ch.data = some val := by
  obtain ⟨ch, h1, h2, _⟩ := (kv_roundtrip_iff p s t key val path loc h).mpr hl
  refine ⟨ch, h1, ?_⟩
  unfold meaning at h2
  split at h2 <;> simp_all

example : Spec.KvLen 9 4 ∧ (∃ t, emitKv ⟨0, List.replicate 8 0⟩ 9 [1, 2, 3, 4] = .ok t) := ⟨by decide, _, rfl⟩

/-- C12: long key-value records are read back. -/
theorem long_kv_roundtrip (p : Profile) (s t : Asm) (key val : Bytes) (path : DirPath) (loc : Nat)
    (h : emitLongKv s key val = .ok t) (hk : key.length ≤ 255) (hv : val.length ≤ 255) :
    ∃ ch, getChunk p t.buf s.idx path loc = .ok (.ok ch t.idx path) ∧ meaning ch = some (.longKv key val) ∧
      ch.path = path := by
  rw [emitLongKv_eq] at h
  obtain ⟨pre, post, hp, hb, hi, _, _⟩ := write_spec h
  rw [hb, ← hp, hi, ← hp]
  exact decode_longKv p pre post key val path loc hk hv

example : ∃ t, emitLongKv ⟨0, List.replicate 8 0⟩ [1, 2] [3] = .ok t := ⟨_, rfl⟩

/-- C12: records with a two byte key are read back. -/
theorem kv_e_roundtrip (p : Profile) (s t : Asm) (key : Nat) (val : Bytes) (path : DirPath) (loc : Nat)
    (h : emitKvE s (UInt32.ofNat key) val = .ok t) (h1 : 128 ≤ key) (h2 : key < 384) (hv : val.length ≤ 255) :
    ∃ ch, getChunk p t.buf s.idx path loc = .ok (.ok ch t.idx path) ∧ meaning ch = some (.kv key val) ∧
      ch.path = path := by
  rw [emitKvE_eq] at h
  obtain ⟨pre, post, hp, hb, hi, _, _⟩ := write_spec h
  rw [hb, ← hp, hi, ← hp]
  exact decode_kvE p pre post val key path loc h1 h2 hv

example : ∃ t, emitKvE ⟨0, List.replicate 8 0⟩ (UInt32.ofNat 129) [3] = .ok t := ⟨_, rfl⟩

/-- C12: data records are read back; the reader skips the same four bytes as the writer. -/
theorem data_roundtrip (p : Profile) (s t : Asm) (val : Bytes) (path : DirPath) (loc : Nat)
    (h : emitData1B s val = .ok t) (h1 : 1 ≤ val.length) (hv : val.length ≤ 255) :
    ∃ ch, getChunk p t.buf s.idx path loc = .ok (.ok ch t.idx path) ∧ meaning ch = some (.data val) ∧
      ch.path = path := by
  rw [emitData1B_eq] at h
  obtain ⟨pre, post, hp, hb, hi, _, _⟩ := write_spec h
  rw [hb, ← hp, hi, ← hp]
  exact decode_data1B p pre post val path loc h1 hv

example : ∃ t, emitData1B ⟨0, List.replicate 8 0⟩ [3] = .ok t := ⟨_, rfl⟩

/-- C13: entering a directory below 384 is read back (as a push chunk and a no-op). -/
theorem push_roundtrip (p : Profile) (s t : Asm) (dir : Nat) (path : DirPath) (loc : Nat)
    (h : emitPush s (UInt32.ofNat dir) = .ok t) (hd : dir < 384) :
    ∃ ch ch', Decodes p t.buf loc s.idx path [ch, ch'] t.idx (path ++ [dir]) ∧ ch.ctype = .pathPush ∧
      ch.path = path ++ [dir] ∧ ch'.ctype = .noop := by
  rw [emitPush_eq] at h
  obtain ⟨pre, post, hp, hb, hi, _, _⟩ := write_spec h
  obtain ⟨e, he, ch, h1, h2, h3⟩ := decode_push p pre ([0x80] ++ post) dir path loc hd
  have g1 := decode_of (p := p) (pre := pre ++ e) (rest := post) (x := 0x80) (path := path ++ [dir]) (loc := loc)
    (body := { ctype := .noop, off := (pre ++ e).length + 1 }) rfl rfl
  have eq1 : t.buf = pre ++ (e ++ ([0x80] ++ post)) := by rw [hb, he, List.append_assoc]
  have eq2 : pre ++ e ++ (0x80 :: post) = pre ++ (e ++ ([0x80] ++ post)) := by simp
  have eq3 : t.idx = (pre ++ e).length + 1 := by rw [hi, he]; simp; omega
  have eq4 : pre.length + e.length = (pre ++ e).length := by simp
  have hle : 0 < e.length := by
    rcases Nat.eq_zero_or_pos e.length with h0 | h0
    · rw [List.length_eq_zero_iff.mp h0, List.length_nil, Nat.add_zero] at h1
      obtain ⟨b, body, hb1, hbody, hoff, _, rfl⟩ := getChunk_ok h1
      rcases progress_body hbody with g | ⟨g, _⟩
      · omega
      · rcases pathOp_body hbody with ⟨k, _⟩ | ⟨k, _⟩ | ⟨_, _, k, _⟩
        · rw [g] at k; exact absurd k (by decide)
        · rw [g] at k; exact absurd k (by decide)
        · rw [g] at hbody
          rw [show ∀ c o, chunkBody c o 0x0F = some <$> armSegmentE c o from fun _ _ => rfl, some_map_ok] at hbody
          simp only [armSegmentE, bind_ok, ite_ok, pure_ok, Except.ok.injEq] at hbody
          obtain ⟨n, _, ⟨_, _, _, _, _, _, _, rfl⟩ | ⟨_, rfl⟩⟩ := hbody <;> simp [meaning] at h2
    · exact h0
  rw [eq2] at g1
  rw [eq4] at h1
  rw [eq1, ← hp, eq3]
  have hct : ch.ctype = .pathPush := by
    unfold meaning at h2
    split at h2 <;> simp_all
  exact ⟨ch, _, .cons h1 (by simp; omega) (.cons g1 (by dsimp only; omega) (.nil _ _)), hct, h3, rfl⟩

example : ∃ t, emitPush ⟨0, List.replicate 8 0⟩ (UInt32.ofNat 300) = .ok t := ⟨_, rfl⟩

/-- C13: leaving a directory is read back. -/
theorem pop_roundtrip (p : Profile) (s t : Asm) (path : DirPath) (loc : Nat) (h : emitPop s = .ok t) :
    ∃ ch, getChunk p t.buf s.idx path loc = .ok (.ok ch t.idx path.dropLast) ∧ ch.ctype = .pathPop ∧
      ch.path = path.dropLast := by
  rw [emitPop_eq] at h
  obtain ⟨pre, post, hp, hb, hi, _, _⟩ := write_spec h
  rw [hb, ← hp, hi, ← hp]
  obtain ⟨ch, h1, h2, h3⟩ := decode_pop p pre post path loc
  refine ⟨ch, h1, ?_, h3⟩
  unfold meaning at h2
  split at h2 <;> simp_all

example : ∃ t, emitPop ⟨0, List.replicate 8 0⟩ = .ok t := ⟨_, rfl⟩

/-- C13 is false from 384 up: the number read back is another one. -/
theorem push_roundtrip_fails : ∃ s t, emitPush s (UInt32.ofNat 384) = .ok t ∧
    ∃ ch o, getChunk .debug t.buf s.idx [] 0 = .ok (.ok ch o [128]) :=
  ⟨⟨0, List.replicate 8 0⟩, _, rfl, _, _, rfl⟩

/-- C14: any sequence of representable records is read back in order, each with the directory at that point, and
the reader arrives where the writer stopped. -/
theorem records_roundtrip (p : Profile) (loc : Nat) (rs : List Spec.Record) (s t : Asm) (path : DirPath)
    (hr : ∀ r ∈ rs, Spec.Representable r) (h : emitRecords s rs = .ok t) :
    ∃ chs, Decodes p t.buf loc s.idx path chs t.idx (Spec.finalPath path rs) ∧
      eventsOf chs = Spec.events path rs := by
  obtain ⟨chs, h1, h2, _⟩ := emitRecords_decodes p loc hr path t.buf h rfl
  exact ⟨chs, h1, h2⟩

/-- C14: it does not matter what is written to the buffer after the last record, or appended to it. -/
theorem records_roundtrip_in_context (p : Profile) (loc : Nat) (rs : List Spec.Record) (s t : Asm) (path : DirPath)
    (code : Bytes) (hr : ∀ r ∈ rs, Spec.Representable r) (h : emitRecords s rs = .ok t)
    (hc : code.take t.idx = t.buf.take t.idx) :
    ∃ chs, Decodes p code loc s.idx path chs t.idx (Spec.finalPath path rs) ∧
      eventsOf chs = Spec.events path rs := by
  obtain ⟨chs, h1, h2, _⟩ := emitRecords_decodes p loc hr path code h hc
  exact ⟨chs, h1, h2⟩

/-- C14: the reader's run is determined: two runs of the decoder that reach the same offset are the same. -/
theorem decodes_deterministic (p : Profile) (code : Bytes) (loc o o' : Nat) (path path₁ path₂ : DirPath)
    (chs₁ chs₂ : List Chunk) (h1 : Decodes p code loc o path chs₁ o' path₁) (h2 : Decodes p code loc o path chs₂ o' path₂) :
    chs₁ = chs₂ ∧ path₁ = path₂ := by
  have mono : ∀ {o o' path path' chs}, Decodes p code loc o path chs o' path' → o ≤ o' := by
    intro o o' path path' chs h
    induction h with
    | nil => exact Nat.le_refl _
    | cons _ g _ ih => omega
  induction h1 generalizing chs₂ path₂ with
  | nil o path =>
    cases h2 with
    | nil => exact ⟨rfl, rfl⟩
    | cons _ g h => have := mono h; omega
  | cons a b c ih =>
    cases h2 with
    | nil => have := mono c; omega
    | cons a' b' c' =>
      rw [a] at a'; cases a'
      obtain ⟨e1, e2⟩ := ih _ _ c'
      exact ⟨by rw [e1], e2⟩

example : (∀ r ∈ [Spec.Record.push 200, .kv 4 [1, 2], .longKv [1] [2], .data [7], .kvE 129 [3], .pop], Spec.Representable r) ∧
    ∃ t, emitRecords ⟨0, List.replicate 64 0⟩ [.push 200, .kv 4 [1, 2], .longKv [1] [2], .data [7], .kvE 129 [3], .pop] = .ok t :=
  ⟨by simp [Spec.Representable, Spec.KvLen], _, rfl⟩

end BurnFm.Props
