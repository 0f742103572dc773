import Verif.Proofs.DbChar

/-! Properties C05 and C06: the two-byte text encoding of `src/dbcharconv.rs`. -/

namespace BurnFm.Props

/-- C05: two bytes per character. -/
theorem encode_text_length (s : Str) : (encodeText s).length = 2 * s.length := by
  induction s with
  | nil => rfl
  | cons c s ih =>
    rw [encodeText, List.flatMap_cons] at *
    simp only [List.length_append, List.length_cons, List.length_nil, ih]; omega

/-- C05: reading back a NUL-terminated text gives, character by character, what the encoding can
store. -/
theorem decode_encode_text (s : Str) :
    decodeBytes (encodeText (s ++ ['\x00'])) = .ok (s.map Spec.stored) := by
  unfold decodeBytes
  rw [decodePairs_encodeText]
  have : Spec.stored '\x00' = '\x00' := by decide
  simp [this]

/-- C05: texts made of storable characters come back unchanged. -/
theorem decode_encode_storable (s : Str) (h : ∀ c ∈ s, Spec.storable c) :
    decodeBytes (encodeText (s ++ ['\x00'])) = .ok s := by
  rw [decode_encode_text]
  congr 1
  conv => rhs; rw [← List.map_id s]
  apply List.map_congr_left
  intro c hc
  have hs := h c hc
  have hl : c.toLower = c := by
    have hd : ∀ n : Fin 123, Spec.storable (Char.ofNat n.val) → (Char.ofNat n.val).toLower = Char.ofNat n.val := by
      decide
    have hb : c.toNat < 123 := by
      rcases hs with h | h | h | ⟨_, h2⟩
      · subst h; decide
      · subst h; decide
      · subst h; decide
      · exact Nat.lt_succ_of_le h2
    have := hd ⟨c.toNat, hb⟩
    simp only [Char.ofNat_toNat] at this
    exact this hs
  simp [Spec.stored, hl, hs]

example : ∀ c ∈ t!"first_name x", Spec.storable c := by decide

example : decodeBytes (encodeText (t!"Cafe 7" ++ ['\x00'])) = .ok (t!"cafe " ++ ['\x00']) := by
  rw [decode_encode_text]; decide

/-- C06: `decode_bytes` succeeds exactly when the last complete byte pair is (0,0). -/
theorem decode_bytes_ok_iff (b : Bytes) :
    (∃ s, decodeBytes b = .ok s) ↔ (Spec.pairs b).getLast? = some (0, 0) := by
  unfold decodeBytes
  rw [decodePairs_eq]
  simp only [List.getLast?_map]
  cases h : (Spec.pairs b).getLast? with
  | none => simp
  | some p =>
    have := decodeChar_nul p.1 p.2
    by_cases hp : decodeChar p.1 p.2 = '\x00'
    · simp only [hp, Option.map_some, if_true, Except.ok.injEq, exists_eq', Option.some.injEq, true_iff]
      exact this.mp hp
    · have : p ≠ (0, 0) := fun h => hp (this.mpr h)
      simp [hp, this]

/-- C06: and then it yields one character per preceding pair. -/
theorem decode_bytes_value (b : Bytes) (s : Str) (h : decodeBytes b = .ok s) :
    s = ((Spec.pairs b).dropLast).map fun p => decodeChar p.1 p.2 := by
  unfold decodeBytes at h
  rw [decodePairs_eq] at h
  simp only at h
  split at h
  · cases h; rw [List.map_dropLast]
  · cases h

/-- C06: the only panic is the `unwrap` of the missing terminator. -/
theorem decode_bytes_panic (b : Bytes) (e : Panic) (h : decodeBytes b = .error e) : e = .unwrap := by
  unfold decodeBytes at h
  simp only at h
  split at h
  · cases h
  · cases h; rfl

/-- C06: a known pair decodes to its character, an unknown one to a question mark. -/
theorem decode_char_unknown (h l : UInt8) (hn : ∀ c, encodeChar c ≠ (h, l)) : decodeChar h l = '?' := by
  unfold decodeChar
  cases hf : encodingMapping.find? (fun e => e.1 == h && e.2.1 == l) with
  | none => rfl
  | some e =>
    have hm := List.mem_of_find?_eq_some hf
    have hp := List.find?_some hf
    simp at hp
    have key : ∀ e ∈ encodingMapping, encodeChar e.2.2 = (e.1, e.2.1) := by decide
    have := key e hm
    rw [hp.1, hp.2] at this
    exact absurd this (hn _)

example : decodeBytes [0x12, 0xf, 0x13, 0x30, 1, 1, 0, 0, 9] = .ok (t!"al?") := by decide
example : decodeBytes [0x12, 0xf] = .error .unwrap := by decide

end BurnFm.Props
