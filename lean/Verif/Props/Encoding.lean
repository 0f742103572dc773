import Verif.Proofs.Encoding

/-! Properties C01-C04: the integer and string codecs of `src/encoding_util.rs`. -/

namespace BurnFm.Props

/-- C01, the part that holds: below 384 a path integer survives the round trip.
Missing: every number from 384 up (see `path_int_roundtrip_fails`). -/
theorem path_int_roundtrip_partial (n : UInt32) (h : n.toNat < 384) :
    getPathInt (putPathInt n) = n.toNat := by
  rw [getPathInt_putPathInt]; split <;> omega

example : (383 : UInt32).toNat < 384 := by decide

/-- C01 is false of the code: *every* number from 384 up comes back as a different number. -/
theorem path_int_roundtrip_fails (n : UInt32) (h : 384 ≤ n.toNat) :
    getPathInt (putPathInt n) ≠ n.toNat := by
  rw [getPathInt_putPathInt]; split <;> omega

/-- The negation of C01 as stated. -/
theorem path_int_roundtrip_refuted : ¬ ∀ n : UInt32, getPathInt (putPathInt n) = n.toNat :=
  fun h => path_int_roundtrip_fails 384 (by decide) (h 384)

/-- C02: `put_int` panics or returns four bytes which `get_int` maps back to the number. -/
theorem put_int_never_wrong (p : Profile) (n : Nat) (b : Bytes) (h : putInt p n = .ok b) :
    b.length = 4 ∧ getInt b = n := by
  cases p with
  | debug =>
    rw [putInt_debug] at h
    split at h
    · cases h
      refine ⟨rfl, ?_⟩
      rw [getInt_four] <;> omega
    · cases h
  | release =>
    rw [putInt_release] at h
    split at h
    · cases h
      refine ⟨rfl, ?_⟩
      rw [getInt_four] <;> omega
    · cases h

/-- C02: with overflow checks, `put_int` succeeds exactly below 2^24. -/
theorem put_int_debug_ok_iff (n : Nat) : (∃ b, putInt .debug n = .ok b) ↔ n < 2 ^ 24 := by
  rw [putInt_debug]; split <;> simp <;> omega

/-- C02: without overflow checks, `put_int` succeeds exactly below 2^32. -/
theorem put_int_release_ok_iff (n : Nat) : (∃ b, putInt .release n = .ok b) ↔ n < 2 ^ 32 := by
  rw [putInt_release]; split <;> simp <;> omega

example : putInt .debug 1024 = .ok [0, 0, 4, 0] := by
  simp [putInt, putIntLoop_pos, putIntLoop_zero, usub, Except.bind]

/-- C03: decrypting an encrypted string gives the string back. -/
theorem string_roundtrip (s : Str) : fmStringDecrypt (fmStringEncrypt s) = s := by
  simp only [fmStringDecrypt, fmStringEncrypt, map_xor_xor, fromUtf8_utf8]

/-- C03: different strings have different encryptions. -/
theorem string_encrypt_injective (s t : Str) (h : fmStringEncrypt s = fmStringEncrypt t) : s = t :=
  utf8_injective (map_xor_injective h)

/-- C03 (a fact users of the file format rely on): the encryption of an ASCII text is each character's
code with the constant 0x5A xor-ed in. -/
theorem string_encrypt_ascii (s : Str) (h : ∀ c ∈ s, c.toNat < 128) :
    fmStringEncrypt s = s.map fun c => UInt8.ofNat (c.toNat ^^^ 0x5A) := by
  induction s with
  | nil => rfl
  | cons c s ih =>
    have hc : c.toNat < 128 := h c (by simp)
    have := ih (fun d hd => h d (by simp [hd]))
    rw [fmStringEncrypt, utf8] at this ⊢
    rw [List.flatMap_cons, List.map_append, this, String.utf8EncodeChar_eq_singleton]
    · simp only [List.map_cons, List.map_nil, List.cons_append, List.nil_append, List.cons.injEq,
        and_true]
      apply UInt8.toNat_inj.mp
      have e1 : c.val.toNat = c.toNat := rfl
      have e2 : (0x5A : UInt8).toNat = 90 := rfl
      rw [UInt8.toNat_xor, UInt32.toNat_toUInt8, UInt8.toNat_ofNat', e1, e2,
        Nat.mod_eq_of_lt (by omega : c.toNat < 2 ^ 8), Nat.mod_eq_of_lt]
      exact Nat.xor_lt_two_pow (by omega) (by omega)
    · have : c.val.toNat ≤ 127 := by have e1 : c.val.toNat = c.toNat := rfl
                                     omega
      have : c.val ≤ 0x7f := by rw [UInt32.le_iff_toNat_le]; exact this
      simp [Char.utf8Size, this]

/-- C04: on a slice that is some string's encryption, decryption returns that string. -/
theorem decrypt_exact (b : Bytes) (s : Str) (h : fmStringEncrypt s = b) : fmStringDecrypt b = s := by
  rw [← h, string_roundtrip]

/-- C04: the result is exact or the marker text. -/
theorem decrypt_exact_or_marker (b : Bytes) :
    fmStringEncrypt (fmStringDecrypt b) = b ∨ fmStringDecrypt b = t!"value not utf-8." := by
  unfold fmStringDecrypt
  cases h : fromUtf8 (b.map (· ^^^ 0x5A)) with
  | none => right; rfl
  | some v =>
    left
    rw [fmStringEncrypt, utf8_of_fromUtf8 h, map_xor_xor]

/-- C04: the marker text is returned exactly when the slice is no string's encryption, or is the
encryption of the marker text itself. -/
theorem decrypt_marker_iff (b : Bytes) :
    fmStringDecrypt b = t!"value not utf-8." ↔
      (¬ ∃ s, fmStringEncrypt s = b) ∨ b = fmStringEncrypt (t!"value not utf-8.") := by
  constructor
  · intro h
    rcases Classical.em (∃ s, fmStringEncrypt s = b) with ⟨s, hs⟩ | hn
    · right
      rw [← hs, string_roundtrip] at h
      rw [← hs, h]
    · exact .inl hn
  · rintro (hn | h)
    · rcases decrypt_exact_or_marker b with h | h
      · exact absurd ⟨_, h⟩ hn
      · exact h
    · rw [h, string_roundtrip]

/-- Both cases of `decrypt_exact_or_marker` occur. -/
example : fmStringDecrypt [0x1B] = ['A'] := decrypt_exact _ _ (by decide)

example : ¬ ∃ s, fmStringEncrypt s = [0xFF ^^^ 0x5A] := by
  rintro ⟨s, h⟩
  have h2 : utf8 s = [0xFF] := by
    have : fmStringEncrypt s = [(0xFF : UInt8)].map (· ^^^ 0x5A) := h
    exact map_xor_injective this
  cases s with
  | nil => cases h2
  | cons c s =>
    have hv : (List.utf8Encode (c :: s)) = [(0xFF : UInt8)].toByteArray := congrArg List.toByteArray h2
    have : ([(0xFF : UInt8)].toByteArray).utf8Decode?.isSome :=
      ByteArray.isSome_utf8Decode?_iff.mpr ⟨c :: s, hv.symm⟩
    exact absurd this (by decide)

example : fmStringEncrypt (t!"Hi_1") = [0x12, 0x33, 0x05, 0x6b] := by decide

end BurnFm.Props
