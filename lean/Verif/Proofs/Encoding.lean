import Verif.Model.Encoding

/-! Helper lemmas for `Verif/Props/Encoding.lean`. -/

namespace BurnFm

theorem byte_and_high (b : UInt8) : b.toNat &&& (0x7f <<< 8) = 0 := by
  have h : b.toNat < 256 := b.toNat_lt
  apply Nat.eq_of_testBit_eq
  intro i
  rw [Nat.testBit_and, Nat.zero_testBit, Nat.testBit_shiftLeft]
  by_cases hi : 8 ≤ i
  · have : b.toNat.testBit i = false :=
      Nat.testBit_lt_two_pow (Nat.lt_of_lt_of_le h (Nat.pow_le_pow_right (by decide) hi : 2 ^ 8 ≤ 2 ^ i))
    simp [this]
  · simp [hi]

/-- What the two functions compose to: the number, but with everything above the low byte of
`n - 128` lost. -/
theorem getPathInt_putPathInt (n : UInt32) :
    getPathInt (putPathInt n) = if n.toNat < 128 then n.toNat else 128 + (n.toNat - 128) % 256 := by
  have hn : n.toNat < 2 ^ 32 := n.toNat_lt
  unfold putPathInt
  by_cases h : n ≥ 128
  · have h' : 128 ≤ n.toNat := by simpa [UInt32.le_iff_toNat_le] using h
    have hx : (n - 128).toNat = n.toNat - 128 := by
      rw [UInt32.toNat_sub_of_le _ _ h]; rfl
    have hlt : ¬ n.toNat < 128 := by omega
    simp only [h, if_true, getPathInt, byte_and_high, hlt, if_false]
    rw [UInt32.toNat_toUInt8, UInt32.toNat_and, hx]
    have : (255 : UInt32).toNat = 2 ^ 8 - 1 := rfl
    rw [this, Nat.and_two_pow_sub_one_eq_mod]
    omega
  · have h' : n.toNat < 128 := by
      have := UInt32.not_le.mp h
      simpa [UInt32.lt_iff_toNat_lt] using this
    simp only [h, if_false, getPathInt, h', if_true, UInt32.toNat_toUInt8]
    omega

theorem putIntLoop_zero (p : Profile) (res : Bytes) (i : Nat) : putIntLoop p 0 res i = .ok res := by
  rw [putIntLoop]; simp

theorem putIntLoop_pos (p : Profile) (n : Nat) (hn : 0 < n) (res : Bytes) (i : Nat) (hi : i < res.length) :
    putIntLoop p n res i =
      (usub p i 1).bind (fun i' => putIntLoop p (n / 256) (res.set i (UInt8.ofNat (n % 256))) i') := by
  rw [putIntLoop]; simp [hn, hi]; rfl

theorem putIntLoop_oob (p : Profile) (n : Nat) (hn : 0 < n) (res : Bytes) (i : Nat) (hi : res.length ≤ i) :
    putIntLoop p n res i = .error .index := by
  rw [putIntLoop]; simp [hn, Nat.not_lt.mpr hi]

theorem getInt_four (a b c d : Nat) (ha : a < 256) (hb : b < 256) (hc : c < 256) (hd : d < 256) :
    getInt [UInt8.ofNat a, UInt8.ofNat b, UInt8.ofNat c, UInt8.ofNat d]
      = a * 16777216 + b * 65536 + c * 256 + d := by
  simp only [getInt, UInt8.toNat_ofNat', Nat.shiftLeft_eq]
  omega

theorem putInt_debug (n : Nat) : putInt .debug n =
    if n < 16777216 then
      .ok [UInt8.ofNat 0, UInt8.ofNat (n / 65536), UInt8.ofNat (n / 256 % 256), UInt8.ofNat (n % 256)]
    else .error .overflow := by
  have z : UInt8.ofNat 0 = 0 := rfl
  unfold putInt
  rcases Nat.eq_zero_or_pos n with h0 | h0
  · subst h0; rw [putIntLoop_zero]; rfl
  rw [putIntLoop_pos _ _ h0 _ _ (by simp)]
  simp only [usub, Except.bind, List.set_cons_succ, List.set_cons_zero]
  simp only [show (1 ≤ 3) = True by simp, if_true]
  rcases Nat.eq_zero_or_pos (n / 256) with h1 | h1
  · rw [h1, putIntLoop_zero, if_pos (by omega)]
    rw [show n / 65536 = 0 by omega, z]
  rw [putIntLoop_pos _ _ h1 _ _ (by simp)]
  simp only [usub, Except.bind, List.set_cons_succ, List.set_cons_zero, Nat.div_div_eq_div_mul]
  simp only [show (1 ≤ 3 - 1) = True by simp, if_true]
  rcases Nat.eq_zero_or_pos (n / (256 * 256)) with h2 | h2
  · rw [h2, putIntLoop_zero, if_pos (by omega)]
    rfl
  rw [putIntLoop_pos _ _ h2 _ _ (by simp)]
  simp only [usub, Except.bind, List.set_cons_succ, List.set_cons_zero, Nat.div_div_eq_div_mul]
  simp only [show (1 ≤ 3 - 1 - 1) = True by simp, if_true]
  rcases Nat.eq_zero_or_pos (n / (256 * 256 * 256)) with h3 | h3
  · rw [h3, putIntLoop_zero, if_pos (by omega)]
    rw [show n / (256 * 256) % 256 = n / 65536 by omega, z]
  rw [putIntLoop_pos _ _ h3 _ _ (by simp), if_neg (by omega)]
  rfl

theorem putInt_release (n : Nat) : putInt .release n =
    if n < 4294967296 then
      .ok [UInt8.ofNat (n / 16777216), UInt8.ofNat (n / 65536 % 256), UInt8.ofNat (n / 256 % 256),
        UInt8.ofNat (n % 256)]
    else .error .index := by
  have z : UInt8.ofNat 0 = 0 := rfl
  unfold putInt
  rcases Nat.eq_zero_or_pos n with h0 | h0
  · subst h0; rw [putIntLoop_zero]; rfl
  rw [putIntLoop_pos _ _ h0 _ _ (by simp)]
  simp only [usub, Except.bind, List.set_cons_succ, List.set_cons_zero]
  simp only [show (1 ≤ 3) = True by simp, if_true]
  rcases Nat.eq_zero_or_pos (n / 256) with h1 | h1
  · rw [h1, putIntLoop_zero, if_pos (by omega)]
    rw [show n / 65536 % 256 = 0 by omega, show n / 16777216 = 0 by omega, z]
  rw [putIntLoop_pos _ _ h1 _ _ (by simp)]
  simp only [usub, Except.bind, List.set_cons_succ, List.set_cons_zero, Nat.div_div_eq_div_mul]
  simp only [show (1 ≤ 3 - 1) = True by simp, if_true]
  rcases Nat.eq_zero_or_pos (n / (256 * 256)) with h2 | h2
  · rw [h2, putIntLoop_zero, if_pos (by omega)]
    rw [show n / 16777216 = 0 by omega, Nat.zero_mod, z]
  rw [putIntLoop_pos _ _ h2 _ _ (by simp)]
  simp only [usub, Except.bind, List.set_cons_succ, List.set_cons_zero, Nat.div_div_eq_div_mul]
  simp only [show (1 ≤ 3 - 1 - 1) = True by simp, if_true]
  rcases Nat.eq_zero_or_pos (n / (256 * 256 * 256)) with h3 | h3
  · rw [h3, putIntLoop_zero, if_pos (by omega)]
    rfl
  rw [putIntLoop_pos _ _ h3 _ _ (by simp)]
  simp only [usub, Except.bind, Nat.div_div_eq_div_mul]
  simp only [show (1 ≤ 3 - 1 - 1 - 1) = False by simp, if_false]
  rcases Nat.eq_zero_or_pos (n / (256 * 256 * 256 * 256)) with h4 | h4
  · rw [h4, putIntLoop_zero, if_pos (by omega)]
    rw [show n / (256 * 256 * 256) % 256 = n / 16777216 by omega,
      show n / (256 * 256) % 256 = n / 65536 % 256 by omega]
    rfl
  rw [putIntLoop_oob _ _ h4 _ _ (by simp), if_neg (by omega)]

theorem xor_xor_byte (c : UInt8) : (c ^^^ 0x5A) ^^^ 0x5A = c := by
  rw [UInt8.xor_assoc, UInt8.xor_self, UInt8.xor_zero]

theorem map_xor_xor (b : Bytes) : (b.map (· ^^^ 0x5A)).map (· ^^^ 0x5A) = b := by
  rw [List.map_map]
  conv => rhs; rw [← List.map_id b]
  apply List.map_congr_left
  intro c _
  exact xor_xor_byte c

theorem map_xor_injective {a b : Bytes} (h : a.map (· ^^^ (0x5A : UInt8)) = b.map (· ^^^ 0x5A)) : a = b := by
  rw [← map_xor_xor a, h, map_xor_xor]

theorem fromUtf8_utf8 (s : Str) : fromUtf8 (utf8 s) = some s := by
  have h : (utf8 s).toByteArray = s.utf8Encode := rfl
  rw [fromUtf8, h, List.utf8Decode?_utf8Encode]
  rfl

theorem utf8_injective {a b : Str} (h : utf8 a = utf8 b) : a = b := by
  have := fromUtf8_utf8 a
  rw [h, fromUtf8_utf8] at this
  exact (Option.some.inj this).symm

theorem utf8_of_fromUtf8 {b : Bytes} {s : Str} (h : fromUtf8 b = some s) : utf8 s = b := by
  unfold fromUtf8 at h
  cases hd : b.toByteArray.utf8Decode? with
  | none => rw [hd] at h; cases h
  | some a =>
    have hs : b.toByteArray.utf8Decode?.isSome := by rw [hd]; rfl
    obtain ⟨m, hm⟩ := ByteArray.isSome_utf8Decode?_iff.mp hs
    rw [hm, List.utf8Decode?_utf8Encode] at h
    have : m = s := by simpa using h
    subst this
    have h2 : b.toByteArray = (utf8 m).toByteArray := hm
    have := congrArg (fun x : ByteArray => x.data.toList) h2
    simpa using this.symm

end BurnFm
