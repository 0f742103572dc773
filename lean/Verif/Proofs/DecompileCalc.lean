import Verif.Model.Decompiler
import Verif.Proofs.Base
import Verif.Proofs.Encoding
import Verif.Proofs.Chunk
import Verif.Spec.Calc

namespace BurnFm

theorem utf8_cons (c : Char) (s : Str) : utf8 (c :: s) = String.utf8EncodeChar c ++ utf8 s := by simp [utf8]

theorem utf8_append (a b : Str) : utf8 (a ++ b) = utf8 a ++ utf8 b := by simp [utf8]

theorem utf8_ascii_char {c : Char} (h : c.toNat < 128) : String.utf8EncodeChar c = [UInt8.ofNat c.toNat] := by
  have : c.val.toNat < 128 := h
  rw [String.utf8EncodeChar]
  rw [if_pos (by omega)]
  rfl

theorem utf8_ascii {s : Str} (h : ∀ c ∈ s, c.toNat < 128) : utf8 s = s.map (fun c => UInt8.ofNat c.toNat) := by
  induction s with
  | nil => rfl
  | cons c s ih =>
    rw [utf8_cons, utf8_ascii_char (h c (by simp)), ih (fun d hd => h d (by simp [hd]))]
    rfl

theorem char_ofNat_toNat {n : Nat} (h : n < 0xd800) : (Char.ofNat n).toNat = n := by
  have hv : n.isValidChar := .inl h
  unfold Char.ofNat
  rw [dif_pos hv]
  show (UInt32.ofNatLT n _).toNat = n
  simp

/-- The first byte of an encoded character is not a continuation byte. -/
theorem utf8_lead (c : Char) : ∃ b rest, String.utf8EncodeChar c = b :: rest ∧ (b.toNat < 128 ∨ 192 ≤ b.toNat) ∧
    (b.toNat < 128 → c.toNat = b.toNat) := by
  rw [String.utf8EncodeChar]
  split
  · refine ⟨_, _, rfl, ?_⟩
    rename_i h
    have e : c.toNat = c.val.toNat := rfl
    simp
    omega
  · rename_i h1
    split
    · refine ⟨_, _, rfl, ?_⟩
      rename_i h
      simp
      omega
    · split
      · refine ⟨_, _, rfl, ?_⟩
        rename_i h
        simp
        omega
      · refine ⟨_, _, rfl, ?_⟩
        rename_i h
        simp
        omega

theorem no_continuation {a : Str} (ha : ∀ c ∈ a, c.toNat < 128) {x : UInt8} {r : Bytes}
    (hx : 128 ≤ x.toNat) (hx2 : x.toNat < 192) : ∀ t, utf8 t ≠ utf8 a ++ x :: r := by
  induction a with
  | nil =>
    intro t h
    cases t with
    | nil => simp [utf8] at h
    | cons c t =>
      obtain ⟨b, rest, hb, h1, _⟩ := utf8_lead c
      rw [utf8_cons, hb] at h
      simp [utf8] at h
      rw [h.1] at h1
      omega
  | cons d a ih =>
    intro t h
    have hd := ha d (by simp)
    rw [utf8_cons, utf8_ascii_char hd] at h
    cases t with
    | nil => simp [utf8] at h
    | cons c t =>
      obtain ⟨b, rest, hb, h1, h2⟩ := utf8_lead c
      rw [utf8_cons, hb] at h
      have hbd : b = UInt8.ofNat d.toNat := by
        have := congrArg List.head? h
        simpa using this
      have hb3 : b.toNat = d.toNat := by
        rw [hbd, UInt8.toNat_ofNat']; omega
      have hc : c.toNat < 128 := by rw [h2 (by omega)]; omega
      rw [utf8_ascii_char hc] at hb
      have hr : rest = [] := by
        have := congrArg List.tail hb
        simpa using this.symm
      rw [hr] at h
      have h' : utf8 t = utf8 a ++ x :: r := by
        have := congrArg List.tail h
        simpa using this
      exact ih (fun c hc => ha c (by simp [hc])) t h'

theorem fromUtf8_none {b : Bytes} (h : ∀ t, utf8 t ≠ b) : fromUtf8 b = none := by
  cases hf : fromUtf8 b with
  | none => rfl
  | some t => exact absurd (utf8_of_fromUtf8 hf) (h t)

theorem decrypt_encrypt (s : Str) : fmStringDecrypt (fmStringEncrypt s) = s := by
  unfold fmStringDecrypt fmStringEncrypt
  rw [map_xor_xor, fromUtf8_utf8]

set_option maxRecDepth 10000 in
theorem xor_ascii (b : UInt8) : (b ^^^ 0x5A).toNat < 128 ↔ b.toNat < 128 := by
  revert b
  exact byte_forall (by decide)

theorem latin1_ascii {raw : Bytes} (h : ∀ b ∈ raw, b.toNat < 128) :
    utf8 (raw.map fun b => Char.ofNat b.toNat) = raw := by
  induction raw with
  | nil => rfl
  | cons b raw ih =>
    have hb := h b (by simp)
    rw [List.map_cons, utf8_cons, ih (fun x hx => h x (by simp [hx]))]
    have e : (Char.ofNat b.toNat).toNat = b.toNat := char_ofNat_toNat (by omega)
    rw [utf8_ascii_char (by omega), e]
    simp

set_option maxRecDepth 20000 in
/-- The first byte of the UTF-8 encoding of a Latin-1 character above ASCII, decrypted, is a continuation byte. -/
theorem latin1_lead (b : UInt8) (h : 128 ≤ b.toNat) : ∃ x rest, String.utf8EncodeChar (Char.ofNat b.toNat) = x :: rest ∧
    128 ≤ (x ^^^ 0x5A).toNat ∧ (x ^^^ 0x5A).toNat < 192 := by
  have hlt := b.toNat_lt
  have e : (Char.ofNat b.toNat).toNat = b.toNat := char_ofNat_toNat (by omega)
  have e2 : (Char.ofNat b.toNat).val.toNat = b.toNat := e
  rw [String.utf8EncodeChar]
  rw [e2, if_neg (by omega), if_pos (by omega)]
  refine ⟨_, _, rfl, ?_⟩
  have h2 : b.toNat / 64 % 32 = 2 ∨ b.toNat / 64 % 32 = 3 := by omega
  rcases h2 with h2 | h2 <;> rw [h2] <;> decide

theorem first_non_ascii {s : Str} (h : ¬ ∀ c ∈ s, c.toNat < 128) :
    ∃ a c rest, s = a ++ c :: rest ∧ (∀ c ∈ a, c.toNat < 128) ∧ 128 ≤ c.toNat := by
  induction s with
  | nil => simp at h
  | cons c s ih =>
    by_cases hc : c.toNat < 128
    · have : ¬ ∀ c ∈ s, c.toNat < 128 := by
        intro h'
        apply h
        intro d hd
        rcases List.mem_cons.mp hd with rfl | hd
        · exact hc
        · exact h' d hd
      obtain ⟨a, c', rest, h1, h2, h3⟩ := ih this
      refine ⟨c :: a, c', rest, by rw [h1]; rfl, ?_, h3⟩
      intro d hd
      rcases List.mem_cons.mp hd with rfl | hd
      · exact hc
      · exact h2 d hd
    · exact ⟨[], c, s, rfl, by simp, by omega⟩

theorem calcDecrypt_encrypt (s : Str) : calcDecrypt (fmStringEncrypt s) = Spec.literalText s := by
  unfold Spec.literalText
  split
  · rename_i h
    unfold calcDecrypt
    rw [latin1_ascii, decrypt_encrypt]
    intro b hb
    unfold fmStringEncrypt at hb
    rw [utf8_ascii h] at hb
    simp only [List.mem_map] at hb
    obtain ⟨y, ⟨c, hc, rfl⟩, rfl⟩ := hb
    rw [xor_ascii, UInt8.toNat_ofNat']
    have := h c hc
    omega
  · rename_i h
    obtain ⟨a, c, rest, h1, h2, h3⟩ := first_non_ascii h
    obtain ⟨b, r, hb, hb1, hb2⟩ := utf8_lead c
    have hb192 : 192 ≤ b.toNat := by
      rcases hb1 with h | h
      · have := hb2 h; omega
      · exact h
    unfold calcDecrypt fmStringDecrypt
    have hx : 128 ≤ (b ^^^ 0x5A).toNat := by
      have := xor_ascii b
      omega
    obtain ⟨x, xr, hx1, hx2, hx3⟩ := latin1_lead (b ^^^ 0x5A) hx
    have ha : ∀ y ∈ (utf8 a).map (· ^^^ (0x5A : UInt8)), y.toNat < 128 := by
      intro y hy
      rw [utf8_ascii h2] at hy
      simp only [List.mem_map] at hy
      obtain ⟨z, ⟨c, hc, rfl⟩, rfl⟩ := hy
      rw [xor_ascii, UInt8.toNat_ofNat']
      have := h2 c hc
      omega
    have key : ∃ rest', (utf8 ((fmStringEncrypt s).map fun b => Char.ofNat b.toNat)).map (· ^^^ (0x5A : UInt8)) =
        utf8 a ++ (x ^^^ 0x5A) :: rest' := by
      unfold fmStringEncrypt
      rw [h1, utf8_append, utf8_cons, hb, List.map_append, List.map_append, utf8_append, latin1_ascii ha, List.map_append,
        map_xor_xor]
      rw [List.cons_append, List.map_cons, List.map_cons, utf8_cons, hx1]
      exact ⟨_, rfl⟩
    obtain ⟨rest', hk⟩ := key
    rw [hk, fromUtf8_none (no_continuation h2 hx2 hx3)]

theorem calcText_symbol {b : UInt8} {t : Str} (h : (b, t) ∈ Spec.calcSymbols) : calcText b = some t := by
  simp only [Spec.calcSymbols, List.mem_cons, List.not_mem_nil, or_false, Prod.mk.injEq] at h
  rcases h with ⟨rfl, rfl⟩ | ⟨rfl, rfl⟩ | ⟨rfl, rfl⟩ | ⟨rfl, rfl⟩ | ⟨rfl, rfl⟩ | ⟨rfl, rfl⟩ | ⟨rfl, rfl⟩ | ⟨rfl, rfl⟩ |
    ⟨rfl, rfl⟩ | ⟨rfl, rfl⟩ | ⟨rfl, rfl⟩ | ⟨rfl, rfl⟩ | ⟨rfl, rfl⟩ | ⟨rfl, rfl⟩ | ⟨rfl, rfl⟩ | ⟨rfl, rfl⟩ | ⟨rfl, rfl⟩ <;> rfl

theorem calcText_none {b : UInt8} (h : b ∉ Spec.calcSymbols.map (·.1)) : calcText b = none := by
  simp only [Spec.calcSymbols, List.map_cons, List.map_nil, List.mem_cons, List.not_mem_nil, or_false, not_or] at h
  unfold calcText
  simp [h]

theorem calcGetName_eq (k : UInt8) : calcGetName k = (Spec.getArguments.lookup k).getD [] := by
  unfold calcGetName Spec.getArguments
  simp only [List.lookup]
  by_cases h1 : k = 0x1d
  · subst h1; rfl
  by_cases h2 : k = 0x20
  · subst h2; rfl
  by_cases h3 : k = 0x49
  · subst h3; rfl
  by_cases h4 : k = 0x5d
  · subst h4; rfl
  rw [if_neg h1, if_neg h2, if_neg h3, if_neg h4]
  have e1 : (k == 0x1d) = false := by simpa using h1
  have e2 : (k == 0x20) = false := by simpa using h2
  have e3 : (k == 0x49) = false := by simpa using h3
  have e4 : (k == 0x5d) = false := by simpa using h4
  simp only [e1, e2, e3, e4]
  rfl

/-- One item at the front. -/
theorem decompileCalculation_item (i : Spec.CalcItem) (hv : i.Valid fmStringEncrypt) (rest : Bytes) :
    decompileCalculation (i.bytes fmStringEncrypt ++ rest) = (do return i.text ++ (← decompileCalculation rest)) := by
  have lit : ∀ (c : UInt8) (s : Str), (fmStringEncrypt s).length ≤ 255 → calcText c = none → c ≠ 0x9c → c ≠ 0xfb → c ≠ 0x10 →
      (c = 0x13 ∨ c = 0x1a) → decompileCalculation (c :: UInt8.ofNat (fmStringEncrypt s).length :: (fmStringEncrypt s ++ rest)) =
      (do return (if c = 0x13 then ['"'] ++ Spec.literalText s ++ ['"'] else Spec.literalText s) ++ (← decompileCalculation rest)) := by
    intro c s hl h0 h1 h2 h3 h4
    have hn : (UInt8.ofNat (fmStringEncrypt s).length).toNat = (fmStringEncrypt s).length := by
      rw [UInt8.toNat_ofNat']; omega
    rw [decompileCalculation.eq_def]
    simp only [h0]
    rw [if_neg h1, if_neg h2, if_neg h3, if_pos h4]
    rw [hn, if_pos (by simp), List.take_left', List.drop_left', calcDecrypt_encrypt]
    · rfl
    · rfl
  cases i with
  | symbol b t =>
    show decompileCalculation (b :: rest) = _
    rw [decompileCalculation.eq_def]
    simp only [calcText_symbol hv]
    rfl
  | skipped b =>
    obtain ⟨h1, h2⟩ := hv
    show decompileCalculation (b :: rest) = _
    rw [decompileCalculation.eq_def]
    simp only [calcText_none h1]
    simp only [Spec.calcPrefixes, List.mem_cons, List.not_mem_nil, or_false, not_or] at h2
    obtain ⟨a1, a2, a3, a4, a5⟩ := h2
    rw [if_neg a4, if_neg a5, if_neg a1, if_neg (by simp [a2, a3])]
    show _ = (decompileCalculation rest >>= fun x => pure ([] ++ x))
    cases decompileCalculation rest <;> rfl
  | getArg k =>
    show decompileCalculation (0x9C :: k :: rest) = _
    rw [decompileCalculation.eq_def]
    simp only [show calcText 0x9C = none from rfl]
    rw [if_pos trivial]
    simp only [Spec.CalcItem.text, ← calcGetName_eq]
  | intrinsic k =>
    show decompileCalculation (0xFB :: k :: rest) = _
    rw [decompileCalculation.eq_def]
    simp only [show calcText 0xFB = none from rfl]
    rw [if_neg (by decide), if_pos trivial]
    rfl
  | number before v after =>
    obtain ⟨h1, h2⟩ := hv
    have e : Spec.CalcItem.bytes fmStringEncrypt (.number before v after) ++ rest =
        0x10 :: (before ++ v :: (after ++ rest)) := by simp [Spec.CalcItem.bytes]
    rw [e, decompileCalculation.eq_def]
    simp only [show calcText 0x10 = none from rfl]
    rw [if_neg (by decide), if_neg (by decide), if_pos trivial]
    have e1 : (before ++ v :: (after ++ rest))[8]? = some v := by
      rw [List.getElem?_append_right (by omega), h1]; rfl
    have e2 : (before ++ v :: (after ++ rest)).drop 19 = rest := by
      have : before ++ v :: (after ++ rest) = (before ++ v :: after) ++ rest := by simp
      rw [this, List.drop_left']
      simp; omega
    rw [e1, e2]
    rfl
  | str s => exact lit 0x13 s hv rfl (by decide) (by decide) (by decide) (.inl rfl)
  | var s => exact lit 0x1A s hv rfl (by decide) (by decide) (by decide) (.inr rfl)

theorem decompileCalculation_items (is : List Spec.CalcItem) (hv : ∀ i ∈ is, i.Valid fmStringEncrypt) (rest : Bytes) :
    decompileCalculation (is.flatMap (·.bytes fmStringEncrypt) ++ rest) =
      (do return is.flatMap (·.text) ++ (← decompileCalculation rest)) := by
  induction is with
  | nil => simp
  | cons i is ih =>
    rw [List.flatMap_cons, List.append_assoc, decompileCalculation_item i (hv i (by simp)), ih (fun j hj => hv j (by simp [hj]))]
    rw [List.flatMap_cons]
    cases decompileCalculation rest with
    | error e => rfl
    | ok r => simp only [ok_bind, pure_ok, List.append_assoc]

end BurnFm
