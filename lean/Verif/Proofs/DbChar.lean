import Verif.Model.DbChar
import Verif.Spec.DbChar

/-! Helper lemmas for `Verif/Props/DbChar.lean`. -/

namespace BurnFm

theorem asciiLower_eq (c : Char) : asciiLower c = c.toLower := by
  unfold asciiLower Char.toLower
  have h1 : ('A' ≤ c ∧ c ≤ 'Z') ↔ (c.val ≥ 'A'.val ∧ c.val ≤ 'Z'.val) := Iff.rfl
  by_cases h : c.val ≥ 'A'.val ∧ c.val ≤ 'Z'.val
  · rw [if_pos (h1.mpr h), dif_pos h]
    apply Char.ext
    apply UInt32.toNat_inj.mp
    have h2 : c.val.toNat ≤ 90 := by simpa [UInt32.le_iff_toNat_le] using h.2
    have h4 : c.toNat = c.val.toNat := rfl
    have hv : (c.toNat + 32).isValidChar := by left; omega
    have h3 : (Char.ofNat (c.toNat + 32)).toNat = c.toNat + 32 := by simp [Char.ofNat, hv]; rfl
    show (Char.ofNat (c.toNat + 32)).toNat = _
    rw [h3]
    show c.toNat + 32 = (c.val + ('a'.val - 'A'.val)).toNat
    rw [UInt32.toNat_add, h4]
    have : ('a'.val - 'A'.val).toNat = 32 := rfl
    omega
  · rw [if_neg (fun h' => h (h1.mp h')), dif_neg h]

theorem table_ok : ∀ e ∈ encodingMapping, decodeChar e.1 e.2.1 = e.2.2 ∧ Spec.storable e.2.2 := by decide

theorem storable_in_table (c : Char) (h : Spec.storable c) : ∃ e ∈ encodingMapping, e.2.2 = c := by
  rcases h with h | h | h | ⟨h1, h2⟩
  · subst h; decide
  · subst h; decide
  · subst h; decide
  · have h1' : 97 ≤ c.toNat := h1
    have h2' : c.toNat ≤ 122 := h2
    have hc : c = Char.ofNat c.toNat := by rw [Char.ofNat_toNat]
    have key : ∀ n : Fin 123, 97 ≤ n.val → ∃ e ∈ encodingMapping, e.2.2 = Char.ofNat n.val := by decide
    obtain ⟨e, he, h⟩ := key ⟨c.toNat, by omega⟩ h1'
    exact ⟨e, he, by rw [h, ← hc]⟩

theorem decode_encodeChar (c : Char) :
    decodeChar (encodeChar c).1 (encodeChar c).2 = Spec.stored c := by
  unfold encodeChar Spec.stored
  rw [asciiLower_eq]
  cases h : encodingMapping.find? (fun e => e.2.2 == c.toLower) with
  | none =>
    have hn : ¬ Spec.storable c.toLower := by
      intro hs
      obtain ⟨e, he, h2⟩ := storable_in_table _ hs
      have := List.find?_eq_none.mp h e he
      simp [h2] at this
    rw [if_neg hn]; rfl
  | some e =>
    have hm := List.mem_of_find?_eq_some h
    have hp := List.find?_some h
    have he : e.2.2 = c.toLower := by simpa using hp
    obtain ⟨h1, h2⟩ := table_ok e hm
    rw [he] at h1 h2
    rw [if_pos h2]; exact h1

theorem decodePairs_encodeText (s : Str) : decodePairs (encodeText s) = s.map Spec.stored := by
  induction s with
  | nil => rfl
  | cons c s ih =>
    rw [encodeText, List.flatMap_cons] at *
    simp only [List.cons_append, List.nil_append, decodePairs, List.map_cons, ih, decode_encodeChar]

theorem decodePairs_eq (b : Bytes) : decodePairs b = (Spec.pairs b).map fun p => decodeChar p.1 p.2 := by
  fun_induction decodePairs b with
  | case1 a b rest ih => simp [Spec.pairs, ih]
  | case2 x h =>
    cases x with
    | nil => rfl
    | cons a x =>
      cases x with
      | nil => rfl
      | cons b x => exact absurd rfl (h a b x)

theorem decodeChar_nul (h l : UInt8) : decodeChar h l = '\x00' ↔ (h, l) = (0, 0) := by
  constructor
  · intro hd
    unfold decodeChar at hd
    cases hf : encodingMapping.find? (fun e => e.1 == h && e.2.1 == l) with
    | none => rw [hf] at hd; exact absurd hd (by decide)
    | some e =>
      rw [hf] at hd
      have hm := List.mem_of_find?_eq_some hf
      have hp := List.find?_some hf
      have key : ∀ e ∈ encodingMapping, e.2.2 = '\x00' → e.1 = 0 ∧ e.2.1 = 0 := by decide
      have h3 := key e hm hd
      simp at hp
      rw [← hp.1, ← hp.2, h3.1, h3.2]
  · intro hp; cases hp; rfl

end BurnFm
