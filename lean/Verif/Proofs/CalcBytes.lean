import Verif.Spec.CalcBytes
import Verif.Proofs.DecompileCalc

/-! The decompiler of calculations on any bytes. -/

namespace BurnFm
open Spec

theorem first_high {raw : Bytes} (h : ¬ ∀ b ∈ raw, b.toNat < 128) :
    ∃ a c rest, raw = a ++ c :: rest ∧ (∀ b ∈ a, b.toNat < 128) ∧ 128 ≤ c.toNat := by
  induction raw with
  | nil => exact absurd (by simp) h
  | cons c raw ih =>
    by_cases hc : c.toNat < 128
    · obtain ⟨a, d, rest, rfl, h2, h3⟩ := ih (fun hr => h fun b hb => by
        rcases List.mem_cons.mp hb with rfl | hb
        · exact hc
        · exact hr b hb)
      refine ⟨c :: a, d, rest, rfl, fun b hb => ?_, h3⟩
      rcases List.mem_cons.mp hb with rfl | hb
      · exact hc
      · exact h2 b hb
    · exact ⟨[], c, raw, rfl, by simp, by omega⟩

theorem map_xor_ascii {a : Bytes} (h : ∀ b ∈ a, b.toNat < 128) :
    a.map (· ^^^ (0x5A : UInt8)) = utf8 (a.map fun b => Char.ofNat (b ^^^ 0x5A).toNat) ∧
      ∀ c ∈ a.map (fun b => Char.ofNat (b ^^^ 0x5A).toNat), c.toNat < 128 := by
  have hx : ∀ b ∈ a, (b ^^^ 0x5A).toNat < 128 := fun b hb => (xor_ascii b).mpr (h b hb)
  have hc : ∀ b ∈ a, (Char.ofNat (b ^^^ 0x5A).toNat).toNat = (b ^^^ 0x5A).toNat := fun b hb =>
    char_ofNat_toNat (by have := hx b hb; omega)
  have h2 : ∀ c ∈ a.map (fun b => Char.ofNat (b ^^^ 0x5A).toNat), c.toNat < 128 := by
    intro c hm
    obtain ⟨b, hb, rfl⟩ := List.mem_map.mp hm
    rw [hc b hb]; exact hx b hb
  refine ⟨?_, h2⟩
  rw [utf8_ascii h2, List.map_map]
  apply List.map_congr_left
  intro b hb
  simp only [Function.comp_apply]
  rw [hc b hb]; simp

theorem calcDecrypt_shown (raw : Bytes) : calcDecrypt raw = shownLiteral raw := by
  unfold shownLiteral
  split
  · rename_i h
    unfold calcDecrypt fmStringDecrypt
    rw [latin1_ascii h, (map_xor_ascii h).1, fromUtf8_utf8]
  · rename_i h
    obtain ⟨a, c, rest, rfl, h2, h3⟩ := first_high h
    obtain ⟨x, xr, hx1, hx2, hx3⟩ := latin1_lead c h3
    unfold calcDecrypt fmStringDecrypt
    have key : ∃ rest', (utf8 ((a ++ c :: rest).map fun b => Char.ofNat b.toNat)).map (· ^^^ (0x5A : UInt8)) =
        utf8 (a.map fun b => Char.ofNat (b ^^^ 0x5A).toNat) ++ (x ^^^ 0x5A) :: rest' := by
      rw [List.map_append, utf8_append, latin1_ascii h2, List.map_cons, utf8_cons, hx1, List.map_append, (map_xor_ascii h2).1]
      exact ⟨_, rfl⟩
    obtain ⟨rest', hk⟩ := key
    rw [hk, fromUtf8_none (no_continuation (map_xor_ascii h2).2 hx2 hx3)]

theorem getName_mem {k : UInt8} {t : Str} (h : (k, t) ∈ getArguments) : calcGetName k = t := by
  simp only [getArguments, List.mem_cons, List.not_mem_nil, or_false, Prod.mk.injEq] at h
  rcases h with ⟨rfl, rfl⟩ | ⟨rfl, rfl⟩ | ⟨rfl, rfl⟩ | ⟨rfl, rfl⟩ <;> rfl

theorem getName_none {k : UInt8} (h : k ∉ getArguments.map (·.1)) : calcGetName k = [] := by
  simp only [getArguments, List.map_cons, List.map_nil, List.mem_cons, List.not_mem_nil, or_false, not_or] at h
  simp [calcGetName, h]

theorem bytesItem_decompile {w r : Bytes} {t : Str} (h : BytesItem w t r) :
    decompileCalculation (w ++ r) = (do return t ++ (← decompileCalculation r)) := by
  cases h with
  | symbol h =>
    rw [List.singleton_append, decompileCalculation.eq_def]
    simp only [calcText_symbol h]
  | getArg h =>
    simp only [List.cons_append, List.nil_append]
    rw [decompileCalculation.eq_def]
    simp only [show calcText 0x9C = none from rfl]
    rw [if_pos trivial, getName_mem h]
  | noGetArg h =>
    simp only [List.cons_append, List.nil_append]
    rw [decompileCalculation.eq_def]
    simp only [show calcText 0x9C = none from rfl]
    rw [if_pos trivial, getName_none h]
    simp
  | char =>
    simp only [List.cons_append, List.nil_append]
    rw [decompileCalculation.eq_def]
    simp only [show calcText 0xFB = none from rfl]
    rw [if_neg (by decide), if_pos trivial, if_pos trivial]
    rfl
  | noFunction h =>
    simp only [List.cons_append, List.nil_append]
    rw [decompileCalculation.eq_def]
    simp only [show calcText 0xFB = none from rfl]
    rw [if_neg (by decide), if_pos trivial, if_neg h]
    simp
  | @number before after _ v h1 h2 =>
    have e : (0x10 :: before ++ v :: after) ++ r = 0x10 :: (before ++ v :: (after ++ r)) := by simp
    rw [e, decompileCalculation.eq_def]
    simp only [show calcText 0x10 = none from rfl]
    rw [if_neg (by decide), if_neg (by decide), if_pos trivial]
    have e1 : (before ++ v :: (after ++ r))[8]? = some v := by
      rw [List.getElem?_append_right (by omega), h1]; rfl
    have e2 : (before ++ v :: (after ++ r)).drop 19 = r := by
      have : before ++ v :: (after ++ r) = (before ++ v :: after) ++ r := by simp
      rw [this, List.drop_left']
      simp; omega
    rw [e1, e2]
    rfl
  | @shortNumber before after v h1 h2 =>
    have e : (0x10 :: before ++ v :: after) ++ [] = 0x10 :: (before ++ v :: after) := by simp
    rw [e, decompileCalculation.eq_def]
    simp only [show calcText 0x10 = none from rfl]
    rw [if_neg (by decide), if_neg (by decide), if_pos trivial]
    have e1 : (before ++ v :: after)[8]? = some v := by
      rw [List.getElem?_append_right (by omega), h1]; rfl
    have e2 : (before ++ v :: after).drop 19 = [] := by
      apply List.drop_eq_nil_of_le
      simp; omega
    rw [e1, e2]
    rfl
  | @text n raw _ h =>
    simp only [List.cons_append]
    rw [decompileCalculation.eq_def]
    simp only [show calcText 0x13 = none from rfl]
    rw [if_neg (by decide), if_neg (by decide), if_neg (by decide), if_pos (.inl trivial), ← h, if_pos (by simp), List.take_left,
      List.drop_left, calcDecrypt_shown]
    rfl
  | @varName n raw _ h =>
    simp only [List.cons_append]
    rw [decompileCalculation.eq_def]
    simp only [show calcText 0x1A = none from rfl]
    rw [if_neg (by decide), if_neg (by decide), if_neg (by decide), if_pos (.inr trivial), ← h, if_pos (by simp), List.take_left,
      List.drop_left, calcDecrypt_shown]
    rfl
  | other h1 h2 =>
    rw [List.singleton_append, decompileCalculation.eq_def]
    simp only [calcText_none h1]
    simp only [calcPrefixes, List.mem_cons, List.not_mem_nil, or_false, not_or] at h2
    obtain ⟨a1, a2, a3, a4, a5⟩ := h2
    rw [if_neg a4, if_neg a5, if_neg a1, if_neg (by simp [a2, a3])]
    simp

theorem bytesShow_decompile {bs : Bytes} {t : Str} (h : BytesShow bs t) : decompileCalculation bs = .ok t := by
  induction h with
  | nil => rw [decompileCalculation.eq_def]
  | item h _ ih => rw [bytesItem_decompile h, ih]; rfl

theorem bytesCut_decompile {bs : Bytes} (h : BytesCut bs) : decompileCalculation bs = .error .unwrap := by
  induction h with
  | noMore h =>
    simp only [calcPrefixes, List.mem_cons, List.not_mem_nil, or_false] at h
    rcases h with rfl | rfl | rfl | rfl | rfl <;>
    · rw [decompileCalculation.eq_def]; rfl
  | @number r h =>
    rw [decompileCalculation.eq_def]
    simp only [show calcText 0x10 = none from rfl]
    rw [if_neg (by decide), if_neg (by decide), if_pos trivial, List.getElem?_eq_none (by omega)]
  | @literal b n raw hb h =>
    rcases hb with rfl | rfl
    · rw [decompileCalculation.eq_def]
      simp only [show calcText 0x13 = none from rfl]
      rw [if_neg (by decide), if_neg (by decide), if_neg (by decide), if_pos (.inl trivial), if_neg (by omega)]
    · rw [decompileCalculation.eq_def]
      simp only [show calcText 0x1A = none from rfl]
      rw [if_neg (by decide), if_neg (by decide), if_neg (by decide), if_pos (.inr trivial), if_neg (by omega)]
  | later h _ ih => rw [bytesItem_decompile h, ih]; rfl

theorem bytes_or (bs : Bytes) : (∃ t, BytesShow bs t) ∨ BytesCut bs := by
  induction hn : bs.length using Nat.strongRecOn generalizing bs with
  | _ m ih =>
    have go : ∀ (w r : Bytes) (t : Str), bs = w ++ r → w ≠ [] → BytesItem w t r → (∃ t, BytesShow bs t) ∨ BytesCut bs := by
      rintro w r t rfl hw h
      have hw := List.length_pos_iff.mpr hw
      rw [List.length_append] at hn
      rcases ih r.length (by omega) r rfl with ⟨u, hu⟩ | hu
      · exact .inl ⟨_, .item h hu⟩
      · exact .inr (.later h hu)
    cases bs with
    | nil => exact .inl ⟨_, .nil⟩
    | cons b r =>
      by_cases h1 : b ∈ calcSymbols.map (·.1)
      · obtain ⟨⟨b', t⟩, h1', rfl⟩ := List.mem_map.mp h1
        exact go [_] r t rfl (by simp) (.symbol h1')
      by_cases h2 : b ∈ calcPrefixes
      · cases r with
        | nil => exact .inr (.noMore h2)
        | cons k r =>
          have lit : (∃ raw r', r = raw ++ r' ∧ raw.length = k.toNat) ∨ r.length < k.toNat := by
            by_cases hl : r.length < k.toNat
            · exact .inr hl
            · exact .inl ⟨r.take k.toNat, r.drop k.toNat, by simp, by rw [List.length_take]; omega⟩
          simp only [calcPrefixes, List.mem_cons, List.not_mem_nil, or_false] at h2
          rcases h2 with rfl | rfl | rfl | rfl | rfl
          · by_cases h9 : (k :: r).length < 9
            · exact .inr (.number h9)
            · generalize k :: r = q at *
              obtain ⟨before, v, q', rfl, hb⟩ : ∃ before v q', q = before ++ v :: q' ∧ before.length = 8 := by
                refine ⟨q.take 8, q[8]'(by omega), q.drop 9, ?_, by rw [List.length_take]; omega⟩
                rw [List.getElem_cons_drop, List.take_append_drop]
              by_cases h10 : q'.length < 10
              · exact go (0x10 :: before ++ v :: q') [] _ (by simp) (by simp) (.shortNumber hb h10)
              · refine go (0x10 :: before ++ v :: q'.take 10) (q'.drop 10) _ ?_ (by simp) (.number hb (by rw [List.length_take]; omega))
                simp
          · rcases lit with ⟨raw, r', rfl, hr⟩ | hr
            · exact go (0x13 :: k :: raw) r' _ (by simp) (by simp) (.text hr)
            · exact .inr (.literal (.inl rfl) hr)
          · rcases lit with ⟨raw, r', rfl, hr⟩ | hr
            · exact go (0x1A :: k :: raw) r' _ (by simp) (by simp) (.varName hr)
            · exact .inr (.literal (.inr rfl) hr)
          · by_cases hk : k ∈ getArguments.map (·.1)
            · obtain ⟨⟨k', t⟩, hk', rfl⟩ := List.mem_map.mp hk
              exact go [0x9C, _] r t rfl (by simp) (.getArg hk')
            · exact go [0x9C, k] r [] rfl (by simp) (.noGetArg hk)
          · by_cases hk : k = 3
            · subst hk; exact go [0xFB, 3] r _ rfl (by simp) .char
            · exact go [0xFB, k] r [] rfl (by simp) (.noFunction hk)
      · exact go [b] r [] rfl (by simp) (.other h1 h2)

theorem bytesShow_iff (bs : Bytes) (t : Str) : decompileCalculation bs = .ok t ↔ BytesShow bs t := by
  constructor
  · intro h
    rcases bytes_or bs with ⟨u, hu⟩ | hu
    · have := bytesShow_decompile hu
      rw [h] at this; cases this; exact hu
    · have := bytesCut_decompile hu
      rw [h] at this; cases this
  · exact bytesShow_decompile

theorem bytesCut_iff (bs : Bytes) (p : Panic) : decompileCalculation bs = .error p ↔ p = .unwrap ∧ BytesCut bs := by
  constructor
  · intro h
    rcases bytes_or bs with ⟨u, hu⟩ | hu
    · have := bytesShow_decompile hu
      rw [h] at this; cases this
    · have := bytesCut_decompile hu
      rw [h] at this; cases this; exact ⟨rfl, hu⟩
  · rintro ⟨rfl, h⟩
    exact bytesCut_decompile h

end BurnFm
