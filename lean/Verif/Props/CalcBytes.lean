import Verif.Proofs.CalcBytes
import Verif.Props.DecompileCalc
import Verif.Props.CalcWords

/-! Property C148: which text the bytes of a stored calculation give, for all bytes. -/

namespace BurnFm.Props
open Spec

/-- C148: the bytes of a calculation are shown as exactly the text of the specification. -/
theorem stored_text_iff (bs : Bytes) (t : Str) : decompileCalculation bs = .ok t ↔ BytesShow bs t := bytesShow_iff bs t

/-- C148: and the decompiler crashes exactly if they end within an item. -/
theorem stored_text_cut_iff (bs : Bytes) (p : Panic) : decompileCalculation bs = .error p ↔ p = .unwrap ∧ BytesCut bs :=
  bytesCut_iff bs p

/-- C148: bytes are shown in exactly one way, or they end within an item. -/
theorem stored_text_unique (bs : Bytes) : (∃! t, BytesShow bs t) ∧ ¬ BytesCut bs ∨ (∀ t, ¬ BytesShow bs t) ∧ BytesCut bs := by
  cases h : decompileCalculation bs with
  | ok t =>
    refine .inl ⟨⟨t, (stored_text_iff bs t).mp h, fun u hu => ?_⟩, fun hc => ?_⟩
    · have := (stored_text_iff bs u).mpr hu
      rw [h] at this; cases this; rfl
    · have := (stored_text_cut_iff bs .unwrap).mpr ⟨rfl, hc⟩
      rw [h] at this; cases this
  | error p =>
    refine .inr ⟨fun u hu => ?_, ((stored_text_cut_iff bs p).mp h).2⟩
    have := (stored_text_iff bs u).mpr hu
    rw [h] at this; cases this

/-- C148: complete items are among them. -/
theorem stored_items_show (is : List CalcItem) (hv : ∀ i ∈ is, i.Valid fmStringEncrypt) :
    BytesShow (is.flatMap (·.bytes fmStringEncrypt)) (is.flatMap (·.text)) := (stored_text_iff _ _).mp (calculation_items is hv)

/-- C148: the value of stored bytes, for all bytes: they are shown as a text, the text is cut into words, the words are read as an
expression, and the expression has this value. -/
theorem stored_value_exact [Rt] (env : CalcEnv) (bs : Bytes) (v : Str) :
    (∃ text fuel, decompileCalculation bs = .ok text ∧ evalCalc env fuel text = .ok v) ↔
      ∃ text ts e, BytesShow bs text ∧ CutInto text ts ∧ Calculation ts e ∧ Means env e v := by
  constructor
  · rintro ⟨text, fuel, h1, h2⟩
    obtain ⟨ts, e, h3, h4, h5⟩ := (text_means_exact env text v).mp ⟨fuel, h2⟩
    exact ⟨text, ts, e, (stored_text_iff bs text).mp h1, h3, h4, h5⟩
  · rintro ⟨text, ts, e, h1, h2, h3, h4⟩
    obtain ⟨fuel, h⟩ := (text_means_exact env text v).mpr ⟨ts, e, h2, h3, h4⟩
    exact ⟨text, fuel, (stored_text_iff bs text).mpr h1, h⟩

/-- C148: the length of a stored text is counted in bytes, and one byte that is not ASCII hides the whole text. -/
theorem stored_literal_hidden (n : UInt8) (raw : Bytes) (b : UInt8) (h : raw.length = n.toNat) (hb : b ∈ raw) (h' : 128 ≤ b.toNat) :
    decompileCalculation (0x1A :: n :: raw) = .ok t!"value not utf-8." := by
  rw [stored_text_iff]
  have e : shownLiteral raw = t!"value not utf-8." := by
    unfold shownLiteral
    rw [if_neg]
    intro hall
    have := hall b hb
    omega
  have := BytesShow.item (BytesItem.varName (r := []) h) .nil
  rw [e] at this
  simpa using this

/-- A number that is cut off after its ninth byte, behind an operator and a byte that means nothing. -/
example : BytesShow [0x25, 0x00, 0x10, 0, 0, 0, 0, 0, 0, 0, 0, 7, 0] t!"+7" :=
  .item (w := [0x25]) (t := t!"+") (.symbol (by decide))
    (.item (w := [0x00]) (t := []) (.other (by decide) (by decide))
      (.item (w := [0x10, 0, 0, 0, 0, 0, 0, 0, 0, 7, 0]) (t := t!"7") (r := [])
        (.shortNumber (before := [0, 0, 0, 0, 0, 0, 0, 0]) (after := [0]) rfl (by decide)) .nil))

example : BytesCut [0x25, 0x13, 2, 0x3B] :=
  .later (w := [0x25]) (.symbol (t := t!"+") (by decide)) (.literal (.inl rfl) (by decide))

example : decompileCalculation [0x1A, 2, 0x3B, 0xC3] = .ok t!"value not utf-8." :=
  stored_literal_hidden 2 [0x3B, 0xC3] 0xC3 rfl (by simp) (by decide)

end BurnFm.Props
