import Verif.Proofs.DecompileCalc

/-! Property C20: calculation bytecode. -/

namespace BurnFm.Props

/-- C20: the text of a sequence of complete items is the concatenation of the texts of the items. -/
theorem calculation_items (is : List Spec.CalcItem) (hv : ∀ i ∈ is, i.Valid fmStringEncrypt) :
    decompileCalculation (is.flatMap (·.bytes fmStringEncrypt)) = .ok (is.flatMap (·.text)) := by
  have := decompileCalculation_items is hv []
  rw [List.append_nil] at this
  rw [this, decompileCalculation]
  simp [ok_bind, pure_ok]

/-- C20: what follows complete items does not change their text, and a failure in it is reported. -/
theorem calculation_compositional (is : List Spec.CalcItem) (hv : ∀ i ∈ is, i.Valid fmStringEncrypt) (rest : Bytes) (t : Str) :
    decompileCalculation (is.flatMap (·.bytes fmStringEncrypt) ++ rest) = .ok t ↔
      ∃ t', decompileCalculation rest = .ok t' ∧ t = is.flatMap (·.text) ++ t' := by
  rw [decompileCalculation_items is hv, bind_ok]
  simp only [pure_ok, Except.ok.injEq]
  constructor
  · rintro ⟨a, h1, h2⟩; exact ⟨a, h1, h2.symm⟩
  · rintro ⟨a, h1, h2⟩; exact ⟨a, h1, h2.symm⟩

/-- C20: a string literal comes back verbatim exactly when it is ASCII (or happens to be the marker text). -/
theorem calculation_string (s : Str) (h : (fmStringEncrypt s).length ≤ 255) :
    decompileCalculation (0x13 :: UInt8.ofNat (fmStringEncrypt s).length :: fmStringEncrypt s) =
      .ok (['"'] ++ (if ∀ c ∈ s, c.toNat < 128 then s else t!"value not utf-8.") ++ ['"']) := by
  have := calculation_items [.str s] (by simpa [Spec.CalcItem.Valid] using h)
  simpa [Spec.CalcItem.bytes, Spec.CalcItem.text, Spec.literalText] using this

/-- C20: a string literal cut short makes the decompiler panic. -/
theorem calculation_truncated (n : UInt8) (raw : Bytes) (h : raw.length < n.toNat) :
    decompileCalculation (0x13 :: n :: raw) = .error .unwrap ∧ decompileCalculation (0x1A :: n :: raw) = .error .unwrap := by
  constructor <;> rw [decompileCalculation.eq_def] <;> simp [calcText] <;> omega

example : ∀ i ∈ [Spec.CalcItem.var t!"$i", .symbol 0x25 t!"+", .number (List.replicate 8 0) 7 (List.replicate 10 0), .str t!"ok"],
    i.Valid fmStringEncrypt := by
  simp [Spec.CalcItem.Valid, Spec.calcSymbols]
  decide
example : (fmStringEncrypt t!"héllo").length ≤ 255 := by decide
example : ([1, 2] : Bytes).length < (3 : UInt8).toNat := by decide

end BurnFm.Props
