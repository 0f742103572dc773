import Verif.Proofs.CalcReport
import Verif.Props.CalcBytes

/-! Property C134 for all bytes: the reports of unknown functions in a stored calculation. -/

namespace BurnFm.Props
open Spec

/-- C134: for any bytes of a stored calculation, each function that is not known is reported, once, up to the item that the bytes end
within, if any. -/
theorem unknown_functions_exact (bs : Bytes) (n : Nat) : calcLines bs = List.replicate n .intrinsic ↔ BytesReport bs n := by
  constructor
  · intro h
    have hm : ∃ m, BytesReport bs m := by
      rcases bytes_or bs with ⟨t, ht⟩ | hc
      · exact bytesShow_report ht
      · exact bytesCut_report hc
    obtain ⟨m, hm⟩ := hm
    rw [bytesReport_lines hm] at h
    have := congrArg List.length h
    simp only [List.length_replicate] at this
    exact this ▸ hm
  · exact bytesReport_lines

/-- C134: nothing else is written while a calculation is decompiled, so every calculation has exactly one number of reports. -/
theorem unknown_functions_unique (bs : Bytes) : ∃! n, BytesReport bs n := by
  have hm : ∃ m, BytesReport bs m := by
    rcases bytes_or bs with ⟨t, ht⟩ | hc
    · exact bytesShow_report ht
    · exact bytesCut_report hc
  obtain ⟨m, hm⟩ := hm
  refine ⟨m, hm, fun k hk => ?_⟩
  have h := bytesReport_lines hk
  rw [bytesReport_lines hm] at h
  simpa using (congrArg List.length h).symm

/-- Two unknown functions and `Char`, before a text that is cut off. -/
example : BytesReport [0xFB, 7, 0xFB, 3, 0xFB, 8, 0x13, 5, 65] 2 :=
  .item (w := [0xFB, 7]) (n := 1) (.noFunction (by decide)) (.item (w := [0xFB, 3]) (n := 1) .char
    (.item (w := [0xFB, 8]) (n := 0) (.noFunction (by decide)) (.cut (.literal (.inl rfl) (by decide)))))

end BurnFm.Props
