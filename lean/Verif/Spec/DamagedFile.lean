import Verif.Base

/-! Damaged copies of a file. -/

namespace BurnFm.Spec

/-- `part` is what is left of `whole` if copying stopped early, at any byte. -/
def CutOff (whole part : Bytes) : Prop := ∃ lost, whole = part ++ lost

/-- The files differ at most in their first sector of 4096 bytes, which holds the signature of the file format. -/
def SameAfterFirstSector (a b : Bytes) : Prop := 4096 ≤ a.length ∧ 4096 ≤ b.length ∧ a.drop 4096 = b.drop 4096

/-- The signature `HBAM7` that the format has at byte 15. -/
def HasSignature (buf : Bytes) : Prop := (buf.drop 15).take 5 = [72, 66, 65, 77, 55]

instance (buf : Bytes) : Decidable (HasSignature buf) := by unfold HasSignature; infer_instance

end BurnFm.Spec
