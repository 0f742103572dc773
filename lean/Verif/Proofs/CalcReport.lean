import Verif.Spec.CalcReport
import Verif.Proofs.CalcBytes
import Verif.Proofs.DecompilerLines

/-! The reports of unknown functions for any bytes. -/

namespace BurnFm
open Spec

theorem unknownCall_zero {b : UInt8} (l : Bytes) (h : b ≠ 0xFB) : unknownCall (b :: l) = 0 := by
  unfold unknownCall
  split
  · rename_i e; cases e; simp [h]
  · rfl

theorem unknownCall_one (b : UInt8) : unknownCall [b] = 0 := rfl

theorem bytesItem_lines {w r : Bytes} {t : Str} (h : BytesItem w t r) :
    calcLines (w ++ r) = List.replicate (unknownCall w) .intrinsic ++ calcLines r := by
  cases h with
  | symbol h =>
    rw [List.singleton_append, calcLines.eq_def]
    simp only [calcText_symbol h, unknownCall_one]
    rfl
  | getArg h =>
    simp only [List.cons_append, List.nil_append]
    rw [calcLines.eq_def]
    simp only [show calcText 0x9C = none from rfl]
    rw [if_pos trivial, unknownCall_zero _ (by decide)]
    rfl
  | noGetArg h =>
    simp only [List.cons_append, List.nil_append]
    rw [calcLines.eq_def]
    simp only [show calcText 0x9C = none from rfl]
    rw [if_pos trivial, unknownCall_zero _ (by decide)]
    rfl
  | char =>
    simp only [List.cons_append, List.nil_append]
    rw [calcLines.eq_def]
    simp only [show calcText 0xFB = none from rfl]
    rw [if_neg (by decide), if_pos trivial, if_pos trivial]
    rfl
  | noFunction h =>
    simp only [List.cons_append, List.nil_append]
    rw [calcLines.eq_def]
    simp only [show calcText 0xFB = none from rfl]
    rw [if_neg (by decide), if_pos trivial, if_neg h]
    simp [unknownCall, h]
  | @number before after _ v h1 h2 =>
    have e : (0x10 :: before ++ v :: after) ++ r = 0x10 :: (before ++ v :: (after ++ r)) := by simp
    rw [e, calcLines.eq_def]
    simp only [show calcText 0x10 = none from rfl]
    rw [if_neg (by decide), if_neg (by decide), if_pos trivial]
    have e1 : (before ++ v :: (after ++ r))[8]? = some v := by
      rw [List.getElem?_append_right (by omega), h1]; rfl
    have e2 : (before ++ v :: (after ++ r)).drop 19 = r := by
      have : before ++ v :: (after ++ r) = (before ++ v :: after) ++ r := by simp
      rw [this, List.drop_left']
      simp; omega
    rw [e1, e2, List.cons_append, unknownCall_zero _ (by decide)]
    rfl
  | @shortNumber before after v h1 h2 =>
    have e : (0x10 :: before ++ v :: after) ++ [] = 0x10 :: (before ++ v :: after) := by simp
    rw [e, calcLines.eq_def]
    simp only [show calcText 0x10 = none from rfl]
    rw [if_neg (by decide), if_neg (by decide), if_pos trivial]
    have e1 : (before ++ v :: after)[8]? = some v := by
      rw [List.getElem?_append_right (by omega), h1]; rfl
    have e2 : (before ++ v :: after).drop 19 = [] := by
      apply List.drop_eq_nil_of_le
      simp; omega
    rw [e1, e2, List.cons_append, unknownCall_zero _ (by decide)]
    rfl
  | @text n raw _ h =>
    simp only [List.cons_append]
    rw [calcLines.eq_def]
    simp only [show calcText 0x13 = none from rfl]
    rw [if_neg (by decide), if_neg (by decide), if_neg (by decide), if_pos (.inl trivial), ← h, if_pos (by simp), 
      List.drop_left, unknownCall_zero _ (by decide)]
    rfl
  | @varName n raw _ h =>
    simp only [List.cons_append]
    rw [calcLines.eq_def]
    simp only [show calcText 0x1A = none from rfl]
    rw [if_neg (by decide), if_neg (by decide), if_neg (by decide), if_pos (.inr trivial), ← h, if_pos (by simp), 
      List.drop_left, unknownCall_zero _ (by decide)]
    rfl
  | other h1 h2 =>
    rw [List.singleton_append, calcLines.eq_def]
    simp only [calcText_none h1]
    simp only [calcPrefixes, List.mem_cons, List.not_mem_nil, or_false, not_or] at h2
    obtain ⟨a1, a2, a3, a4, a5⟩ := h2
    rw [if_neg a4, if_neg a5, if_neg a1, if_neg (by simp [a2, a3]), unknownCall_one]
    rfl


theorem cutHere_lines {bs : Bytes} (h : CutHere bs) : calcLines bs = [] := by
  cases h with
  | noMore h =>
    simp only [calcPrefixes, List.mem_cons, List.not_mem_nil, or_false] at h
    rcases h with rfl | rfl | rfl | rfl | rfl <;>
    · rw [calcLines.eq_def]; rfl
  | @number r h =>
    rw [calcLines.eq_def]
    simp only [show calcText 0x10 = none from rfl]
    rw [if_neg (by decide), if_neg (by decide), if_pos trivial, List.getElem?_eq_none (by omega)]
  | @literal b n raw hb h =>
    rcases hb with rfl | rfl
    · rw [calcLines.eq_def]
      simp only [show calcText 0x13 = none from rfl]
      rw [if_neg (by decide), if_neg (by decide), if_neg (by decide), if_pos (.inl trivial), if_neg (by omega)]
    · rw [calcLines.eq_def]
      simp only [show calcText 0x1A = none from rfl]
      rw [if_neg (by decide), if_neg (by decide), if_neg (by decide), if_pos (.inr trivial), if_neg (by omega)]

theorem bytesReport_lines {bs : Bytes} {n : Nat} (h : BytesReport bs n) : calcLines bs = List.replicate n .intrinsic := by
  induction h with
  | nil => rw [calcLines.eq_def]; rfl
  | cut h => rw [cutHere_lines h]; rfl
  | item h _ ih => rw [bytesItem_lines h, ih, List.replicate_append_replicate]

theorem bytesShow_report {bs : Bytes} {t : Str} (h : BytesShow bs t) : ∃ n, BytesReport bs n := by
  induction h with
  | nil => exact ⟨0, .nil⟩
  | item h _ ih => obtain ⟨n, hn⟩ := ih; exact ⟨_, .item h hn⟩

theorem bytesCut_report {bs : Bytes} (h : BytesCut bs) : ∃ n, BytesReport bs n := by
  induction h with
  | noMore h => exact ⟨0, .cut (.noMore h)⟩
  | number h => exact ⟨0, .cut (.number h)⟩
  | literal h h' => exact ⟨0, .cut (.literal h h')⟩
  | later h _ ih => obtain ⟨n, hn⟩ := ih; exact ⟨_, .item h hn⟩

end BurnFm
