import Verif.Proofs.ChunkFormat

/-! Properties C63, C64: reading integers, and reading files written in the chunk format. -/

namespace BurnFm.Props
open Spec

/-- C63: `get_int` reads one, two and four bytes as a big-endian number, and any other number of bytes as 0. -/
theorem get_int_big_endian (bytes : Bytes) :
    getInt bytes = if bytes.length = 1 ∨ bytes.length = 2 ∨ bytes.length = 4
      then bytes.foldl (fun n b => 256 * n + b.toNat) 0 else 0 := by
  match bytes with
  | [] => rfl
  | [a] => simp [getInt]
  | [a, b] => simp [getInt_two]
  | [a, b, c] => rfl
  | [a, b, c, d] =>
    simp only [getInt, List.length_cons, List.length_nil, List.foldl_cons, List.foldl_nil, Nat.shiftLeft_eq]
    rw [if_pos (by decide)]
    omega
  | a :: b :: c :: d :: e :: l => rw [if_neg (by simp)]; rfl

example : getInt [1, 2, 3, 4] = 16909060 := by rw [get_int_big_endian]; rfl

/-- C64: a chunk written in the format, anywhere in a buffer, is decoded to exactly its meaning, and the decoder
consumes exactly its bytes. -/
theorem chunk_format_exact (p : Profile) (pre bytes post : Bytes) (b : UInt8) (path : DirPath) (loc : Nat)
    (w : Option What) (n : Nat) (h : ChunkFormat (opcode b) bytes w n) :
    ∃ ch, getChunk p (pre ++ b :: (bytes ++ post)) pre.length path loc =
        .ok (.ok ch (pre.length + (1 + bytes.length)) (pathAfter b n path)) ∧
      meaning ch = w ∧ ch.path = pathAfter b n path :=
  format_decodes h p pre post path loc

/-- C64 for sequences of chunks. -/
theorem chunk_sequence_exact (p : Profile) (loc : Nat) (path path' : DirPath) (bytes : Bytes) (evs : List Event)
    (h : FormatRun path bytes evs path') (pre post : Bytes) :
    ∃ chs, Decodes p (pre ++ (bytes ++ post)) loc pre.length path chs (pre.length + bytes.length) path' ∧
      eventsOf chs = evs := by
  induction h generalizing pre with
  | nil path => exact ⟨[], .nil _ _, rfl⟩
  | @cons path path' b bytes rest w n evs h1 _ ih =>
    obtain ⟨ch, h2, h3, h4⟩ := chunk_format_exact p pre bytes (rest ++ post) b path loc w n h1
    obtain ⟨chs, h5, h6⟩ := ih (pre ++ b :: bytes)
    refine ⟨ch :: chs, .cons (o₁ := pre.length + (1 + bytes.length)) (path₁ := pathAfter b n path) ?_ (by omega) ?_, ?_⟩
    · rw [← h2]; simp
    · have e1 : pre ++ b :: bytes ++ (rest ++ post) = pre ++ (b :: bytes ++ rest ++ post) := by simp
      have e2 : (pre ++ b :: bytes).length = pre.length + (1 + bytes.length) := by simp; omega
      have e3 : (pre ++ b :: bytes).length + rest.length = pre.length + (b :: bytes ++ rest).length := by simp; omega
      rw [e3, e1, e2] at h5
      exact h5
    · unfold eventsOf at h6 ⊢
      rw [List.filterMap_cons, h3, h4, h6]
      cases w <;> rfl

/-- Enter directory 3, then a delayed pop on a two-byte value with key 16, then a segment. -/
example : FormatRun [] [0x20, 3, 0xC2, 16, 65, 66, 0x07, 1, 0, 1, 9]
    [⟨[3], .push⟩, ⟨[], .kv 16 [65, 66]⟩, ⟨[], .segment 1 [9]⟩] [] :=
  .cons (b := 0x20) (bytes := [3]) (.push1 3 (by decide))
    (.cons (b := 0xC2) (bytes := [16, 65, 66]) (.shortKv 1 16 [65, 66] (by decide) rfl)
      (.cons (b := 0x07) (bytes := [1, 0, 1, 9]) (.segment 1 0 1 [9] rfl) (.nil _)))

end BurnFm.Props
