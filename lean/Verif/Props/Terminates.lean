import Verif.Proofs.Terminates

/-! Property C17: termination of the decompiler. `decompile p buf fuel = .ok none` means that `fuel` was not
enough to finish; the program runs forever when this is so for every `fuel`. -/

namespace BurnFm.Props

/-- A result, or a panic, does not depend on the fuel. -/
theorem decompile_fuel_irrelevant (p : Profile) (buf : Bytes) (m n : Nat) (hm : decompile p buf m ≠ .ok none)
    (hn : decompile p buf n ≠ .ok none) : decompile p buf m = decompile p buf n := by
  have h1 := decompile_mono rfl hm (max m n) (by omega)
  have h2 := decompile_mono rfl hn (max m n) (by omega)
  rw [← h1, ← h2]

/-- C17, proved for files whose sector links lead to the end marker and which contain no segment opcode without
its second byte where a chunk starts. Missing: all other files, where it can be false (`decompile_terminates_refuted`). -/
theorem decompile_terminates_partial (p : Profile) (buf : Bytes) (hc : Spec.ChainEnds buf 2) (hs : NoBareSegment p buf) :
    ∃ fuel, decompile p buf fuel ≠ .ok none := by
  cases hg : getSector buf 4096 with
  | error e => exact ⟨0, by unfold decompile; rw [hg]; intro h; cases h⟩
  | ok first =>
    obtain ⟨fuel, hf⟩ := fileLoop_terminates p buf first.next hs hc
    refine ⟨fuel, ?_⟩
    unfold decompile
    rw [hg, ok_bind]
    intro h
    cases hl : fileLoop p buf first.next fuel 2 {} with
    | error e => rw [hl] at h; cases h
    | ok o =>
      rw [hl, ok_bind] at h
      cases o with
      | none => exact hf {} hl
      | some st =>
        dsimp only at h
        cases ha : assembleScripts st with
        | error e => rw [ha] at h; cases h
        | ok f => rw [ha] at h; cases h

theorem zeros_length (n : Nat) : (Spec.zeros n).length = n := List.length_replicate

/-- A file of three sectors. `extra` is the start of the content of the last one, `link` its link. -/
def threeSectors (link : UInt8) (extra : Bytes) : Bytes :=
  Spec.zeros 4104 ++ ([0, 0, 0, 2] ++ (Spec.zeros 4092 ++ ([0, 0, 0, link] ++ (Spec.zeros 8 ++
    (extra ++ Spec.zeros (4076 - extra.length))))))

theorem threeSectors_spec (link : UInt8) (extra : Bytes) (h : extra.length ≤ 4076) :
    (threeSectors link extra).length = 12288 ∧ Spec.be32 (threeSectors link extra) 4104 = 2 ∧
    Spec.be32 (threeSectors link extra) 8200 = link.toNat ∧
    ∀ k : Nat, (threeSectors link extra)[8212 + k]? = (extra ++ Spec.zeros (4076 - extra.length))[k]? := by
  refine ⟨?_, ?_, ?_, ?_⟩
  · simp [threeSectors, zeros_length]; omega
  · have g : ∀ k, k < 4 → (threeSectors link extra).getD (4104 + k) 0 = ([0, 0, 0, 2] : Bytes).getD k 0 := by
      intro k hk
      rw [List.getD_eq_getElem?_getD, List.getD_eq_getElem?_getD]
      unfold threeSectors
      rw [List.getElem?_append_right (by simp [zeros_length] <;> omega), zeros_length, List.getElem?_append_left (by simp [zeros_length] <;> omega)]
      rw [Nat.add_sub_cancel_left]
    unfold Spec.be32
    rw [show (4104 : Nat) = 4104 + 0 from rfl, g 0 (by omega), Nat.add_assoc, Nat.add_assoc, Nat.add_assoc,
      g 1 (by omega), g 2 (by omega), g 3 (by omega)]
    decide
  · have g : ∀ k, k < 4 → (threeSectors link extra).getD (8200 + k) 0 = ([0, 0, 0, link] : Bytes).getD k 0 := by
      intro k hk
      rw [List.getD_eq_getElem?_getD, List.getD_eq_getElem?_getD]
      unfold threeSectors
      rw [List.getElem?_append_right (by simp [zeros_length] <;> omega), zeros_length, List.getElem?_append_right (by simp [zeros_length] <;> omega),
        List.getElem?_append_right (by simp [zeros_length] <;> omega), List.getElem?_append_left (by simp [zeros_length] <;> omega)]
      rw [show 8200 + k - 4104 - ([0, 0, 0, 2] : Bytes).length - (Spec.zeros 4092).length = k by
        rw [zeros_length, List.length_cons, List.length_cons, List.length_cons, List.length_cons, List.length_nil]; omega]
    unfold Spec.be32
    rw [show (8200 : Nat) = 8200 + 0 from rfl, g 0 (by omega), Nat.add_assoc, Nat.add_assoc, Nat.add_assoc,
      g 1 (by omega), g 2 (by omega), g 3 (by omega)]
    simp
  · intro k
    unfold threeSectors
    rw [List.getElem?_append_right (by simp [zeros_length] <;> omega), zeros_length, List.getElem?_append_right (by simp [zeros_length] <;> omega),
      List.getElem?_append_right (by simp [zeros_length] <;> omega), List.getElem?_append_right (by simp [zeros_length] <;> omega), List.getElem?_append_right (by simp [zeros_length] <;> omega)]
    rw [show 8212 + k - 4104 - ([0, 0, 0, 2] : Bytes).length - (Spec.zeros 4092).length -
        ([0, 0, 0, link] : Bytes).length - (Spec.zeros 8).length = k by
      rw [zeros_length, zeros_length]; simp only [List.length_cons, List.length_nil]; omega]

example (p : Profile) : Spec.ChainEnds (threeSectors 0 [0x20, 3, 1, 7, 7, 7, 7]) 2 ∧
    NoBareSegment p (threeSectors 0 [0x20, 3, 1, 7, 7, 7, 7]) := by
  constructor
  · refine .next ?_
    have : Spec.nextSector (threeSectors 0 [0x20, 3, 1, 7, 7, 7, 7]) 2 = 0 := (threeSectors_spec 0 _ (by simp)).2.2.1
    rw [this]
    exact .zero
  · intro i o path _ h
    have key : ∀ x ∈ threeSectors 0 [0x20, 3, 1, 7, 7, 7, 7], x ≠ 0x0F ∧ x ≠ 0xCF := by
      intro x hx
      simp only [threeSectors, List.mem_append, List.mem_cons, List.not_mem_nil, or_false] at hx
      have hz : ∀ n, x ∈ Spec.zeros n → x = 0 := fun n h => List.eq_of_mem_replicate h
      rcases hx with h | (h | h | h | h) | h | (h | h | h | h) | h | (h | h | h | h | h | h | h) | h <;>
        first | (have h2 := hz _ h; subst h2; decide) | (subst h; decide)
    rcases h with h | h
    · exact absurd rfl (key _ (List.mem_of_getElem? h)).1
    · exact absurd rfl (key _ (List.mem_of_getElem? h)).2

/-- C17 is false of the code: a sector linked to itself, or a segment opcode without its second byte, is read forever. -/
theorem decompile_terminates_refuted :
    (∃ buf, Spec.nextSector buf 2 = 2 ∧ ∀ p fuel, decompile p buf fuel = .ok none) ∧
    (∃ buf, Spec.nextSector buf 2 = 0 ∧ ∀ p fuel, decompile p buf fuel = .ok none) := by
  constructor
  · obtain ⟨h1, h2, h3, h4⟩ := threeSectors_spec 2 [] (by simp)
    refine ⟨threeSectors 2 [], h3, fun p fuel => decompile_cyclic p _ (by omega) (by omega) h3 ?_ fuel⟩
    intro i hi hi2
    obtain ⟨k, rfl⟩ : ∃ k, i = 8212 + k := ⟨i - 8212, by omega⟩
    rw [h4]
    exact List.getElem?_replicate_of_lt (by simp; omega)
  · obtain ⟨h1, h2, h3, h4⟩ := threeSectors_spec 0 [0x0F, 0] (by simp)
    refine ⟨threeSectors 0 [0x0F, 0], h3, fun p fuel => decompile_stuck p _ (by omega) (by omega) (h4 0) ?_ fuel⟩
    rw [h4 1]; simp

/-- C17, how it fails: any file whose first content sector is empty and linked to itself hangs the decompiler. -/
theorem decompile_cycle_hangs (p : Profile) (buf : Bytes) (hl : 12288 ≤ buf.length) (hn : 2 ≤ Spec.nextSector buf 1)
    (hc : Spec.nextSector buf 2 = 2) (hz : ∀ i, 8212 ≤ i → i < 12288 → buf[i]? = some 0) (fuel : Nat) :
    decompile p buf fuel = .ok none := decompile_cyclic p buf hl hn hc hz fuel

end BurnFm.Props
