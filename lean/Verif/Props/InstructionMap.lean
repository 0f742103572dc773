import Verif.Model.Instruction

/-! Property C18: the instruction table against the instruction numbers. -/

namespace BurnFm.Props

set_option maxRecDepth 20000 in
/-- C18, for every byte up to 253: an entry of the table is the instruction with that number. -/
theorem instruction_map_sound_partial (b : Nat) (hb : b < 254) (i : Instruction)
    (h : instructionMap[b]? = some (some i)) : i.code = b := by
  have key : ∀ n : Fin 254, ∀ i, instructionMap[n.val]? = some (some i) → i.code = n.val := by
    have : ∀ n : Fin 254, (match instructionMap[n.val]? with | some (some i) => i.code == n.val | _ => true) = true := by
      decide
    intro n i hi
    have := this n
    rw [hi] at this
    simpa using this
  exact key ⟨b, hb⟩ i h

set_option maxRecDepth 20000 in
/-- C18, for every instruction but `assert`: the table has it at its number. Missing: `assert`, see
`instruction_map_refuted`. -/
theorem instruction_map_complete_partial (i : Instruction) (h : i ≠ .assert) :
    instructionMap[i.code]? = some (some i) := by
  cases i <;> first | rfl | exact absurd rfl h

set_option maxRecDepth 20000 in
theorem map_255 : instructionMap[Instruction.code .assert]? = none := by rfl

/-- No two instructions share a number. -/
theorem instruction_code_injective (i j : Instruction) (h : i.code = j.code) : i = j := by
  by_cases hi : i = .assert
  · subst hi
    by_cases hj : j = .assert
    · exact hj.symm
    · have h2 := instruction_map_complete_partial j hj
      rw [← h] at h2
      rw [map_255] at h2; cases h2
  · by_cases hj : j = .assert
    · subst hj
      have h2 := instruction_map_complete_partial i hi
      rw [h] at h2
      rw [map_255] at h2; cases h2
    · have h1 := instruction_map_complete_partial i hi
      have h2 := instruction_map_complete_partial j hj
      rw [h, h2] at h1
      cases h1; rfl

set_option maxRecDepth 20000 in
/-- C18 is false of the code: the entry for 254 is `assert`, whose number is 255, and the table has no entry
for 255 at all, so that reading a step with this opcode panics. -/
theorem instruction_map_refuted :
    instructionMap[254]? = some (some .assert) ∧ Instruction.code .assert = 255 ∧ instructionMap[255]? = none ∧
    instructionMap.length = 255 := ⟨rfl, rfl, rfl, rfl⟩

set_option maxRecDepth 20000 in
example : instructionMap[141]? = some (some .setVariable) ∧ (141 : Nat) < 254 := ⟨rfl, by decide⟩
example : Instruction.loop ≠ .assert := nofun

end BurnFm.Props
