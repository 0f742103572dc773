import Verif.Proofs.FileWriter

/-! Files written sector by sector. -/

namespace BurnFm

/-- A sector: the number of the next one and the content, padded with zeros. -/
def diskSector (next : Nat) (body : Bytes) : Bytes :=
  Spec.zeros 8 ++ [UInt8.ofNat (next / 2 ^ 24), UInt8.ofNat (next / 2 ^ 16), UInt8.ofNat (next / 2 ^ 8), UInt8.ofNat next] ++ Spec.zeros 8 ++
    body ++ Spec.zeros (4076 - body.length)

def disk (ss : List (Nat × Bytes)) : Bytes := ss.flatMap fun s => diskSector s.1 s.2

theorem diskSector_length {next : Nat} {body : Bytes} (h : body.length ≤ 4076) : (diskSector next body).length = 4096 := by
  simp [diskSector, Props.zeros_length]
  omega

theorem disk_length {ss : List (Nat × Bytes)} (h : ∀ s ∈ ss, s.2.length ≤ 4076) : (disk ss).length = ss.length * 4096 := by
  induction ss with
  | nil => rfl
  | cons s ss ih =>
    have := ih fun t ht => h t (by simp [ht])
    simp only [disk, List.flatMap_cons, List.length_append, List.length_cons] at this ⊢
    rw [this, diskSector_length (h s (by simp))]
    omega

theorem disk_drop {ss : List (Nat × Bytes)} (h : ∀ s ∈ ss, s.2.length ≤ 4076) {i : Nat} {next : Nat} {body : Bytes} (hi : ss[i]? = some (next, body)) :
    ∃ rest, (disk ss).drop (i * 4096) = diskSector next body ++ rest := by
  induction ss generalizing i with
  | nil => simp at hi
  | cons s ss ih =>
    cases i with
    | zero =>
      simp at hi
      subst hi
      exact ⟨disk ss, by simp [disk]⟩
    | succ i =>
      obtain ⟨rest, hr⟩ := ih (fun t ht => h t (by simp [ht])) hi
      refine ⟨rest, ?_⟩
      rw [← hr]
      show List.drop _ (diskSector s.1 s.2 ++ disk ss) = _
      rw [List.drop_append, diskSector_length (h s (by simp)), List.drop_eq_nil_of_le (by rw [diskSector_length (h s (by simp))]; omega),
        List.nil_append]
      exact congrArg (List.drop · (disk ss)) (by omega)

theorem disk_next {ss : List (Nat × Bytes)} (h : ∀ s ∈ ss, s.2.length ≤ 4076) {i : Nat} {next : Nat} {body : Bytes}
    (hi : ss[i]? = some (next, body)) (hn : next < 2 ^ 32) : Spec.nextSector (disk ss) i = next := by
  obtain ⟨rest, hr⟩ := disk_drop h hi
  have g : ∀ k, (disk ss).getD (i * 4096 + k) 0 = (diskSector next body ++ rest).getD k 0 := by
    intro k
    rw [← hr, List.getD_eq_getElem?_getD, List.getD_eq_getElem?_getD, List.getElem?_drop]
  unfold Spec.nextSector Spec.be32
  rw [Nat.add_assoc, Nat.add_assoc, Nat.add_assoc, g, g, g, g]
  simp only [diskSector, Spec.zeros, List.replicate, List.cons_append, List.nil_append, List.getD_cons_succ, List.getD_cons_zero, UInt8.toNat_ofNat', Nat.reducePow] at hn ⊢
  omega

theorem disk_payload {ss : List (Nat × Bytes)} (h : ∀ s ∈ ss, s.2.length ≤ 4076) {i : Nat} {next : Nat} {body : Bytes}
    (hi : ss[i]? = some (next, body)) :
    ((disk ss).drop (i * 4096 + 20)).take 4076 = body ++ Spec.zeros (4076 - body.length) := by
  obtain ⟨rest, hr⟩ := disk_drop h hi
  have hb : body.length ≤ 4076 := h _ (List.mem_of_getElem? hi)
  rw [← List.drop_drop, hr]
  have e : diskSector next body ++ rest = (Spec.zeros 8 ++ [UInt8.ofNat (next / 2 ^ 24), UInt8.ofNat (next / 2 ^ 16), UInt8.ofNat (next / 2 ^ 8),
      UInt8.ofNat next] ++ Spec.zeros 8) ++ ((body ++ Spec.zeros (4076 - body.length)) ++ rest) := by
    simp [diskSector]
  rw [e, List.drop_left' (by simp [Props.zeros_length]), List.take_left' (by simp [Props.zeros_length]; omega)]

/-- One sector of the chain. -/
theorem disk_sector {ss : List (Nat × Bytes)} (h : ∀ s ∈ ss, s.2.length ≤ 4076) {i next n : Nat} {is : List Item} {rest : List Spec.Raw} {b : Bytes}
    (hi : ss[i]? = some (next, is.flatMap Item.bytes)) (h0 : i ≠ 0) (h1 : ss[1]? = some (n, b)) (hle : i ≤ n) (hn : next < 2 ^ 32) (hn' : n < 2 ^ 32)
    (hok : ∀ i ∈ is, i.Ok) (he : itemsEnd [] is = []) (hr : Spec.RawSectors (disk ss) next rest) :
    Spec.RawSectors (disk ss) i (itemRaws [] is ++ rest) := by
  have hrun := items_raw is hok []
  rw [he] at hrun
  refine .sector h0 (by rw [disk_next h h1 hn']; exact hle) ?_ (disk_payload h hi) hrun (by rw [disk_next h hi hn]; exact hr)
  rw [disk_length h]
  have : i < ss.length := (List.getElem?_eq_some_iff.mp hi).1
  exact Nat.mul_le_mul_right _ this

/-- One sector of the chain that ends in some directory. -/
theorem disk_open {ss : List (Nat × Bytes)} (h : ∀ s ∈ ss, s.2.length ≤ 4076) {i next n : Nat} {is : List Item} {rest : List Spec.Raw} {b : Bytes}
    (hi : ss[i]? = some (next, is.flatMap Item.bytes)) (h0 : i ≠ 0) (h1 : ss[1]? = some (n, b)) (hle : i ≤ n) (hn : next < 2 ^ 32) (hn' : n < 2 ^ 32)
    (hok : ∀ i ∈ is, i.Ok) (hr : Spec.RawSectors (disk ss) next rest) :
    Spec.RawSectors (disk ss) i (itemRaws [] is ++ Spec.padding (itemsEnd [] is) (4076 - (is.flatMap Item.bytes).length) ++ rest) := by
  refine .openSector h0 (by rw [disk_next h h1 hn']; exact hle) ?_ (disk_payload h hi) (items_raw is hok []) (by rw [disk_next h hi hn]; exact hr)
  rw [disk_length h]
  have : i < ss.length := (List.getElem?_eq_some_iff.mp hi).1
  exact Nat.mul_le_mul_right _ this

end BurnFm
