import Verif.Model.File

/-! Facts about the association lists that stand for hash maps. -/

namespace BurnFm.HMap
variable {α : Type}

theorem get_nil (k : Nat) : HMap.get ([] : HMap α) k = none := rfl

theorem get_cons (e : Nat × α) (m : HMap α) (k : Nat) :
    HMap.get (e :: m) k = if e.1 = k then some e.2 else HMap.get m k := by
  unfold HMap.get
  by_cases h : e.1 = k <;> simp [h]

theorem contains_cons (e : Nat × α) (m : HMap α) (k : Nat) :
    HMap.contains (e :: m) k = (decide (e.1 = k) || HMap.contains m k) := by
  unfold HMap.contains
  rw [List.any_cons]
  congr 1

theorem contains_eq (m : HMap α) (k : Nat) : HMap.contains m k = (HMap.get m k).isSome := by
  induction m with
  | nil => rfl
  | cons e m ih =>
    rw [contains_cons, get_cons, ih]
    by_cases h : e.1 = k <;> simp [h]

theorem contains_iff (m : HMap α) (k : Nat) : HMap.contains m k = true ↔ k ∈ m.map (·.1) := by
  unfold HMap.contains
  simp

theorem get_append (m n : HMap α) (k : Nat) : HMap.get (m ++ n) k = (HMap.get m k).or (HMap.get n k) := by
  induction m with
  | nil => rfl
  | cons e m ih =>
    rw [List.cons_append, get_cons, get_cons, ih]
    by_cases h : e.1 = k <;> simp [h]

theorem get_modify (m : HMap α) (k k' : Nat) (f : α → α) :
    HMap.get (m.modify k f) k' = if k' = k then (HMap.get m k).map f else HMap.get m k' := by
  induction m with
  | nil => simp [modify, get]
  | cons e m ih =>
    have : HMap.modify (e :: m) k f = (if e.1 = k then (e.1, f e.2) else e) :: HMap.modify m k f := rfl
    rw [this, get_cons, ih, get_cons, get_cons]
    by_cases h : e.1 = k
    · by_cases h2 : k' = k
      · simp [h, h2]
      · have : ¬ k = k' := fun x => h2 x.symm
        simp [h, h2, this]
    · by_cases h2 : k' = k
      · simp [h, h2]
      · simp [h, h2]

theorem get_insert (m : HMap α) (k k' : Nat) (v : α) :
    HMap.get (m.insert k v) k' = if k' = k then some v else HMap.get m k' := by
  unfold HMap.insert
  split
  · rename_i h
    induction m with
    | nil => simp [contains] at h
    | cons e m ih =>
      rw [List.map_cons, get_cons, get_cons]
      by_cases he : e.1 = k
      · by_cases h2 : k' = k
        · simp [he, h2]
        · have h3 : ¬ k = k' := fun x => h2 x.symm
          simp only [he, if_true, h3, if_false, h2]
          by_cases hc : HMap.contains m k = true
          · rw [ih hc, if_neg h2]
          · have : m.map (fun e => if e.1 = k then (k, v) else e) = m := by
              conv => rhs; rw [← List.map_id m]
              apply List.map_congr_left
              intro x hx
              have : x.1 ≠ k := by
                intro hk
                apply hc
                rw [contains_iff]
                exact List.mem_map.mpr ⟨x, hx, hk⟩
              simp [this]
            rw [this]
      · have hc : HMap.contains m k = true := by
          rw [contains_cons] at h
          simpa [he] using h
        simp only [he, if_false]
        rw [ih hc]
        by_cases h2 : k' = k
        · simp [h2, he]
        · simp [h2]
  · rename_i h
    rw [get_append, get_cons, get_nil]
    by_cases h2 : k' = k
    · have : HMap.get m k = none := by
        rw [contains_eq] at h
        cases hg : HMap.get m k <;> simp_all
      simp [h2, this]
    · have h3 : ¬ k = k' := fun x => h2 x.symm
      simp [h2, h3]

theorem contains_insert (m : HMap α) (k k' : Nat) (v : α) :
    HMap.contains (m.insert k v) k' = (decide (k' = k) || HMap.contains m k') := by
  rw [contains_eq, get_insert, contains_eq]
  by_cases h : k' = k <;> simp [h]

theorem contains_modify (m : HMap α) (k k' : Nat) (f : α → α) :
    HMap.contains (m.modify k f) k' = HMap.contains m k' := by
  rw [contains_eq, contains_eq, get_modify]
  by_cases h : k' = k <;> simp [h]

theorem keys_modify (m : HMap α) (k : Nat) (f : α → α) : (m.modify k f).map (·.1) = m.map (·.1) := by
  unfold HMap.modify
  rw [List.map_map]
  apply List.map_congr_left
  intro e _
  simp only [Function.comp]
  split <;> rfl

theorem keys_insert (m : HMap α) (k : Nat) (v : α) :
    (m.insert k v).map (·.1) = if HMap.contains m k then m.map (·.1) else m.map (·.1) ++ [k] := by
  unfold HMap.insert
  split
  · rw [List.map_map]
    apply List.map_congr_left
    intro e _
    simp only [Function.comp]
    split
    · rename_i h; exact h.symm
    · rfl
  · simp

theorem insert_new {m : HMap α} {k : Nat} (h : HMap.contains m k = false) (v : α) : m.insert k v = m ++ [(k, v)] := by
  unfold HMap.insert
  simp [h]

theorem nodup_insert {m : HMap α} {k : Nat} (v : α) (h : (m.map (·.1)).Nodup) : ((m.insert k v).map (·.1)).Nodup := by
  rw [keys_insert]
  split
  · exact h
  · rename_i hc
    rw [List.nodup_append]
    refine ⟨h, by simp, ?_⟩
    intro a ha b hb
    simp at hb
    subst hb
    intro hab
    subst hab
    exact hc ((contains_iff m a).mpr ha)

theorem get_of_mem {m : HMap α} (h : (m.map (·.1)).Nodup) {k : Nat} {v : α} (hm : (k, v) ∈ m) : HMap.get m k = some v := by
  induction m with
  | nil => cases hm
  | cons e m ih =>
    rw [List.map_cons, List.nodup_cons] at h
    rw [get_cons]
    rcases List.mem_cons.mp hm with rfl | hm
    · simp
    · have : e.1 ≠ k := fun hk => h.1 (List.mem_map.mpr ⟨(k, v), hm, hk.symm⟩)
      rw [if_neg this]
      exact ih h.2 hm

theorem mem_of_get {m : HMap α} {k : Nat} {v : α} (h : HMap.get m k = some v) : (k, v) ∈ m := by
  induction m with
  | nil => cases h
  | cons e m ih =>
    rw [get_cons] at h
    split at h
    · rename_i hk
      cases h
      rw [← hk]; exact List.mem_cons_self
    · exact List.mem_cons_of_mem _ (ih h)

end BurnFm.HMap
