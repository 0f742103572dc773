import Verif.Model.Maps

/-! Facts about string-keyed maps. -/

namespace BurnFm.SMap
variable {α : Type}

theorem get_nil (k : Str) : SMap.get ([] : SMap α) k = none := rfl

theorem get_cons (e : Str × α) (m : SMap α) (k : Str) :
    SMap.get (e :: m) k = if e.1 = k then some e.2 else SMap.get m k := by
  unfold SMap.get
  by_cases h : e.1 = k <;> simp [h]

theorem any_iff (m : SMap α) (k : Str) : m.any (fun e => e.1 == k) = (SMap.get m k).isSome := by
  induction m with
  | nil => rfl
  | cons e m ih =>
    rw [List.any_cons, get_cons, ih]
    by_cases h : e.1 = k <;> simp [h]

theorem get_append (m n : SMap α) (k : Str) : SMap.get (m ++ n) k = (SMap.get m k).or (SMap.get n k) := by
  induction m with
  | nil => rfl
  | cons e m ih =>
    rw [List.cons_append, get_cons, get_cons, ih]
    by_cases h : e.1 = k <;> simp [h]

theorem get_map (m : SMap α) (k k' : Str) (v : α) :
    SMap.get (m.map (fun e => if e.1 = k then (k, v) else e)) k' =
      if k' = k then (SMap.get m k).map (fun _ => v) else SMap.get m k' := by
  induction m with
  | nil => simp [get_nil]
  | cons e m ih =>
    rw [List.map_cons, get_cons, ih, get_cons, get_cons]
    by_cases he : e.1 = k
    · by_cases h2 : k' = k
      · simp [he, h2]
      · have h3 : ¬ k = k' := fun x => h2 x.symm
        simp [he, h2, h3]
    · by_cases h2 : k' = k
      · simp [he, h2]
      · simp [he, h2]

theorem get_insert (m : SMap α) (k k' : Str) (v : α) :
    SMap.get (SMap.insert m k v) k' = if k' = k then some v else SMap.get m k' := by
  unfold SMap.insert
  rw [any_iff]
  split
  · rename_i h
    rw [get_map]
    by_cases h2 : k' = k
    · rw [if_pos h2, if_pos h2]
      cases hg : SMap.get m k with
      | none => rw [hg] at h; cases h
      | some w => rfl
    · rw [if_neg h2, if_neg h2]
  · rename_i h
    rw [get_append, get_cons, get_nil]
    by_cases h2 : k' = k
    · subst h2
      cases hg : SMap.get m k' with
      | none => simp
      | some w => rw [hg] at h; simp at h
    · have h3 : ¬ k = k' := fun x => h2 x.symm
      simp [h2, h3]

/-- Inserting a list of entries one after the other: the last entry for a key wins. -/
theorem get_foldl_insert {β : Type} (l : List β) (key : β → Str) (val : β → α) (m : SMap α) (k : Str) :
    SMap.get (l.foldl (fun m e => SMap.insert m (key e) (val e)) m) k =
      ((l.reverse.find? (fun e => key e == k)).map val).or (SMap.get m k) := by
  induction l generalizing m with
  | nil => simp
  | cons e l ih =>
    rw [List.foldl_cons, ih, get_insert, List.reverse_cons, List.find?_append]
    cases hf : l.reverse.find? (fun e => key e == k) with
    | some x => simp
    | none =>
      by_cases h : key e = k
      · simp [h]
      · have : ¬ k = key e := fun x => h x.symm
        simp [h, this]

end BurnFm.SMap
