import Verif.Proofs.Schema
import Verif.Proofs.HMap
import Verif.Proofs.DecompileCalc

/-! The tables after the events of a schema, and the absence of panics. -/

namespace BurnFm

/-- When an event does not make the decompiler panic. -/
def OkStep (T : HMap FTable) (e : Spec.Event) : Prop :=
  match classify e.path, e.what with
  | .tableMeta d, .push => 128 ≤ d
  | .tableMeta d, .kv k _ => 128 ≤ d ∧ (k = 16 → T.contains (d - 128) = true)
  | .field d f, .kv _ _ => ∃ tb, T.get (d - 128) = some tb ∧ tb.fields.contains (f % 65536) = true
  | _, _ => True

/-- A run of events without a panic. -/
inductive Steps : HMap FTable → List Spec.Event → HMap FTable → Prop
  | nil (T : HMap FTable) : Steps T [] T
  | cons {T T' : HMap FTable} {e : Spec.Event} {es : List Spec.Event} : OkStep T e → Steps (tstep T e) es T' → Steps T (e :: es) T'

theorem Steps.append {T T' T'' : HMap FTable} {a b : List Spec.Event} (h1 : Steps T a T') (h2 : Steps T' b T'') : Steps T (a ++ b) T'' := by
  induction h1 with
  | nil => exact h2
  | cons g1 _ ih => exact .cons g1 (ih h2)

theorem Steps.foldl {T T' : HMap FTable} {es : List Spec.Event} (h : Steps T es T') : es.foldl tstep T = T' := by
  induction h with
  | nil => rfl
  | cons _ _ ih => exact ih

theorem Steps.cons' {T T₁ T' : HMap FTable} {e : Spec.Event} {es : List Spec.Event} (h1 : OkStep T e) (h2 : tstep T e = T₁)
    (h3 : Steps T₁ es T') : Steps T (e :: es) T' := .cons h1 (h2 ▸ h3)

theorem foldl_last (k : Nat) (l : List (Nat × Str)) : ∀ s : Str,
    l.foldl (fun s a => if a.1 = k then a.2 else s) s = ((l.filter fun a => a.1 == k).getLast?.map (·.2)).getD s := by
  induction l with
  | nil => intro s; rfl
  | cons a l ih =>
    intro s
    rw [List.foldl_cons, ih]
    by_cases h : a.1 = k
    · rw [if_pos h, List.filter_cons_of_pos (by simpa using h), List.getLast?_cons]
      cases (l.filter fun a => a.1 == k).getLast? <;> rfl
    · rw [if_neg h, List.filter_cons_of_neg (by simpa using h)]

theorem lastAttr_foldl (k : Nat) (l : List (Nat × Str)) :
    l.foldl (fun s a => if a.1 = k then a.2 else s) [] = Spec.lastAttr l k := foldl_last k l []

theorem modify_absent {α : Type} {m : HMap α} {k : Nat} (h : HMap.contains m k = false) (f : α → α) : m.modify k f = m := by
  unfold HMap.modify
  conv => rhs; rw [← List.map_id m]
  apply List.map_congr_left
  intro e he
  unfold HMap.contains at h
  rw [List.any_eq_false] at h
  have := h e he
  simp only [beq_iff_eq] at this
  rw [if_neg this]
  rfl

theorem modify_mid {α : Type} {a b : HMap α} {k : Nat} {v : α} (ha : HMap.contains a k = false) (hb : HMap.contains b k = false) (f : α → α) :
    HMap.modify (a ++ (k, v) :: b) k f = a ++ (k, f v) :: b := by
  have h1 := modify_absent ha f
  have h2 := modify_absent hb f
  unfold HMap.modify at *
  rw [List.map_append, List.map_cons, h1, h2, if_pos rfl]

theorem contains_append {α : Type} (a b : HMap α) (k : Nat) : HMap.contains (a ++ b) k = (HMap.contains a k || HMap.contains b k) := by
  unfold HMap.contains; rw [List.any_append]

theorem contains_mid {α : Type} (a b : HMap α) (k : Nat) (v : α) : HMap.contains (a ++ (k, v) :: b) k = true := by
  rw [contains_append]; simp [HMap.contains]

theorem get_mid {α : Type} {a : HMap α} (b : HMap α) {k : Nat} (ha : HMap.contains a k = false) (v : α) :
    HMap.get (a ++ (k, v) :: b) k = some v := by
  rw [HMap.get_append]
  rw [HMap.contains_eq] at ha
  cases h : HMap.get a k with
  | none => simp [HMap.get]
  | some w => rw [h] at ha; cases ha

theorem contains_map {α : Type} (ts : List Spec.TableDef) (g : Spec.TableDef → α) (k : Nat) :
    HMap.contains (ts.map fun t => (t.id, g t)) k = false ↔ ∀ t ∈ ts, t.id ≠ k := by
  unfold HMap.contains
  rw [List.any_eq_false]
  simp

/-- A table with its name only. -/
def named (t : Spec.TableDef) : FTable := { name := Spec.lastAttr t.attrs 16 }

theorem steps_tableAttrs {a : HMap FTable} {t : Nat} (ha : a.contains t = false) (attrs : List (Nat × Str)) : ∀ s : Str,
    Steps (a ++ [(t, { name := s })]) (attrs.map fun x => ⟨[3, 16, 5, 128 + t], .kv x.1 (fmStringEncrypt x.2)⟩)
      (a ++ [(t, { name := attrs.foldl (fun s x => if x.1 = 16 then x.2 else s) s })]) := by
  induction attrs with
  | nil => intro s; exact .nil _
  | cons x xs ih =>
    intro s
    rw [List.map_cons, List.foldl_cons]
    refine .cons' ?_ ?_ (ih _)
    · simp only [OkStep, classify_tableMeta]
      exact ⟨by omega, fun _ => by rw [Nat.add_sub_cancel_left]; exact contains_mid _ _ _ _⟩
    · simp only [tstep, classify_tableMeta, Nat.add_sub_cancel_left]
      split
      · rw [modify_mid ha rfl, decrypt_encrypt]
      · rfl

theorem steps_tables (ts : List Spec.TableDef) : ∀ done : List Spec.TableDef,
    (done ++ ts).Pairwise (fun a b => a.id ≠ b.id ∧ a.id ≠ 128 + b.id) →
    Steps (done.map fun t => (t.id, named t)) (Spec.tableEvents fmStringEncrypt ts) ((done ++ ts).map fun t => (t.id, named t)) := by
  induction ts with
  | nil => intro done _; rw [List.append_nil]; exact .nil _
  | cons t ts ih =>
    intro done hp
    unfold Spec.tableEvents at ih ⊢
    rw [List.flatMap_cons]
    have hp' : (done ++ [t] ++ ts).Pairwise (fun a b => a.id ≠ b.id ∧ a.id ≠ 128 + b.id) := by simpa using hp
    have hh : ∀ x ∈ done, x.id ≠ t.id ∧ x.id ≠ 128 + t.id := fun x hx => (List.pairwise_append.mp hp).2.2 x hx t (by simp)
    have h1 := (contains_map done named t.id).mpr fun x hx => (hh x hx).1
    have h2 := (contains_map done named (128 + t.id)).mpr fun x hx => (hh x hx).2
    have := ih (done ++ [t]) hp'
    rw [List.append_assoc] at this
    refine .append ?_ this
    unfold Spec.entry
    refine .cons' (T₁ := (done.map fun t => (t.id, named t)) ++ [(t.id, ({} : FTable))]) ?_ ?_ ?_
    · simp only [OkStep, classify_tableMeta]; omega
    · simp only [tstep, classify_tableMeta, Nat.add_sub_cancel_left, h2]
      rw [if_neg (by simp), HMap.insert_new h1]
    · have := steps_tableAttrs h1 t.attrs []
      rw [lastAttr_foldl] at this
      rw [List.map_append]
      exact this

/-- The field after its properties, from an initial field. -/
def attrStep (f : FField) (x : Nat × Str) : FField :=
  match fieldSetter x.1 x.2 with
  | none => f
  | some g => g f

theorem attrStep_fold (attrs : List (Nat × Str)) : ∀ f : FField, attrs.foldl attrStep f =
    { dataType := f.dataType, name := attrs.foldl (fun s a => if a.1 = 16 then a.2 else s) f.name,
      fieldType := attrs.foldl (fun s a => if a.1 = 2 then a.2 else s) f.fieldType,
      description := attrs.foldl (fun s a => if a.1 = 3 then a.2 else s) f.description,
      createdByAccount := attrs.foldl (fun s a => if a.1 = 129 then a.2 else s) f.createdByAccount,
      createdByUser := attrs.foldl (fun s a => if a.1 = 130 then a.2 else s) f.createdByUser } := by
  induction attrs with
  | nil => intro f; rfl
  | cons a as ih =>
    intro f
    rw [List.foldl_cons, ih]
    simp only [List.foldl_cons]
    unfold attrStep fieldSetter
    by_cases h1 : a.1 = 2
    · simp [h1]
    · by_cases h2 : a.1 = 3
      · simp [h2]
      · by_cases h3 : a.1 = 16
        · simp [h3]
        · by_cases h4 : a.1 = 129
          · simp [h4]
          · by_cases h5 : a.1 = 130
            · simp [h5]
            · simp [h1, h2, h3, h4, h5]

theorem attrStep_field (f : Spec.FieldDef) : f.attrs.foldl attrStep {} = f.field := by
  rw [attrStep_fold]
  unfold Spec.FieldDef.field
  simp only [lastAttr_foldl]

theorem steps_fieldAttrs {a b : HMap FTable} {t f : Nat} {n : Str} {F : HMap FField} (ha : a.contains t = false) (hb : b.contains t = false)
    (hF : F.contains f = false) (hf : f < 65536) (attrs : List (Nat × Str)) : ∀ x : FField,
    Steps (a ++ (t, { name := n, fields := F ++ [(f, x)] }) :: b)
      (attrs.map fun x => ⟨[128 + t, 3, 5, f], .kv x.1 (fmStringEncrypt x.2)⟩)
      (a ++ (t, { name := n, fields := F ++ [(f, attrs.foldl attrStep x)] }) :: b) := by
  induction attrs with
  | nil => intro x; exact .nil _
  | cons y ys ih =>
    intro x
    rw [List.map_cons, List.foldl_cons]
    refine .cons' ?_ ?_ (ih _)
    · simp only [OkStep, classify_field (d := 128 + t) f (by omega), Nat.add_sub_cancel_left, Nat.mod_eq_of_lt hf]
      exact ⟨_, get_mid b ha _, contains_mid _ _ _ _⟩
    · simp only [tstep, classify_field (d := 128 + t) f (by omega), Nat.add_sub_cancel_left, Nat.mod_eq_of_lt hf, decrypt_encrypt]
      unfold attrStep
      cases fieldSetter y.1 y.2 with
      | none => rfl
      | some g => dsimp only; rw [modify_mid ha hb, modify_mid hF rfl]

theorem steps_tableFields {a b : HMap FTable} {t : Nat} {n : Str} (ha : a.contains t = false) (hb : b.contains t = false)
    (fs : List Spec.FieldDef) : ∀ done : List Spec.FieldDef,
    (done ++ fs).Pairwise (fun a b => a.id ≠ b.id) → (∀ f ∈ fs, f.id < 65536) →
    Steps (a ++ (t, { name := n, fields := done.map fun f => (f.id, f.field) }) :: b)
      (fs.flatMap fun f => Spec.entry fmStringEncrypt [128 + t, 3, 5, f.id] f.attrs)
      (a ++ (t, { name := n, fields := (done ++ fs).map fun f => (f.id, f.field) }) :: b) := by
  induction fs with
  | nil => intro done _ _; rw [List.append_nil]; exact .nil _
  | cons f fs ih =>
    intro done hp hl
    rw [List.flatMap_cons]
    have hp' : (done ++ [f] ++ fs).Pairwise (fun a b => a.id ≠ b.id) := by simpa using hp
    have hh : ∀ x ∈ done, x.id ≠ f.id := fun x hx => (List.pairwise_append.mp hp).2.2 x hx f (by simp)
    have hF : HMap.contains (done.map fun f => (f.id, f.field)) f.id = false := by
      unfold HMap.contains
      rw [List.any_eq_false]
      simpa using hh
    have hfl := hl f (by simp)
    have := ih (done ++ [f]) hp' (fun x hx => hl x (by simp [hx]))
    rw [List.append_assoc] at this
    refine .append ?_ this
    unfold Spec.entry
    refine .cons' (T₁ := a ++ (t, { name := n, fields := (done.map fun f => (f.id, f.field)) ++ [(f.id, ({} : FField))] }) :: b) ?_ ?_ ?_
    · simp only [OkStep, classify_field (d := 128 + t) f.id (by omega)]
    · simp only [tstep, classify_field (d := 128 + t) f.id (by omega), Nat.add_sub_cancel_left, Nat.mod_eq_of_lt hfl]
      rw [if_pos (contains_mid _ _ _ _), modify_mid ha hb, HMap.insert_new hF]
    · have := steps_fieldAttrs (n := n) ha hb hF hfl f.attrs {}
      rw [attrStep_field] at this
      rw [List.map_append]
      exact this

theorem steps_fields (ts : List Spec.TableDef) : ∀ done : List Spec.TableDef,
    (done ++ ts).Pairwise (fun a b => a.id ≠ b.id) →
    (∀ t ∈ ts, t.fields.Pairwise (fun a b => a.id ≠ b.id) ∧ ∀ f ∈ t.fields, f.id < 65536) →
    Steps ((done.map fun t => (t.id, t.table)) ++ ts.map fun t => (t.id, named t)) (Spec.fieldEvents fmStringEncrypt ts)
      ((done ++ ts).map fun t => (t.id, t.table)) := by
  induction ts with
  | nil => intro done _ _; rw [List.map_nil, List.append_nil, List.append_nil]; exact .nil _
  | cons t ts ih =>
    intro done hp hf
    unfold Spec.fieldEvents at ih ⊢
    rw [List.flatMap_cons]
    have hp' : (done ++ [t] ++ ts).Pairwise (fun a b => a.id ≠ b.id) := by simpa using hp
    obtain ⟨_, p2, p3⟩ := List.pairwise_append.mp hp
    have h1 := (contains_map done Spec.TableDef.table t.id).mpr fun x hx => p3 x hx t (by simp)
    have h2 := (contains_map ts named t.id).mpr fun x hx => fun e => (List.pairwise_cons.mp p2).1 x hx e.symm
    have := ih (done ++ [t]) hp' (fun x hx => hf x (by simp [hx]))
    rw [List.append_assoc] at this
    refine .append ?_ this
    obtain ⟨q1, q2⟩ := hf t (by simp)
    have := steps_tableFields (n := Spec.lastAttr t.attrs 16) h1 h2 t.fields [] q1 q2
    rw [List.map_append, List.append_assoc]
    exact this

/-- The events of a schema produce its tables, without a panic. -/
theorem steps_schema {ts : List Spec.TableDef} (h : Spec.WellNumbered ts) :
    Steps [] (Spec.tableEvents fmStringEncrypt ts ++ Spec.fieldEvents fmStringEncrypt ts) (ts.map fun t => (t.id, t.table)) :=
  .append (steps_tables ts [] h.1) (steps_fields ts [] (h.1.imp fun h => h.1) h.2)

end BurnFm
