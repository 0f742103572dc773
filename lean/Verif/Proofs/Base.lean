import Verif.Base

/-! Inversion lemmas for the panic monad. -/

namespace BurnFm

theorem bind_ok {α β : Type} {x : Res α} {f : α → Res β} {b : β} :
    (x >>= f) = .ok b ↔ ∃ a, x = .ok a ∧ f a = .ok b := by
  cases x with
  | error e => simp [bind, Except.bind]
  | ok a => simp [bind, Except.bind]

theorem ite_ok {α : Type} {p : Prop} [Decidable p] {x y : Res α} {b : α} :
    (if p then x else y) = .ok b ↔ (p ∧ x = .ok b) ∨ (¬ p ∧ y = .ok b) := by
  by_cases h : p <;> simp [h]

theorem ok_bind {α β : Type} (a : α) (f : α → Res β) : ((.ok a : Res α) >>= f) = f a := rfl

theorem error_bind {α β : Type} (e : Panic) (f : α → Res β) : ((.error e : Res α) >>= f) = .error e := rfl

theorem pure_ok {α : Type} (a : α) : (pure a : Res α) = .ok a := rfl

theorem idx_ok {α : Type} {xs : List α} {i : Nat} {a : α} : idx xs i = .ok a ↔ xs[i]? = some a := by
  unfold idx; split <;> simp_all

theorem idx_of {α : Type} {xs : List α} {i : Nat} {a : α} (h : xs[i]? = some a) : idx xs i = .ok a :=
  idx_ok.mpr h

theorem slice_ok {α : Type} {xs : List α} {a b : Nat} {d : List α} :
    slice xs a b = .ok d ↔ a ≤ b ∧ b ≤ xs.length ∧ d = (xs.drop a).take (b - a) := by
  unfold slice
  split
  · rename_i h; simp [h]; exact eq_comm
  · rename_i h; simp; intro h1 h2; exact absurd ⟨h1, h2⟩ h

theorem slice_length {α : Type} {xs : List α} {a b : Nat} {d : List α} (h : slice xs a b = .ok d) :
    d.length = b - a := by
  obtain ⟨h1, h2, h3⟩ := slice_ok.mp h
  rw [h3]; simp; omega

theorem unwrap_ok {α : Type} {o : Option α} {a : α} : unwrap o = .ok a ↔ o = some a := by
  cases o <;> simp [unwrap]

theorem slice_append {α : Type} (pre xs : List α) (a b : Nat) :
    slice (pre ++ xs) (pre.length + a) (pre.length + b) = slice xs a b := by
  unfold slice
  have h1 : (pre.length + a ≤ pre.length + b ∧ pre.length + b ≤ (pre ++ xs).length) ↔
      (a ≤ b ∧ b ≤ xs.length) := by simp
  by_cases h : a ≤ b ∧ b ≤ xs.length
  · rw [if_pos h, if_pos (h1.mpr h)]
    congr 1
    rw [List.drop_length_add_append]
    congr 1; omega
  · rw [if_neg h, if_neg (fun h' => h (h1.mp h'))]

theorem idx_append {α : Type} (pre xs : List α) (a : Nat) : idx (pre ++ xs) (pre.length + a) = idx xs a := by
  unfold idx
  rw [List.getElem?_append_right (by omega)]
  simp

theorem idx_extend {α : Type} {xs : List α} {i : Nat} {a : α} (post : List α) (h : idx xs i = .ok a) :
    idx (xs ++ post) i = .ok a := by
  rw [idx_ok] at *
  obtain ⟨hl, _⟩ := List.getElem?_eq_some_iff.mp h
  rw [List.getElem?_append_left hl]; exact h

theorem slice_extend {α : Type} {xs : List α} {i j : Nat} {d : List α} (post : List α)
    (h : slice xs i j = .ok d) : slice (xs ++ post) i j = .ok d := by
  rw [slice_ok] at *
  obtain ⟨h1, h2, h3⟩ := h
  refine ⟨h1, by simp; omega, ?_⟩
  rw [h3, List.drop_append, List.take_append]
  simp
  left; omega

theorem slice_cons {α : Type} (a : α) (l : List α) (i j : Nat) : slice (a :: l) (i + 1) (j + 1) = slice l i j := by
  unfold slice
  simp

theorem slice_prefix {α : Type} (v post : List α) : slice (v ++ post) 0 v.length = .ok v := by
  rw [slice_ok]; simp

theorem idx_cons {α : Type} (a : α) (l : List α) (i : Nat) : idx (a :: l) (i + 1) = idx l i := by
  unfold idx; simp

theorem idx_zero {α : Type} (a : α) (l : List α) : idx (a :: l) 0 = .ok a := rfl

end BurnFm
