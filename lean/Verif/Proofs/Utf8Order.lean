import Verif.Proofs.DecompileCalc
import Verif.Model.Maps
import Verif.Model.Encoding

/-! UTF-8 keeps the order of code points. -/

namespace BurnFm

/-- `x` and `y` differ, and at the first difference `x` has the smaller byte. -/
def Below (x y : Bytes) : Prop := ∃ pre a b s t, x = pre ++ a :: s ∧ y = pre ++ b :: t ∧ a < b

theorem below_append {x y : Bytes} (h : Below x y) (u v : Bytes) : x ++ u < y ++ v := by
  obtain ⟨pre, a, b, s, t, rfl, rfl, hab⟩ := h
  rw [List.append_assoc, List.append_assoc]
  induction pre with
  | nil => exact List.Lex.rel hab
  | cons c pre ih => exact List.Lex.cons ih

theorem below_head {a b : UInt8} (s t : Bytes) (h : a < b) : Below (a :: s) (b :: t) := ⟨[], a, b, s, t, rfl, rfl, h⟩

theorem below_tail (a : UInt8) {s t : Bytes} (h : Below s t) : Below (a :: s) (a :: t) := by
  obtain ⟨pre, x, y, u, v, rfl, rfl, hxy⟩ := h
  exact ⟨a :: pre, x, y, u, v, rfl, rfl, hxy⟩

theorem below_cons {n m : Nat} {s t : Bytes} (hn : n < 256) (hm : m < 256) (h : n < m ∨ n = m ∧ Below s t) :
    Below (UInt8.ofNat n :: s) (UInt8.ofNat m :: t) := by
  rcases h with h | ⟨rfl, h⟩
  · refine below_head _ _ ?_
    rw [UInt8.lt_iff_toNat_lt, UInt8.toNat_ofNat', UInt8.toNat_ofNat', Nat.mod_eq_of_lt hn, Nat.mod_eq_of_lt hm]
    exact h
  · exact below_tail _ h

theorem char_bound (c : Char) : c.val.toNat < 1114112 := by
  rcases c.valid with h | h
  · have := h; omega
  · exact h.2

theorem utf8_below {c d : Char} (h : c.val < d.val) : Below (String.utf8EncodeChar c) (String.utf8EncodeChar d) := by
  have h : c.val.toNat < d.val.toNat := h
  have hc := char_bound c
  have hd := char_bound d
  unfold String.utf8EncodeChar
  generalize c.val.toNat = n at h hc
  generalize d.val.toNat = m at h hd
  dsimp only
  repeat' split
  all_goals first
    | omega
    | exact below_cons (by omega) (by omega) (.inl (by omega))
    | (refine below_cons (by omega) (by omega) ?_
       rcases Nat.lt_or_ge (n / 64) (m / 64) with h1 | h1
       · left; omega
       · exact .inr ⟨by omega, below_cons (by omega) (by omega) (.inl (by omega))⟩)
    | (refine below_cons (by omega) (by omega) ?_
       rcases Nat.lt_or_ge (n / 4096) (m / 4096) with h1 | h1
       · left; omega
       · refine .inr ⟨by omega, below_cons (by omega) (by omega) ?_⟩
         rcases Nat.lt_or_ge (n / 64) (m / 64) with h2 | h2
         · left; omega
         · exact .inr ⟨by omega, below_cons (by omega) (by omega) (.inl (by omega))⟩)
    | (refine below_cons (by omega) (by omega) ?_
       rcases Nat.lt_or_ge (n / 262144) (m / 262144) with h0 | h0
       · left; omega
       · refine .inr ⟨by omega, below_cons (by omega) (by omega) ?_⟩
         rcases Nat.lt_or_ge (n / 4096) (m / 4096) with h1 | h1
         · left; omega
         · refine .inr ⟨by omega, below_cons (by omega) (by omega) ?_⟩
           rcases Nat.lt_or_ge (n / 64) (m / 64) with h2 | h2
           · left; omega
           · exact .inr ⟨by omega, below_cons (by omega) (by omega) (.inl (by omega))⟩)

theorem append_lt_append_left (p : Bytes) {u v : Bytes} (h : u < v) : p ++ u < p ++ v := by
  induction p with
  | nil => exact h
  | cons c p ih => exact List.Lex.cons ih

theorem strLe_utf8 (a b : Str) : strLe a b = true ↔ utf8 a ≤ utf8 b := by
  induction a generalizing b with
  | nil => simp [strLe, utf8]
  | cons c a ih =>
    cases b with
    | nil =>
      obtain ⟨x, r, hx, _⟩ := utf8_lead c
      simp [strLe, utf8, hx]
    | cons d b =>
      rw [utf8_cons, utf8_cons, strLe]
      by_cases h1 : c.val < d.val
      · rw [if_pos h1]
        simpa using List.le_of_lt (below_append (utf8_below h1) _ _)
      · rw [if_neg h1]
        by_cases h2 : d.val < c.val
        · rw [if_pos h2]
          have := below_append (utf8_below h2) (utf8 b) (utf8 a)
          simpa using this
        · rw [if_neg h2, ih]
          have : c = d := by
            apply Char.ext
            apply UInt32.le_antisymm
            · simpa using h2
            · simpa using h1
          subst this
          constructor
          · intro h
            rcases List.le_iff_lt_or_eq.mp h with h | h
            · exact List.le_of_lt (append_lt_append_left _ h)
            · rw [h]; exact List.le_refl _
          · intro h
            rcases List.le_total (utf8 a) (utf8 b) with hl | hl
            · exact hl
            · rcases List.le_iff_lt_or_eq.mp hl with hl | hl
              · exact absurd (append_lt_append_left _ hl) (List.not_lt.mpr h)
              · rw [hl]; exact List.le_refl _

end BurnFm
