import Verif.Spec.CalcGrammar
import Verif.Proofs.Related

/-! Decimal texts of natural numbers. -/

namespace BurnFm

theorem isDigit_eq (c : Char) : isDigit c = c.isDigit := by
  unfold isDigit Char.isDigit
  have h1 : decide (48 ≤ c.toNat) = decide ('0' ≤ c) := by
    rw [decide_eq_decide]; exact Iff.rfl
  have h2 : decide (c.toNat ≤ 57) = decide (c ≤ '9') := by
    rw [decide_eq_decide]; exact Iff.rfl
  rw [h1, h2]; rfl

theorem toDigits_digits {n : Nat} {c : Char} (h : c ∈ Nat.toDigits 10 n) : isDigit c = true := by
  rw [isDigit_eq]; exact Nat.isDigit_of_mem_toDigits (by omega) (by omega) h

theorem takeWhile_all {p : Char → Bool} {s : Str} (h : ∀ c ∈ s, p c = true) : s.takeWhile p = s := by
  induction s with
  | nil => rfl
  | cons c s ih => simp [h c (by simp), ih (fun d hd => h d (by simp [hd]))]

theorem dropWhile_all {p : Char → Bool} {s : Str} (h : ∀ c ∈ s, p c = true) : s.dropWhile p = [] := by
  induction s with
  | nil => rfl
  | cons c s ih => simp [h c (by simp), ih (fun d hd => h d (by simp [hd]))]

theorem dropSign_digits {s : Str} (h : ∀ c ∈ s, isDigit c = true) : dropSign s = s := by
  unfold dropSign
  split
  · exact absurd (h '+' (by simp)) (by decide)
  · exact absurd (h '-' (by simp)) (by decide)
  · rfl

theorem isNumberText_digits {s : Str} (hne : s ≠ []) (h : ∀ c ∈ s, isDigit c = true) : isNumberText s = true := by
  unfold isNumberText
  rw [dropWhile_all h, takeWhile_all h]
  simp [isExponent, hne]

theorem isFloatText_digits {s : Str} (hne : s ≠ []) (h : ∀ c ∈ s, isDigit c = true) : isFloatText s = true := by
  unfold isFloatText
  rw [dropSign_digits h, isNumberText_digits hne h]
  simp

theorem isFloatText_nat (n : Nat) : isFloatText (Nat.toDigits 10 n) = true :=
  isFloatText_digits Nat.toDigits_ne_nil (fun _ h => toDigits_digits h)

theorem digitsVal_eq (s : Str) : digitsVal s = Nat.ofDigitChars 10 s 0 := rfl

theorem digitsVal_toDigits (n : Nat) : digitsVal (Nat.toDigits 10 n) = n := by
  rw [digitsVal_eq]; exact Nat.ofDigitChars_toDigits (by omega) (by omega)

/-- A text of `k` digits is below `10 ^ k`. -/
theorem ofDigits_lt {s : Str} (h : ∀ c ∈ s, isDigit c = true) (a : Nat) :
    s.foldl (fun n c => 10 * n + (c.toNat - 48)) a < (a + 1) * 10 ^ s.length := by
  induction s generalizing a with
  | nil => simp
  | cons c s ih =>
    have hc := h c (by simp)
    have : c.toNat ≤ 57 := by unfold isDigit at hc; simp at hc; exact hc.2
    have h' := ih (fun d hd => h d (by simp [hd])) (10 * a + (c.toNat - 48))
    rw [List.foldl_cons]
    calc _ < _ := h'
      _ ≤ (10 * (a + 1)) * 10 ^ s.length := Nat.mul_le_mul_right _ (by omega)
      _ = (a + 1) * 10 ^ (c :: s).length := by
        rw [List.length_cons, Nat.pow_succ, Nat.mul_comm 10 (a + 1), Nat.mul_assoc, Nat.mul_comm 10]

theorem ofDigits_ge {s : Str} (a : Nat) : a * 10 ^ s.length ≤ s.foldl (fun n c => 10 * n + (c.toNat - 48)) a := by
  induction s generalizing a with
  | nil => simp
  | cons c s ih =>
    rw [List.foldl_cons]
    calc a * 10 ^ (c :: s).length = (10 * a) * 10 ^ s.length := by
          rw [List.length_cons, Nat.pow_succ, Nat.mul_comm 10 a, Nat.mul_assoc, Nat.mul_comm 10]
      _ ≤ (10 * a + (c.toNat - 48)) * 10 ^ s.length := Nat.mul_le_mul_right _ (by omega)
      _ ≤ _ := ih _

/-- For digit texts of one length the text order is the number order. -/
theorem strLe_digits {s t : Str} (hs : ∀ c ∈ s, isDigit c = true) (ht : ∀ c ∈ t, isDigit c = true)
    (hl : s.length = t.length) (a : Nat) :
    strLe s t = true ↔ s.foldl (fun n c => 10 * n + (c.toNat - 48)) a ≤
      t.foldl (fun n c => 10 * n + (c.toNat - 48)) a := by
  induction s generalizing t a with
  | nil => cases t <;> simp_all [strLe]
  | cons c s ih =>
    cases t with
    | nil => simp at hl
    | cons d t =>
      have hc := hs c (by simp)
      have hd := ht d (by simp)
      have hs' : ∀ c ∈ s, isDigit c = true := fun x hx => hs x (by simp [hx])
      have ht' : ∀ c ∈ t, isDigit c = true := fun x hx => ht x (by simp [hx])
      have hl' : s.length = t.length := by simpa using hl
      have c1 : 48 ≤ c.toNat ∧ c.toNat ≤ 57 := by unfold isDigit at hc; simpa using hc
      have d1 : 48 ≤ d.toNat ∧ d.toNat ≤ 57 := by unfold isDigit at hd; simpa using hd
      rw [strLe, List.foldl_cons, List.foldl_cons]
      have hcv : c.val.toNat = c.toNat := rfl
      have hdv : d.val.toNat = d.toNat := rfl
      by_cases h1 : c.val < d.val
      · rw [if_pos h1]
        have hlt : c.toNat < d.toNat := UInt32.lt_iff_toNat_lt.mp h1
        refine iff_of_true rfl ?_
        have hA := ofDigits_lt hs' (10 * a + (c.toNat - 48))
        have hB := ofDigits_ge (s := t) (10 * a + (d.toNat - 48))
        have : (10 * a + (c.toNat - 48) + 1) * 10 ^ s.length ≤ (10 * a + (d.toNat - 48)) * 10 ^ t.length := by
          rw [hl']; exact Nat.mul_le_mul_right _ (by omega)
        omega
      · rw [if_neg h1]
        by_cases h2 : d.val < c.val
        · rw [if_pos h2]
          have hlt : d.toNat < c.toNat := UInt32.lt_iff_toNat_lt.mp h2
          refine iff_of_false (by simp) ?_
          have hA := ofDigits_lt ht' (10 * a + (d.toNat - 48))
          have hB := ofDigits_ge (s := s) (10 * a + (c.toNat - 48))
          have : (10 * a + (d.toNat - 48) + 1) * 10 ^ t.length ≤ (10 * a + (c.toNat - 48)) * 10 ^ s.length := by
            rw [hl']; exact Nat.mul_le_mul_right _ (by omega)
          omega
        · rw [if_neg h2]
          have : c.toNat = d.toNat := by
            have h1' : ¬ c.val.toNat < d.val.toNat := fun h => h1 (UInt32.lt_iff_toNat_lt.mpr h)
            have h2' : ¬ d.val.toNat < c.val.toNat := fun h => h2 (UInt32.lt_iff_toNat_lt.mpr h)
            omega
          rw [this]
          exact ih hs' ht' hl' _

theorem strLe_nat {n m : Nat} (hl : (Nat.toDigits 10 n).length = (Nat.toDigits 10 m).length) :
    strLe (Nat.toDigits 10 n) (Nat.toDigits 10 m) = true ↔ n ≤ m := by
  rw [strLe_digits (fun _ h => toDigits_digits h) (fun _ h => toDigits_digits h) hl 0]
  have h1 := digitsVal_toDigits n
  have h2 := digitsVal_toDigits m
  unfold digitsVal at h1 h2
  rw [h1, h2]

/-! ### What number texts look like -/

/-- Characters that occur in texts accepted as numbers. -/
def floatChar (c : Char) : Bool :=
  isDigit c || c == '+' || c == '-' || c == '.' || c == 'e' || c == 'E' ||
  [105, 110, 102, 116, 121, 97, 73, 78, 70, 84, 89, 65].contains c.toNat

theorem mem_dropSign {s : Str} {c : Char} (h : c ∈ s) : c ∈ dropSign s ∨ c = '+' ∨ c = '-' := by
  unfold dropSign
  split
  · simp at h; rcases h with h | h
    · exact .inr (.inl h)
    · exact .inl h
  · simp at h; rcases h with h | h
    · exact .inr (.inr h)
    · exact .inl h
  · exact .inl h

theorem isExponent_chars {s : Str} (h : isExponent s = true) {c : Char} (hc : c ∈ s) : floatChar c = true := by
  cases s with
  | nil => cases hc
  | cons d s =>
    unfold isExponent at h
    simp only [Bool.and_eq_true, Bool.or_eq_true, beq_iff_eq, List.all_eq_true] at h
    obtain ⟨⟨hd, _⟩, hall⟩ := h
    simp at hc
    rcases hc with hc | hc
    · subst hc; rcases hd with hd | hd <;> subst hd <;> decide
    · rcases mem_dropSign hc with hc | hc | hc
      · simp [floatChar, hall c hc]
      · subst hc; decide
      · subst hc; decide

theorem mem_takeDrop {p : Char → Bool} {s : Str} {c : Char} (h : c ∈ s) : p c = true ∨ c ∈ s.dropWhile p := by
  induction s with
  | nil => cases h
  | cons d s ih =>
    by_cases hd : p d = true
    · rw [List.dropWhile_cons_of_pos hd]
      simp at h
      rcases h with h | h
      · subst h; exact .inl hd
      · exact ih h
    · rw [List.dropWhile_cons_of_neg hd]; exact .inr h

theorem isNumberText_chars {s : Str} (h : isNumberText s = true) {c : Char} (hc : c ∈ s) : floatChar c = true := by
  unfold isNumberText at h
  rcases mem_takeDrop (p := isDigit) hc with hd | hd
  · simp [floatChar, hd]
  · split at h
    · rename_i r hr
      rw [hr] at hd
      simp at hd
      rcases hd with hd | hd
      · subst hd; decide
      · simp only [Bool.and_eq_true] at h
        rcases mem_takeDrop (p := isDigit) hd with he | he
        · simp [floatChar, he]
        · exact isExponent_chars h.2 he
    · simp only [Bool.and_eq_true] at h
      exact isExponent_chars h.2 hd

theorem lower_inv {c d : Char} (h : lower c = d) : c = d ∨ c.toNat + 32 = d.toNat := by
  unfold lower at h
  split at h
  · rename_i hc
    right
    simp only [Bool.and_eq_true, decide_eq_true_eq] at hc
    rw [← h]
    have hv : (c.toNat + 32).isValidChar := by left; omega
    unfold Char.ofNat
    rw [dif_pos hv]
    rfl
  · exact .inl h

theorem word_chars {s : Str} {w : Str} (h : s.map lower = w) (hw : ∀ d ∈ w, [105, 110, 102, 116, 121, 97].contains d.toNat = true)
    {c : Char} (hc : c ∈ s) : floatChar c = true := by
  have hm : lower c ∈ w := by rw [← h]; exact List.mem_map_of_mem hc
  have := hw _ hm
  simp only [List.contains_eq_mem, List.mem_cons, List.not_mem_nil, or_false, decide_eq_true_eq] at this
  rcases lower_inv (rfl : lower c = lower c) with he | he
  · rw [← he] at this
    unfold floatChar
    simp only [Bool.or_eq_true]
    right
    simp only [List.contains_eq_mem, List.mem_cons, List.not_mem_nil, or_false, decide_eq_true_eq]
    omega
  · unfold floatChar
    simp only [Bool.or_eq_true]
    right
    simp only [List.contains_eq_mem, List.mem_cons, List.not_mem_nil, or_false, decide_eq_true_eq]
    omega

theorem isFloatText_chars {s : Str} (h : isFloatText s = true) {c : Char} (hc : c ∈ s) : floatChar c = true := by
  unfold isFloatText at h
  simp only [Bool.or_eq_true, beq_iff_eq] at h
  rcases mem_dropSign hc with hc' | hc' | hc'
  · rcases h with ((h | h) | h) | h
    · exact word_chars h (by decide) hc'
    · exact word_chars h (by decide) hc'
    · exact word_chars h (by decide) hc'
    · exact isNumberText_chars h hc'
  · subst hc'; decide
  · subst hc'; decide

theorem isFloatText_nil : isFloatText [] = false := by decide

theorem not_float_of_char {s : Str} {c : Char} (hc : c ∈ s) (hf : floatChar c = false) : isFloatText s = false := by
  cases h : isFloatText s with
  | false => rfl
  | true => rw [isFloatText_chars h hc] at hf; cases hf

/-- Quoted texts are not numbers. -/
theorem not_float_quoted {s : Str} (h : isQuoted s = true) : isFloatText s = false := by
  unfold isQuoted at h
  simp only [Bool.and_eq_true, beq_iff_eq] at h
  exact not_float_of_char (List.mem_of_mem_head? (by rw [h.1]; rfl)) (by decide)

/-- Number texts have no quotes or colons. -/
theorem float_no_quote {s : Str} (h : isFloatText s = true) : '"' ∉ s := by
  intro hc
  have := isFloatText_chars h hc
  revert this; decide

theorem float_no_colon {s : Str} (h : isFloatText s = true) : ':' ∉ s := by
  intro hc
  have := isFloatText_chars h hc
  revert this; decide

end BurnFm
