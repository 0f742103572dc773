import Verif.Spec.Json
import Verif.Proofs.Digits

/-! JSON texts: what is written is one, and no text has two values. -/

namespace BurnFm
open Spec

theorem decimal_eq (n : Nat) : decimal n = Nat.toDigits 10 n := by
  show (Nat.repr n).toList = _
  rw [Nat.repr_eq_ofList_toDigits, String.toList_ofList]

/-! ### What is written is a JSON text -/

theorem hexValue_hexDigit : ∀ n < 16, hexValue (hexDigit n) = some n := by decide

theorem toNat_ofNat_char {c : Char} {n : Nat} (h : c.toNat = n) : Char.ofNat n = c := by subst h; exact Char.ofNat_toNat c

theorem escape_text (c : Char) : CharText c (escapeChar c) := by
  unfold escapeChar
  split
  · rename_i h; subst h; exact .quote
  split
  · rename_i h; subst h; exact .backslash
  split
  · rename_i h; rw [← toNat_ofNat_char h]; exact .backspace
  split
  · rename_i h; rw [← toNat_ofNat_char h]; exact .formFeed
  split
  · rename_i h; rw [← toNat_ofNat_char h]; exact .lineFeed
  split
  · rename_i h; rw [← toNat_ofNat_char h]; exact .carriageReturn
  split
  · rename_i h; rw [← toNat_ofNat_char h]; exact .tab
  split
  · rename_i h
    have e : 4096 * 0 + 256 * 0 + 16 * (c.toNat / 16) + c.toNat % 16 = c.toNat := by omega
    have := CharText.code (a := '0') (b := '0') (w := 0) (x := 0) (by decide) (by decide) (hexValue_hexDigit (c.toNat / 16) (by omega))
      (hexValue_hexDigit (c.toNat % 16) (by omega)) (by rw [e]; exact c.valid)
    rw [e, Char.ofNat_toNat] at this
    exact this
  · rename_i h1 h2 _ _ _ _ _ h3
    exact .plain (by omega) h1 h2

theorem escapes_text (s : Str) : CharsText s (s.flatMap escapeChar) := by
  induction s with
  | nil => exact .nil
  | cons c s ih => rw [List.flatMap_cons]; exact .cons (escape_text c) ih

theorem blank_newline (level : Nat) : Blank (newline level) := by
  intro c hc
  unfold newline at hc
  rcases List.mem_cons.mp hc with rfl | hc
  · simp
  · exact .inl (List.eq_of_mem_replicate hc)

theorem blank_nil : Blank [] := by intro c hc; cases hc

theorem blank_space : Blank [' '] := by intro c hc; simp_all

theorem separated_cons (level : Nat) (x y : Str) (ys : List Str) :
    separated level (x :: y :: ys) = newline level ++ x ++ [','] ++ separated level (y :: ys) := rfl

mutual

theorem pretty_text (level : Nat) : ∀ j : Json, JsonText j (prettyJson level j)
  | .str s => .str (escapes_text s)
  | .num n => by
    have := JsonText.num n
    rw [← decimal_eq] at this
    exact this
  | .bool true => .true
  | .bool false => .false
  | .arr [] => .noItems blank_nil
  | .arr (x :: xs) => by
    have h := items_text (level + 1) (newline level) (blank_newline level) x xs
    have h := JsonText.items h
    rw [show '[' :: (separated (level + 1) (prettyItems (level + 1) (x :: xs)) ++ newline level) ++ [']'] =
      ['['] ++ separated (level + 1) (prettyItems (level + 1) (x :: xs)) ++ newline level ++ [']'] by simp] at h
    exact h
  | .obj [] => .noMembers blank_nil
  | .obj (m :: ms) => by
    have h := members_text (level + 1) (newline level) (blank_newline level) m ms
    have h := JsonText.members h
    rw [show '{' :: (separated (level + 1) (prettyMembers (level + 1) (m :: ms)) ++ newline level) ++ ['}'] =
      ['{'] ++ separated (level + 1) (prettyMembers (level + 1) (m :: ms)) ++ newline level ++ ['}'] by simp] at h
    exact h
termination_by j => sizeOf j
decreasing_by all_goals simp <;> omega

theorem items_text (level : Nat) (w : Str) (hw : Blank w) : ∀ (x : Json) (xs : List Json),
    ItemsText (x :: xs) (separated level (prettyItems level (x :: xs)) ++ w)
  | x, [] => by
    have := ItemsText.one (blank_newline level) (pretty_text level x) hw
    rw [← List.append_assoc] at this
    exact this
  | x, y :: ys => by
    have := ItemsText.more (blank_newline level) (pretty_text level x) blank_nil (items_text level w hw y ys)
    rw [show prettyItems level (x :: y :: ys) = prettyJson level x :: prettyJson level y :: prettyItems level ys from rfl, separated_cons]
    simpa [List.append_assoc, prettyItems] using this
termination_by x xs => sizeOf (x :: xs)
decreasing_by all_goals simp <;> omega

theorem members_text (level : Nat) (w : Str) (hw : Blank w) : ∀ (m : Str × Json) (ms : List (Str × Json)),
    MembersText (m :: ms) (separated level (prettyMembers level (m :: ms)) ++ w)
  | (k, x), [] => by
    have := MembersText.one (blank_newline level) (escapes_text k) blank_nil blank_space (pretty_text level x) hw
    rw [show prettyMembers level [(k, x)] = [quoteJson k ++ [':', ' '] ++ prettyJson level x] from rfl]
    simpa [List.append_assoc, separated, quoteJson] using this
  | (k, x), m :: ms => by
    have := MembersText.more (blank_newline level) (escapes_text k) blank_nil blank_space (pretty_text level x) blank_nil
      (members_text level w hw m ms)
    rw [show prettyMembers level ((k, x) :: m :: ms) =
      (quoteJson k ++ [':', ' '] ++ prettyJson level x) :: prettyMember level m :: prettyMembers level ms from rfl, separated_cons]
    simpa [List.append_assoc, quoteJson, prettyMembers] using this
termination_by m ms => sizeOf (m :: ms)
decreasing_by all_goals simp <;> omega

end

/-! ### No text has two values -/

/-- Two ways to split a list where a property ends. -/
theorem span_unique {α : Type} {P : α → Prop} {a a' r r' : List α} (ha : ∀ x ∈ a, P x) (ha' : ∀ x ∈ a', P x)
    (hr : ∀ x ∈ r.head?, ¬P x) (hr' : ∀ x ∈ r'.head?, ¬P x) (h : a ++ r = a' ++ r') : a = a' ∧ r = r' := by
  induction a generalizing a' with
  | nil =>
    cases a' with
    | nil => exact ⟨rfl, h⟩
    | cons x a' =>
      rw [List.nil_append] at h
      subst h
      exact absurd (ha' x (by simp)) (hr x (by simp))
  | cons x a ih =>
    cases a' with
    | nil =>
      rw [List.nil_append] at h
      subst h
      exact absurd (ha x (by simp)) (hr' x (by simp))
    | cons y a' =>
      rw [List.cons_append, List.cons_append] at h
      injection h with h1 h2
      obtain ⟨q1, q2⟩ := ih (fun z hz => ha z (by simp [hz])) (fun z hz => ha' z (by simp [hz])) h2
      exact ⟨by rw [h1, q1], q2⟩

theorem char_unique {c c' : Char} {t t' r r' : Str} (h : CharText c t) (h' : CharText c' t') (he : t ++ r = t' ++ r') :
    c = c' ∧ t = t' ∧ r = r' := by
  cases h <;> cases h' <;> simp_all <;> (rename_i h1 h2; exact absurd he.1.symm h2)

theorem char_first {c : Char} {t : Str} (h : CharText c t) : ∃ x u, t = x :: u ∧ x ≠ '"' := by
  cases h <;> simp_all

theorem chars_unique {s t : Str} (h : CharsText s t) : ∀ {s' t' r r' : Str}, CharsText s' t' → t ++ '"' :: r = t' ++ '"' :: r' →
    s = s' ∧ t = t' ∧ r = r' := by
  induction h with
  | nil =>
    intro s' t' r r' h' he
    cases h' with
    | nil => simpa using he
    | cons hc _ =>
      obtain ⟨x, u, rfl, hx⟩ := char_first hc
      simp only [List.nil_append, List.cons_append, List.append_assoc] at he
      injection he with h1 _
      exact absurd h1.symm hx
  | cons hc hs ih =>
    intro s' t' r r' h' he
    cases h' with
    | nil =>
      obtain ⟨x, u, rfl, hx⟩ := char_first hc
      simp only [List.nil_append, List.cons_append, List.append_assoc] at he
      injection he with h1 _
      exact absurd h1 hx
    | cons hc' hs' =>
      rw [List.append_assoc, List.append_assoc] at he
      obtain ⟨rfl, rfl, he'⟩ := char_unique hc hc' he
      obtain ⟨rfl, rfl, rfl⟩ := ih hs' he'
      exact ⟨rfl, rfl, rfl⟩

/-- The text goes on with something that is not part of a number. -/
def Stops (r : Str) : Prop := ∀ x ∈ r.head?, isDigit x = false

def isBlankChar (c : Char) : Prop := c = ' ' ∨ c = '\t' ∨ c = '\n' ∨ c = '\r'

/-- The first character of a value is none of those between values. -/
theorem json_first {v : Json} {t : Str} (h : JsonText v t) :
    ∃ x u, t = x :: u ∧ ¬isBlankChar x ∧ x ≠ ']' ∧ x ≠ '}' ∧ x ≠ ',' := by
  cases h with
  | str h => exact ⟨_, _, rfl, by simp [isBlankChar]⟩
  | num n =>
    cases hd : Nat.toDigits 10 n with
    | nil => exact absurd hd Nat.toDigits_ne_nil
    | cons x u =>
      have : isDigit x = true := toDigits_digits (n := n) (by rw [hd]; simp)
      refine ⟨x, u, rfl, ?_, ?_, ?_, ?_⟩
      · rintro (rfl | rfl | rfl | rfl) <;> exact absurd this (by decide)
      all_goals rintro rfl; exact absurd this (by decide)
  | true => exact ⟨_, _, rfl, by simp [isBlankChar]⟩
  | false => exact ⟨_, _, rfl, by simp [isBlankChar]⟩
  | noItems h => exact ⟨_, _, rfl, by simp [isBlankChar]⟩
  | items h => exact ⟨_, _, rfl, by simp [isBlankChar]⟩
  | noMembers h => exact ⟨_, _, rfl, by simp [isBlankChar]⟩
  | members h => exact ⟨_, _, rfl, by simp [isBlankChar]⟩

/-- Blanks before a value or a bracket are the same. -/
theorem blank_unique {a a' r r' : Str} {x x' : Char} (ha : Blank a) (ha' : Blank a') (hx : ¬isBlankChar x) (hx' : ¬isBlankChar x')
    (h : a ++ x :: r = a' ++ x' :: r') : a = a' ∧ x = x' ∧ r = r' := by
  obtain ⟨q1, q2⟩ := span_unique (P := isBlankChar) ha ha' (by simpa using hx) (by simpa using hx') h
  injection q2 with q2 q3
  exact ⟨q1, q2, q3⟩

theorem stops_blank {b r : Str} {x : Char} (hb : Blank b) (hx : isDigit x = false) : Stops (b ++ x :: r) := by
  intro y hy
  cases b with
  | nil => simp at hy; rw [← hy]; exact hx
  | cons z b =>
    simp at hy
    subst hy
    rcases hb z (by simp) with rfl | rfl | rfl | rfl <;> rfl

theorem blank_value {a a' r r' t t' : Str} {v v' : Json} (ha : Blank a) (ha' : Blank a') (ht : JsonText v t) (ht' : JsonText v' t')
    (h : a ++ (t ++ r) = a' ++ (t' ++ r')) : a = a' ∧ t ++ r = t' ++ r' := by
  obtain ⟨x, u, rfl, hx, _⟩ := json_first ht
  obtain ⟨x', u', rfl, hx', _⟩ := json_first ht'
  obtain ⟨q1, q2, q3⟩ := blank_unique ha ha' hx hx' (by simpa using h)
  exact ⟨q1, by simp [q2, q3]⟩

theorem brackets_not_blank : ¬isBlankChar ']' ∧ ¬isBlankChar '}' ∧ ¬isBlankChar ',' ∧ ¬isBlankChar '"' ∧ ¬isBlankChar ':' := by
  simp [isBlankChar]

theorem digits_head (n : Nat) : ∃ x u, Nat.toDigits 10 n = x :: u ∧ isDigit x = true := by
  cases hd : Nat.toDigits 10 n with
  | nil => exact absurd hd Nat.toDigits_ne_nil
  | cons x u => exact ⟨x, u, rfl, toDigits_digits (n := n) (by rw [hd]; simp)⟩

theorem items_first {xs : List Json} {t : Str} (h : ItemsText xs t) : ∃ a x u, t = a ++ x :: u ∧ Blank a ∧ ¬isBlankChar x ∧ x ≠ ']' := by
  cases h with
  | one ha ht hb => obtain ⟨x, u, rfl, hx, h1, _⟩ := json_first ht; exact ⟨_, x, _, rfl, ha, hx, h1⟩
  | more ha ht hb hu => obtain ⟨x, u, rfl, hx, h1, _⟩ := json_first ht; exact ⟨_, x, _, rfl, ha, hx, h1⟩

theorem members_first {ms : List (Str × Json)} {t : Str} (h : MembersText ms t) : ∃ a u, t = a ++ '"' :: u ∧ Blank a := by
  cases h with
  | one ha => exact ⟨_, _, rfl, ha⟩
  | more ha => exact ⟨_, _, rfl, ha⟩

/-- What kind of value starts with a character. -/
def startKind (c : Char) : Nat :=
  if c = '"' then 0 else if isDigit c then 1 else if c = 't' then 2 else if c = 'f' then 3 else if c = '[' then 4 else 5

def valueKind : Json → Nat
  | .str _ => 0
  | .num _ => 1
  | .bool b => if b then 2 else 3
  | .arr _ => 4
  | .obj _ => 5

theorem start_kind {v : Json} {t : Str} (h : JsonText v t) : ∃ x u, t = x :: u ∧ startKind x = valueKind v := by
  cases h with
  | num n =>
    obtain ⟨x, u, hx, hd⟩ := digits_head n
    refine ⟨x, u, hx, ?_⟩
    have : x ≠ '"' := by rintro rfl; exact absurd hd (by decide)
    simp [startKind, valueKind, this, hd]
  | str h => exact ⟨_, _, rfl, rfl⟩
  | true => exact ⟨_, _, rfl, rfl⟩
  | false => exact ⟨_, _, rfl, rfl⟩
  | noItems h => exact ⟨_, _, rfl, rfl⟩
  | items h => exact ⟨_, _, rfl, rfl⟩
  | noMembers h => exact ⟨_, _, rfl, rfl⟩
  | members h => exact ⟨_, _, rfl, rfl⟩

theorem same_kind {v v' : Json} {t t' r r' : Str} (h : JsonText v t) (h' : JsonText v' t') (he : t ++ r = t' ++ r') :
    valueKind v = valueKind v' := by
  obtain ⟨x, u, rfl, hk⟩ := start_kind h
  obtain ⟨x', u', rfl, hk'⟩ := start_kind h'
  injection he with e _
  rw [← hk, ← hk', e]

mutual

theorem json_unique {v : Json} {t : Str} (h : JsonText v t) {v' : Json} {t' r r' : Str} (h' : JsonText v' t') (he : t ++ r = t' ++ r')
    (hr : Stops r) (hr' : Stops r') : v = v' ∧ t = t' ∧ r = r' := by
  have hk := same_kind h h' he
  match h with
  | .str h =>
    cases h' <;> try (simp [valueKind] at hk; done)
    rename_i h'
    simp only [List.cons_append, List.append_assoc, List.nil_append] at he
    injection he with _ he
    obtain ⟨rfl, rfl, rfl⟩ := chars_unique h h' he
    exact ⟨rfl, rfl, rfl⟩
  | .num n =>
    cases h' <;> try (simp [valueKind] at hk; done)
    rename_i m
    obtain ⟨q1, q2⟩ := span_unique (P := fun c => isDigit c = true) (fun c hc => toDigits_digits hc) (fun c hc => toDigits_digits hc)
      (fun x hx => by simp [hr x hx]) (fun x hx => by simp [hr' x hx]) he
    have : n = m := by rw [← digitsVal_toDigits n, q1, digitsVal_toDigits]
    subst this
    exact ⟨rfl, rfl, q2⟩
  | .true =>
    cases h' <;> try (simp [valueKind] at hk; done)
    exact ⟨rfl, rfl, by simpa using he⟩
  | .false =>
    cases h' <;> try (simp [valueKind] at hk; done)
    exact ⟨rfl, rfl, by simpa using he⟩
  | .noItems hw =>
    cases h' <;> try (simp [valueKind] at hk; done)
    · rename_i hw'
      simp only [List.cons_append, List.append_assoc, List.nil_append] at he
      injection he with _ he
      obtain ⟨rfl, _, rfl⟩ := blank_unique hw hw' brackets_not_blank.1 brackets_not_blank.1 he
      exact ⟨rfl, rfl, rfl⟩
    · rename_i hi
      obtain ⟨a, x, u, rfl, ha, hx, h1⟩ := items_first hi
      simp only [List.cons_append, List.append_assoc, List.nil_append] at he
      injection he with _ he
      obtain ⟨_, e, _⟩ := blank_unique hw ha brackets_not_blank.1 hx he
      exact absurd e.symm h1
  | .items hi =>
    cases h' <;> try (simp [valueKind] at hk; done)
    · rename_i hw
      obtain ⟨a, x, u, rfl, ha, hx, h1⟩ := items_first hi
      simp only [List.cons_append, List.append_assoc, List.nil_append] at he
      injection he with _ he
      obtain ⟨_, e, _⟩ := blank_unique ha hw hx brackets_not_blank.1 he
      exact absurd e h1
    · rename_i hi'
      simp only [List.cons_append, List.append_assoc, List.nil_append] at he
      injection he with _ he
      obtain ⟨rfl, rfl, rfl⟩ := items_unique hi hi' he
      exact ⟨rfl, rfl, rfl⟩
  | .noMembers hw =>
    cases h' <;> try (simp [valueKind] at hk; done)
    · rename_i hw'
      simp only [List.cons_append, List.append_assoc, List.nil_append] at he
      injection he with _ he
      obtain ⟨rfl, _, rfl⟩ := blank_unique hw hw' brackets_not_blank.2.1 brackets_not_blank.2.1 he
      exact ⟨rfl, rfl, rfl⟩
    · rename_i hi
      obtain ⟨a, u, rfl, ha⟩ := members_first hi
      simp only [List.cons_append, List.append_assoc, List.nil_append] at he
      injection he with _ he
      obtain ⟨_, e, _⟩ := blank_unique hw ha brackets_not_blank.2.1 brackets_not_blank.2.2.2.1 he
      exact absurd e (by decide)
  | .members hi =>
    cases h' <;> try (simp [valueKind] at hk; done)
    · rename_i hw
      obtain ⟨a, u, rfl, ha⟩ := members_first hi
      simp only [List.cons_append, List.append_assoc, List.nil_append] at he
      injection he with _ he
      obtain ⟨_, e, _⟩ := blank_unique ha hw brackets_not_blank.2.2.2.1 brackets_not_blank.2.1 he
      exact absurd e (by decide)
    · rename_i hi'
      simp only [List.cons_append, List.append_assoc, List.nil_append] at he
      injection he with _ he
      obtain ⟨rfl, rfl, rfl⟩ := members_unique hi hi' he
      exact ⟨rfl, rfl, rfl⟩
termination_by 2 * t.length
decreasing_by all_goals simp <;> omega

theorem items_unique {xs : List Json} {t : Str} (h : ItemsText xs t) {xs' : List Json} {t' r r' : Str} (h' : ItemsText xs' t')
    (he : t ++ ']' :: r = t' ++ ']' :: r') : xs = xs' ∧ t = t' ∧ r = r' := by
  match h with
  | .one ha ht hb =>
    cases h' with
    | one ha' ht' hb' =>
      simp only [List.append_assoc] at he
      obtain ⟨rfl, he1⟩ := blank_value ha ha' ht ht' he
      obtain ⟨rfl, rfl, he2⟩ := json_unique ht ht' he1 (stops_blank hb (by rfl)) (stops_blank hb' (by rfl))
      obtain ⟨rfl, _, rfl⟩ := blank_unique hb hb' brackets_not_blank.1 brackets_not_blank.1 he2
      exact ⟨rfl, rfl, rfl⟩
    | more ha' ht' hb' hu' =>
      simp only [List.append_assoc, List.cons_append] at he
      obtain ⟨rfl, he1⟩ := blank_value ha ha' ht ht' he
      obtain ⟨rfl, rfl, he2⟩ := json_unique ht ht' he1 (stops_blank hb (by rfl)) (stops_blank hb' (by rfl))
      obtain ⟨_, e, _⟩ := blank_unique hb hb' brackets_not_blank.1 brackets_not_blank.2.2.1 he2
      exact absurd e (by decide)
  | .more ha ht hb hu =>
    cases h' with
    | one ha' ht' hb' =>
      simp only [List.append_assoc, List.cons_append] at he
      obtain ⟨rfl, he1⟩ := blank_value ha ha' ht ht' he
      obtain ⟨rfl, rfl, he2⟩ := json_unique ht ht' he1 (stops_blank hb (by rfl)) (stops_blank hb' (by rfl))
      obtain ⟨_, e, _⟩ := blank_unique hb hb' brackets_not_blank.2.2.1 brackets_not_blank.1 he2
      exact absurd e (by decide)
    | more ha' ht' hb' hu' =>
      simp only [List.append_assoc, List.cons_append] at he
      obtain ⟨rfl, he1⟩ := blank_value ha ha' ht ht' he
      obtain ⟨rfl, rfl, he2⟩ := json_unique ht ht' he1 (stops_blank hb (by rfl)) (stops_blank hb' (by rfl))
      obtain ⟨rfl, _, he3⟩ := blank_unique hb hb' brackets_not_blank.2.2.1 brackets_not_blank.2.2.1 he2
      obtain ⟨rfl, rfl, rfl⟩ := items_unique hu hu' he3
      exact ⟨rfl, rfl, rfl⟩
termination_by 2 * t.length + 1
decreasing_by all_goals simp <;> omega

theorem members_unique {ms : List (Str × Json)} {t : Str} (h : MembersText ms t) {ms' : List (Str × Json)} {t' r r' : Str}
    (h' : MembersText ms' t') (he : t ++ '}' :: r = t' ++ '}' :: r') : ms = ms' ∧ t = t' ∧ r = r' := by
  match h with
  | .one ha hs hb hc ht hd =>
    cases h' with
    | one ha' hs' hb' hc' ht' hd' =>
      simp only [List.append_assoc, List.cons_append] at he
      obtain ⟨rfl, _, he1⟩ := blank_unique ha ha' brackets_not_blank.2.2.2.1 brackets_not_blank.2.2.2.1 he
      obtain ⟨rfl, rfl, he2⟩ := chars_unique hs hs' he1
      obtain ⟨rfl, _, he3⟩ := blank_unique hb hb' brackets_not_blank.2.2.2.2 brackets_not_blank.2.2.2.2 he2
      obtain ⟨rfl, he4⟩ := blank_value hc hc' ht ht' he3
      obtain ⟨rfl, rfl, he5⟩ := json_unique ht ht' he4 (stops_blank hd (by rfl)) (stops_blank hd' (by rfl))
      obtain ⟨rfl, _, rfl⟩ := blank_unique hd hd' brackets_not_blank.2.1 brackets_not_blank.2.1 he5
      exact ⟨rfl, rfl, rfl⟩
    | more ha' hs' hb' hc' ht' hd' hu' =>
      simp only [List.append_assoc, List.cons_append] at he
      obtain ⟨rfl, _, he1⟩ := blank_unique ha ha' brackets_not_blank.2.2.2.1 brackets_not_blank.2.2.2.1 he
      obtain ⟨rfl, rfl, he2⟩ := chars_unique hs hs' he1
      obtain ⟨rfl, _, he3⟩ := blank_unique hb hb' brackets_not_blank.2.2.2.2 brackets_not_blank.2.2.2.2 he2
      obtain ⟨rfl, he4⟩ := blank_value hc hc' ht ht' he3
      obtain ⟨rfl, rfl, he5⟩ := json_unique ht ht' he4 (stops_blank hd (by rfl)) (stops_blank hd' (by rfl))
      obtain ⟨_, e, _⟩ := blank_unique hd hd' brackets_not_blank.2.1 brackets_not_blank.2.2.1 he5
      exact absurd e (by decide)
  | .more ha hs hb hc ht hd hu =>
    cases h' with
    | one ha' hs' hb' hc' ht' hd' =>
      simp only [List.append_assoc, List.cons_append] at he
      obtain ⟨rfl, _, he1⟩ := blank_unique ha ha' brackets_not_blank.2.2.2.1 brackets_not_blank.2.2.2.1 he
      obtain ⟨rfl, rfl, he2⟩ := chars_unique hs hs' he1
      obtain ⟨rfl, _, he3⟩ := blank_unique hb hb' brackets_not_blank.2.2.2.2 brackets_not_blank.2.2.2.2 he2
      obtain ⟨rfl, he4⟩ := blank_value hc hc' ht ht' he3
      obtain ⟨rfl, rfl, he5⟩ := json_unique ht ht' he4 (stops_blank hd (by rfl)) (stops_blank hd' (by rfl))
      obtain ⟨_, e, _⟩ := blank_unique hd hd' brackets_not_blank.2.2.1 brackets_not_blank.2.1 he5
      exact absurd e (by decide)
    | more ha' hs' hb' hc' ht' hd' hu' =>
      simp only [List.append_assoc, List.cons_append] at he
      obtain ⟨rfl, _, he1⟩ := blank_unique ha ha' brackets_not_blank.2.2.2.1 brackets_not_blank.2.2.2.1 he
      obtain ⟨rfl, rfl, he2⟩ := chars_unique hs hs' he1
      obtain ⟨rfl, _, he3⟩ := blank_unique hb hb' brackets_not_blank.2.2.2.2 brackets_not_blank.2.2.2.2 he2
      obtain ⟨rfl, he4⟩ := blank_value hc hc' ht ht' he3
      obtain ⟨rfl, rfl, he5⟩ := json_unique ht ht' he4 (stops_blank hd (by rfl)) (stops_blank hd' (by rfl))
      obtain ⟨rfl, _, he6⟩ := blank_unique hd hd' brackets_not_blank.2.2.1 brackets_not_blank.2.2.1 he5
      obtain ⟨rfl, rfl, rfl⟩ := members_unique hu hu' he6
      exact ⟨rfl, rfl, rfl⟩
termination_by 2 * t.length + 1
decreasing_by all_goals simp <;> omega

end

/-- A text is the JSON text of at most one value. -/
theorem json_unambiguous {v v' : Json} {t : Str} (h : JsonText v t) (h' : JsonText v' t) : v = v' :=
  (json_unique (r := []) (r' := []) h h' rfl (by intro x hx; simp at hx) (by intro x hx; simp at hx)).1

end BurnFm
