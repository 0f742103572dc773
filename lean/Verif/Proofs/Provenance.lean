import Verif.Spec.Provenance
import Verif.Proofs.FileFacts
import Mathlib.Data.List.Induction

namespace BurnFm
open Spec

theorem sinceLast_snoc (q : Event → Bool) (es : List Event) (e : Event) :
    sinceLast q (es ++ [e]) = if q e then some [] else (sinceLast q es).map (· ++ [e]) := by
  induction es with
  | nil => simp [sinceLast]
  | cons a es ih =>
    rw [List.cons_append, sinceLast, ih, sinceLast]
    by_cases h : q e = true
    · simp [h]
    · simp only [h]
      cases sinceLast q es <;> by_cases ha : q a = true <;> simp [ha]

theorem sinceLast_filter {q r : Event → Bool} (h : ∀ e, q e = true → r e = true) (es : List Event) :
    sinceLast q (es.filter r) = (sinceLast q es).map (·.filter r) := by
  induction es with
  | nil => rfl
  | cons a es ih =>
    by_cases hr : r a = true
    · rw [List.filter_cons_of_pos hr, sinceLast, sinceLast, ih]
      cases sinceLast q es <;> by_cases ha : q a = true <;> simp [ha]
    · have hq : q a = false := by cases hq : q a; rfl; exact absurd (h a hq) hr
      rw [List.filter_cons_of_neg hr, sinceLast, ih, hq]
      simp

theorem lastProperty_snoc (dir : List Nat → Bool) (k : Nat) (es : List Event) (e : Event) :
    lastProperty dir k (es ++ [e]) = (propertyAt dir k e).or (lastProperty dir k es) := by
  unfold lastProperty
  rw [List.filterMap_append]
  cases h : propertyAt dir k e <;> simp [h]

theorem filterMap_filter_of {α β : Type} {f : α → Option β} {r : α → Bool} (h : ∀ a, f a ≠ none → r a = true) (l : List α) :
    (l.filter r).filterMap f = l.filterMap f := by
  induction l with
  | nil => rfl
  | cons a l ih =>
    by_cases hr : r a = true
    · rw [List.filter_cons_of_pos hr, List.filterMap_cons, List.filterMap_cons, ih]
    · have : f a = none := by
        cases hf : f a
        · rfl
        · exact absurd (h a (by simp [hf])) hr
      rw [List.filter_cons_of_neg hr, List.filterMap_cons, this, ih]

theorem lastProperty_filter {dir : List Nat → Bool} {k : Nat} {r : Event → Bool}
    (h : ∀ e, propertyAt dir k e ≠ none → r e = true) (es : List Event) :
    lastProperty dir k (es.filter r) = lastProperty dir k es := by
  unfold lastProperty
  rw [filterMap_filter_of h]

theorem propertyAt_ne {dir : List Nat → Bool} {k : Nat} {e : Event} (h : propertyAt dir k e ≠ none) :
    ∃ b, e.what = .kv k b ∧ dir e.path = true := by
  unfold propertyAt at h
  split at h
  · rename_i k' b hw
    split at h
    · rename_i hc
      exact ⟨b, by rw [hw, hc.1], hc.2⟩
    · exact absurd rfl h
  · exact absurd rfl h

theorem propertyAt_kv {dir : List Nat → Bool} {k k' : Nat} {e : Event} {b : Bytes} (hw : e.what = .kv k' b) :
    propertyAt dir k e = if k' = k ∧ dir e.path = true then some b else none := by
  unfold propertyAt; rw [hw]

theorem propertyAt_push {dir : List Nat → Bool} {k : Nat} {e : Event} (hw : e.what = .push) : propertyAt dir k e = none := by
  unfold propertyAt; rw [hw]

theorem propertyAt_dir {dir : List Nat → Bool} {k : Nat} {e : Event} (hd : dir e.path = false) : propertyAt dir k e = none := by
  cases h : propertyAt dir k e with
  | none => rfl
  | some b =>
    obtain ⟨_, _, h2⟩ := propertyAt_ne (k := k) (dir := dir) (e := e) (by simp [h])
    rw [hd] at h2; cases h2

theorem enters_push {dir : List Nat → Bool} {e : Event} (hw : e.what = .push) : enters dir e = dir e.path := by
  simp [enters, hw]

theorem enters_kv {dir : List Nat → Bool} {e : Event} {k : Nat} {b : Bytes} (hw : e.what = .kv k b) : enters dir e = false := by
  simp [enters, hw]

theorem enters_iff {dir : List Nat → Bool} {e : Event} : enters dir e = true ↔ e.what = .push ∧ dir e.path = true := by
  simp [enters]

/-! Layouts -/

theorem inLayout_path {x : Nat} {path : List Nat} (h : inLayout x path = true) : ∃ rest, path = 4 :: 1 :: 7 :: x :: rest := by
  match path, h with
  | [], h => simp [inLayout] at h
  | [_], h => simp [inLayout] at h
  | [_, _], h => simp [inLayout] at h
  | [_, _, _], h => simp [inLayout] at h
  | a :: b :: c :: d :: rest, h =>
    simp [inLayout] at h
    obtain ⟨rfl, rfl, rfl, rfl⟩ := h
    exact ⟨rest, rfl⟩

theorem inLayout_get {x : Nat} {path : List Nat} (hp : path.take 3 = [4, 1, 7]) (hl : 4 ≤ path.length) :
    inLayout x path = true ↔ path.getD 3 0 = x := by
  match path, hp, hl with
  | a :: b :: c :: d :: rest, hp, _ =>
    simp at hp
    obtain ⟨rfl, rfl, rfl⟩ := hp
    simp [inLayout]

theorem usub_mod {p : Profile} {a b c : Nat} (h : usub p a b = .ok c) (ha : a < 2 ^ 64) (hb : b ≤ 2 ^ 64) :
    c = (a + 2 ^ 64 - b) % 2 ^ 64 := by
  unfold usub at h
  split at h
  · cases h; omega
  · split at h
    · cases h
    · cases h; omega

theorem layoutSaid_push {dec : Bytes → Str} {es : List Event} {e : Event} {x : Nat} (hw : e.what = .push)
    (hd : inLayout x e.path = true) : layoutSaid dec (es ++ [e]) x = some {} := by
  unfold layoutSaid
  rw [sinceLast_snoc, enters_push hw, if_pos hd]
  simp [lastText, lastProperty]

theorem layoutSaid_kv {dec : Bytes → Str} {es : List Event} {e : Event} {x k : Nat} {b : Bytes} (hw : e.what = .kv k b)
    (hd : inLayout x e.path = true) : layoutSaid dec (es ++ [e]) x = (layoutSaid dec es x).map fun l =>
      if k = 2 then { l with tableOccurrence := occurrenceByte b } else if k = 16 then { l with name := dec b } else l := by
  unfold layoutSaid
  rw [sinceLast_snoc, enters_kv hw]
  cases sinceLast (enters (inLayout x)) es with
  | none => simp
  | some since =>
    simp only [Bool.false_eq_true, if_false, Option.map_some, lastText, lastProperty_snoc]
    rw [propertyAt_kv hw, propertyAt_kv hw, hd]
    have pos : ∀ n : Nat, k = n → (if k = n ∧ true = true then some b else none) = some b := fun n h => if_pos ⟨h, rfl⟩
    have neg : ∀ n : Nat, ¬ k = n → (if k = n ∧ true = true then some b else none) = none := fun n h => if_neg fun h' => h h'.1
    by_cases h2 : k = 2
    · have h16 : ¬ k = 16 := by omega
      rw [if_pos h2, pos 2 h2, neg 16 h16, Option.none_or, Option.some_or, Option.map_some, Option.getD_some]
    · rw [if_neg h2, neg 2 h2, Option.none_or]
      by_cases h16 : k = 16
      · rw [if_pos h16, pos 16 h16, Option.some_or, Option.map_some, Option.getD_some]
      · rw [if_neg h16, neg 16 h16, Option.none_or]

theorem layoutSaid_other {dec : Bytes → Str} {es : List Event} {e : Event} {x : Nat} (hd : inLayout x e.path = false) :
    layoutSaid dec (es ++ [e]) x = layoutSaid dec es x := by
  unfold layoutSaid
  have : enters (inLayout x) e = false := by simp [enters, hd]
  rw [sinceLast_snoc, this]
  cases sinceLast (enters (inLayout x)) es with
  | none => simp
  | some since => simp [lastText, lastProperty_snoc, propertyAt_dir hd]

theorem run_layouts_said {p : Profile} {x : Nat} (es : List Event) : ∀ {st : DState}, (∀ e ∈ es, aboutLayouts e = true) →
    runEvents p {} es = .ok st → st.file.layouts.get x = layoutSaid fmStringDecrypt es x := by
  induction es using List.reverseRecOn with
  | nil => intro st _ h; cases h; rfl
  | append_singleton es e ih =>
    intro st ha h
    rw [runEvents_append] at h
    obtain ⟨u, h1, h2⟩ := bind_ok.mp h
    have hu := ih (fun e he => ha e (by simp [he])) h1
    rw [runEvents_cons] at h2
    obtain ⟨v, h3, h4⟩ := bind_ok.mp h2
    cases h4
    cases hd : inLayout x e.path with
    | false =>
      rw [layoutSaid_other hd, ← hu]
      refine layout_keep h3 fun hab hx => ?_
      unfold aboutLayouts at hab
      simp only [Bool.and_eq_true, beq_iff_eq, decide_eq_true_eq] at hab
      rw [(inLayout_get hab.1.1 hab.1.2).mpr hx] at hd
      cases hd
    | true =>
      obtain ⟨rest, hp⟩ := inLayout_path hd
      have hab := ha e (by simp)
      unfold edispatch dispatch at h3
      rw [hp, classify_layout] at h3
      dsimp only at h3
      unfold armLayout at h3
      cases hw : e.what with
      | push =>
        rw [layoutSaid_push hw hd]
        rw [if_pos (by simp [toChunk, hw])] at h3
        cases h3
        dsimp only
        rw [HMap.get_insert, if_pos rfl]
      | kv k b =>
        rw [layoutSaid_kv hw hd, ← hu]
        rw [if_neg (by simp [toChunk, hw])] at h3
        simp only [toChunk, hw, Option.some.injEq] at h3
        rw [HMap.contains_eq] at h3
        cases hg : u.file.layouts.get x with
        | none =>
          rw [hg] at h3
          simp only [Option.isSome_none, Bool.false_eq_true, and_false, if_false] at h3
          cases h3
          rw [hg]; rfl
        | some l =>
          rw [hg] at h3
          simp only [Option.isSome_some, and_true] at h3
          split at h3
          · rename_i hk
            obtain ⟨d, hd', h3⟩ := bind_ok.mp h3
            cases hd'
            obtain ⟨c, hc, h3⟩ := bind_ok.mp h3
            obtain ⟨o, ho, h3⟩ := bind_ok.mp h3
            cases h3
            dsimp only
            rw [HMap.get_modify, if_pos rfl, hg, Option.map_some, Option.map_some, if_pos hk]
            have hb : byteAt b 1 = c.toNat := by
              unfold byteAt
              rw [List.getD_eq_getElem?_getD, idx_ok.mp hc]
              rfl
            have ho' : o = occurrenceByte b := by
              rw [usub_mod ho (Nat.lt_trans c.toNat_lt (by omega)) (by omega), occurrenceByte, hb]
            rw [ho']
          · rename_i hk
            split at h3
            · rename_i hk'
              obtain ⟨d, hd', h3⟩ := bind_ok.mp h3
              cases hd'
              cases h3
              dsimp only
              rw [HMap.get_modify, if_pos rfl, hg, Option.map_some, Option.map_some, if_neg hk, if_pos hk']
            · rename_i hk'
              cases h3
              rw [hg, Option.map_some, if_neg hk, if_neg hk']
      | _ => simp [aboutLayouts, hw] at hab

theorem aboutLayouts_of_dir {x : Nat} {e : Event} (hd : inLayout x e.path = true)
    (hw : e.what = .push ∨ ∃ k b, e.what = .kv k b) : aboutLayouts e = true := by
  obtain ⟨rest, hp⟩ := inLayout_path hd
  rcases hw with hw | ⟨k, b, hw⟩ <;> simp [aboutLayouts, hp, hw]

theorem layoutSaid_filter (dec : Bytes → Str) (es : List Event) (x : Nat) :
    layoutSaid dec (es.filter aboutLayouts) x = layoutSaid dec es x := by
  unfold layoutSaid
  rw [sinceLast_filter (fun e h => aboutLayouts_of_dir (enters_iff.mp h).2 (.inl (enters_iff.mp h).1))]
  have hk : ∀ k e, propertyAt (inLayout x) k e ≠ none → aboutLayouts e = true := by
    intro k e h
    obtain ⟨b, h1, h2⟩ := propertyAt_ne h
    exact aboutLayouts_of_dir h2 (.inr ⟨k, b, h1⟩)
  cases sinceLast (enters (inLayout x)) es with
  | none => rfl
  | some since =>
    simp only [Option.map_some, lastText]
    rw [lastProperty_filter (hk 16), lastProperty_filter (hk 2)]

/-! Fields -/

theorem lastText_kv {dec : Bytes → Str} {dir : List Nat → Bool} {k k' : Nat} {es : List Event} {e : Event} {b : Bytes}
    (hw : e.what = .kv k' b) (hd : dir e.path = true) :
    lastText dec dir k (es ++ [e]) = if k' = k then dec b else lastText dec dir k es := by
  unfold lastText
  rw [lastProperty_snoc, propertyAt_kv hw, hd]
  by_cases h : k' = k
  · rw [if_pos ⟨h, rfl⟩, if_pos h, Option.some_or, Option.map_some, Option.getD_some]
  · rw [if_neg fun h' => h h'.1, if_neg h, Option.none_or]

theorem lastText_push {dec : Bytes → Str} {dir : List Nat → Bool} {k : Nat} {es : List Event} {e : Event}
    (hw : e.what = .push) : lastText dec dir k (es ++ [e]) = lastText dec dir k es := by
  unfold lastText
  rw [lastProperty_snoc, propertyAt_push hw, Option.none_or]

theorem lastText_other {dec : Bytes → Str} {dir : List Nat → Bool} {k : Nat} {es : List Event} {e : Event}
    (hd : dir e.path = false) : lastText dec dir k (es ++ [e]) = lastText dec dir k es := by
  unfold lastText
  rw [lastProperty_snoc, propertyAt_dir hd, Option.none_or]

theorem fieldSaid_push {dec : Bytes → Str} {es : List Event} {e : Event} {t k : Nat} (hw : e.what = .push)
    (hd : inField t k e.path = true) : fieldSaid dec (es ++ [e]) t k = some {} := by
  unfold fieldSaid
  rw [sinceLast_snoc, enters_push hw, if_pos hd]
  rfl

theorem fieldSaid_other {dec : Bytes → Str} {es : List Event} {e : Event} {t k : Nat} (hd : inField t k e.path = false) :
    fieldSaid dec (es ++ [e]) t k = fieldSaid dec es t k := by
  unfold fieldSaid
  have : enters (inField t k) e = false := by simp [enters, hd]
  rw [sinceLast_snoc, this]
  cases sinceLast (enters (inField t k)) es with
  | none => rfl
  | some since =>
    simp only [Bool.false_eq_true, if_false, Option.map_some, lastText_other hd]

theorem fieldSaid_kv {dec : Bytes → Str} {es : List Event} {e : Event} {t k key : Nat} {b : Bytes} (hw : e.what = .kv key b)
    (hd : inField t k e.path = true) :
    fieldSaid dec (es ++ [e]) t k = (fieldSaid dec es t k).map ((fieldSetter key (dec b)).getD id) := by
  unfold fieldSaid
  rw [sinceLast_snoc, enters_kv hw]
  cases sinceLast (enters (inField t k)) es with
  | none => rfl
  | some since =>
    simp only [Bool.false_eq_true, if_false, Option.map_some, lastText_kv hw hd]
    unfold fieldSetter
    by_cases h2 : key = 2
    · subst h2; rfl
    by_cases h3 : key = 3
    · subst h3; rfl
    by_cases h16 : key = 16
    · subst h16; rfl
    by_cases h129 : key = 129
    · subst h129; rfl
    by_cases h130 : key = 130
    · subst h130; rfl
    simp only [h2, h3, h16, h129, h130, if_false, Option.getD_none, id]

theorem fieldSaid_nil {dec : Bytes → Str} {t k : Nat} : fieldSaid dec [] t k = none := rfl

theorem fieldsDir_iff {t : Nat} {path : List Nat} : fieldsDir t path = true ↔ ∃ f, path = [128 + t, 3, 5, f] := by
  constructor
  · intro h
    match path, h with
    | [a, b, c, d], h =>
      simp [fieldsDir] at h
      obtain ⟨rfl, rfl, rfl⟩ := h
      exact ⟨d, rfl⟩
    | [], h => simp [fieldsDir] at h
    | [_], h => simp [fieldsDir] at h
    | [_, _], h => simp [fieldsDir] at h
    | [_, _, _], h => simp [fieldsDir] at h
    | _ :: _ :: _ :: _ :: _ :: _, h => simp [fieldsDir] at h
  · rintro ⟨f, rfl⟩; simp [fieldsDir]

theorem inField_mk {t k f : Nat} : inField t k [128 + t, 3, 5, f] = decide (f % 65536 = k) := by
  unfold inField
  rw [fieldsDir_iff.mpr ⟨f, rfl⟩]
  rfl

theorem tableEntryDir_iff {t : Nat} {path : List Nat} : tableEntryDir t path = true ↔ path = [3, 16, 5, 128 + t] := by
  simp [tableEntryDir]

theorem sinceLast_none {q : Event → Bool} {es : List Event} (h : ∀ e ∈ es, q e = false) : sinceLast q es = none := by
  induction es with
  | nil => rfl
  | cons a es ih => rw [sinceLast, ih fun e he => h e (by simp [he]), h a (by simp)]; rfl

theorem tableSince_enter {es : List Event} {e : Event} {t : Nat} (h : enters (tableEntryDir t) e = true) : tableSince (es ++ [e]) t = [] := by
  unfold tableSince
  rw [sinceLast_snoc, if_pos h]; rfl

theorem tableSince_snoc {es : List Event} {e : Event} {t : Nat} (h : enters (tableEntryDir t) e = false) :
    tableSince (es ++ [e]) t = tableSince es t ++ [e] := by
  unfold tableSince
  rw [sinceLast_snoc, h]
  cases sinceLast (enters (tableEntryDir t)) es <;> rfl

theorem tableKnown_snoc {es : List Event} {e : Event} {t : Nat} :
    tableKnown (es ++ [e]) t = (tableKnown es t || (enters (tableEntryDir t) e || enters (fieldsDir t) e)) := by
  simp [tableKnown]

theorem tableSince_unknown {es : List Event} {t : Nat} (h : tableKnown es t = false) : tableSince es t = es := by
  unfold tableSince
  rw [sinceLast_none]; rfl
  intro e he
  unfold tableKnown at h
  have := List.any_eq_false.mp h e he
  simp only [Bool.or_eq_true, not_or, Bool.not_eq_true] at this
  exact this.1

theorem enters_of_inField {t k : Nat} {e : Event} (h : enters (inField t k) e = true) : enters (fieldsDir t) e = true := by
  obtain ⟨h1, h2⟩ := enters_iff.mp h
  unfold inField at h2
  exact enters_iff.mpr ⟨h1, (Bool.and_eq_true _ _ ▸ h2).1⟩

theorem fieldSaid_unknown {dec : Bytes → Str} {es : List Event} {t k : Nat} (h : tableKnown es t = false) : fieldSaid dec es t k = none := by
  unfold fieldSaid
  rw [sinceLast_none]; rfl
  intro e he
  cases hq : enters (inField t k) e
  · rfl
  · have := List.any_eq_false.mp h e he
    simp only [Bool.or_eq_true, not_or, Bool.not_eq_true] at this
    rw [enters_of_inField hq] at this
    exact absurd this.2 (by simp)

/-- What is known about a table after some events. -/
def TableSaid (es : List Event) (t : Nat) (m : Option FTable) : Prop :=
  (tableKnown es t = false → m = none ∧ lastProperty (tableEntryDir t) 16 es = none) ∧
  (tableKnown es t = true → ∃ tb, m = some tb ∧ tb.name = lastText fmStringDecrypt (tableEntryDir t) 16 (tableSince es t) ∧
    ∀ k, tb.fields.get k = fieldSaid fmStringDecrypt (tableSince es t) t k)

/-- The four forms of an event about tables and fields. -/
theorem describesSchema_forms {e : Event} (h : describesSchema e = true) :
    ((∃ d, e.path = [3, 16, 5, d]) ∨ ∃ t f, e.path = [128 + t, 3, 5, f]) ∧ (e.what = .push ∨ ∃ k b, e.what = .kv k b) := by
  unfold describesSchema at h
  rw [Bool.and_eq_true] at h
  obtain ⟨h1, h2⟩ := h
  refine ⟨?_, ?_⟩
  · unfold isEntry at h1
    match hp : e.path, h1 with
    | [a, b, c, d], h1 =>
      simp only [List.length_cons, List.length_nil, List.take, Bool.and_eq_true, Bool.or_eq_true, beq_iff_eq, decide_eq_true_eq] at h1
      rcases h1.2 with h | ⟨⟨h3, h4⟩, h5⟩
      · simp at h
        obtain ⟨rfl, rfl, rfl⟩ := h
        exact .inl ⟨d, rfl⟩
      · simp at h3 h4 h5
        exact .inr ⟨a - 128, d, by rw [h4, h5, Nat.add_sub_cancel' h3]⟩
    | [], h1 => simp at h1
    | [_], h1 => simp at h1
    | [_, _], h1 => simp at h1
    | [_, _, _], h1 => simp at h1
    | _ :: _ :: _ :: _ :: _ :: _, h1 => simp at h1
  · cases hw : e.what <;> rw [hw] at h2 <;> simp at h2 <;> simp


theorem get_insert_ne {α : Type} {m : HMap α} {k k' : Nat} {v : α} (h : k' ≠ k) : (m.insert k v).get k' = m.get k' := by
  rw [HMap.get_insert, if_neg h]

theorem get_modify_ne {α : Type} {m : HMap α} {k k' : Nat} {f : α → α} (h : k' ≠ k) : (m.modify k f).get k' = m.get k' := by
  rw [HMap.get_modify, if_neg h]

theorem get_modify_none {α : Type} {m : HMap α} {k k' : Nat} {f : α → α} (h : m.get k' = none) : (m.modify k f).get k' = none := by
  rw [HMap.get_modify]
  split
  · rename_i e; rw [← e, h]; rfl
  · exact h

/-- Events about other tables change nothing. -/
theorem TableSaid.other {es : List Event} {e : Event} {t : Nat} {m : Option FTable} (h : TableSaid es t m)
    (h1 : tableEntryDir t e.path = false) (h2 : fieldsDir t e.path = false) : TableSaid (es ++ [e]) t m := by
  have e1 : enters (tableEntryDir t) e = false := by simp [enters, h1]
  have e2 : enters (fieldsDir t) e = false := by simp [enters, h2]
  have h3 : ∀ k, inField t k e.path = false := fun k => by simp [inField, h2]
  have hk : tableKnown (es ++ [e]) t = tableKnown es t := by rw [tableKnown_snoc, e1, e2]; simp
  refine ⟨fun hn => ?_, fun hn => ?_⟩ <;> rw [hk] at hn
  · obtain ⟨q1, q2⟩ := h.1 hn
    exact ⟨q1, by rw [lastProperty_snoc, propertyAt_dir h1, q2]; rfl⟩
  · obtain ⟨tb, q1, q2, q3⟩ := h.2 hn
    refine ⟨tb, q1, ?_, fun k => ?_⟩ <;> rw [tableSince_snoc e1]
    · rw [lastText_other h1, q2]
    · rw [fieldSaid_other (h3 k), q3]

theorem usub_eq {p : Profile} {d c : Nat} (h : usub p d 128 = .ok c) (hc : c < 2 ^ 63 + 128) : d = 128 + c := by
  unfold usub at h
  split at h
  · have := Except.ok.inj h; omega
  · split at h
    · cases h
    · have := Except.ok.inj h; omega

theorem usub_ne {p : Profile} {d t c : Nat} (h : usub p d 128 = .ok c) (hd : d ≠ 128 + t) (ht : t < 2 ^ 63 + 128) : c ≠ t :=
  fun hc => hd (by rw [usub_eq h (hc ▸ ht), hc])

theorem usub_add {p : Profile} {t : Nat} : usub p (128 + t) 128 = .ok t := by
  unfold usub
  rw [if_pos (Nat.le_add_right _ _)]
  show Except.ok (128 + t - 128) = _
  rw [Nat.add_sub_cancel_left]

theorem run_tables_said {p : Profile} {t : Nat} (ht : t < 2 ^ 63) (es : List Event) : ∀ {st : DState}, (∀ e ∈ es, describesSchema e = true) →
    tableKnown es (128 + t) = false → runEvents p {} es = .ok st →
    TableSaid es t (st.file.tables.get t) ∧ st.file.tables.get (128 + t) = none := by
  induction es using List.reverseRecOn with
  | nil => intro st _ _ h; cases h; exact ⟨⟨fun _ => ⟨rfl, rfl⟩, fun h => by cases h⟩, rfl⟩
  | append_singleton es e ih =>
    intro st ha hn h
    rw [runEvents_append] at h
    obtain ⟨u, h1, h2⟩ := bind_ok.mp h
    rw [tableKnown_snoc, Bool.or_eq_false_iff, Bool.or_eq_false_iff] at hn
    obtain ⟨hn, hn1, hn2⟩ := hn
    obtain ⟨hu, hu'⟩ := ih (fun e he => ha e (by simp [he])) hn h1
    rw [runEvents_cons] at h2
    obtain ⟨v, h3, h4⟩ := bind_ok.mp h2
    cases h4
    obtain ⟨hp, hw⟩ := describesSchema_forms (ha e (by simp))
    unfold edispatch dispatch at h3
    rcases hp with ⟨d, hp⟩ | ⟨t', f, hp⟩
    · rw [hp, classify_tableMeta] at h3
      dsimp only at h3
      unfold armTableMeta at h3
      have hf : fieldsDir t e.path = false := by rw [hp]; simp [fieldsDir]
      by_cases hd : d = 128 + t
      · subst hd
        have ht' : tableEntryDir t e.path = true := tableEntryDir_iff.mpr hp
        rcases hw with hw | ⟨k, b, hw⟩
        · rw [if_pos (by simp [toChunk, hw]), HMap.contains_eq, hu', usub_add] at h3
          cases h3
          dsimp only
          rw [HMap.get_insert, if_pos rfl, get_insert_ne (by omega)]
          have en : enters (tableEntryDir t) e = true := by rw [enters_push hw, ht']
          refine ⟨⟨fun hk => ?_, fun _ => ⟨_, rfl, ?_, fun k => ?_⟩⟩, hu'⟩
          · rw [tableKnown_snoc, en] at hk; simp at hk
          · rw [tableSince_enter en]; rfl
          · rw [tableSince_enter en]; rfl
        · rw [if_neg (by simp [toChunk, hw])] at h3
          have en : enters (tableEntryDir t) e = false := enters_kv hw
          have en2 : enters (fieldsDir t) e = false := enters_kv hw
          have hk : tableKnown (es ++ [e]) t = tableKnown es t := by rw [tableKnown_snoc, en, en2]; simp
          have hfd : ∀ k, inField t k e.path = false := fun k => by simp [inField, hf]
          split at h3
          · rename_i h16
            have h16 : k = 16 := by simpa [toChunk, hw] using h16
            subst h16
            rw [usub_add, ok_bind, HMap.contains_eq] at h3
            cases hg : u.file.tables.get t with
            | none => rw [hg] at h3; cases h3
            | some tb =>
              rw [hg] at h3
              cases h3
              dsimp only
              rw [HMap.get_modify, if_pos rfl, HMap.get_modify, if_neg (by omega), hg]
              refine ⟨⟨fun hkk => ?_, fun hkk => ?_⟩, hu'⟩ <;> rw [hk] at hkk
              · have := (hu.1 hkk).1; rw [hg] at this; cases this
              · obtain ⟨tb', q1, q2, q3⟩ := hu.2 hkk
                rw [hg] at q1; cases q1
                refine ⟨_, rfl, ?_, fun k => ?_⟩ <;> rw [tableSince_snoc en]
                · rw [lastText_kv hw ht', if_pos rfl]; simp [dataOr, toChunk, hw]
                · rw [fieldSaid_other (hfd k)]; exact q3 k
          · rename_i h16
            have h16 : ¬ k = 16 := by simpa [toChunk, hw] using h16
            cases h3
            refine ⟨⟨fun hkk => ?_, fun hkk => ?_⟩, hu'⟩ <;> rw [hk] at hkk
            · refine ⟨(hu.1 hkk).1, ?_⟩
              rw [lastProperty_snoc, propertyAt_kv hw, if_neg fun h => h16 h.1, (hu.1 hkk).2]; rfl
            · obtain ⟨tb, q1, q2, q3⟩ := hu.2 hkk
              refine ⟨tb, q1, ?_, fun k => ?_⟩ <;> rw [tableSince_snoc en]
              · rw [lastText_kv hw ht', if_neg h16, q2]
              · rw [fieldSaid_other (hfd k), q3]
      · have ht' : tableEntryDir t e.path = false := by rw [hp]; simpa [tableEntryDir] using hd
        suffices hh : st.file.tables.get t = u.file.tables.get t ∧ st.file.tables.get (128 + t) = none from
          ⟨hh.1 ▸ hu.other ht' hf, hh.2⟩
        rcases hw with hw | ⟨k, b, hw⟩
        · rw [if_pos (by simp [toChunk, hw])] at h3
          split at h3
          · cases h3; exact ⟨rfl, hu'⟩
          · obtain ⟨c, hc, h3⟩ := bind_ok.mp h3
            cases h3
            dsimp only
            have hdd : d ≠ 128 + (128 + t) := by
              intro hdd
              rw [hdd] at hp
              rw [enters_push hw, tableEntryDir_iff.mpr hp] at hn1; cases hn1
            have c1 := usub_ne hc hd (by omega)
            have c2 := usub_ne (t := 128 + t) hc hdd (by omega)
            exact ⟨get_insert_ne fun h => c1 h.symm, (get_insert_ne fun h => c2 h.symm).trans hu'⟩
        · rw [if_neg (by simp [toChunk, hw])] at h3
          split at h3
          · obtain ⟨c, hc, h3⟩ := bind_ok.mp h3
            split at h3
            · cases h3
              dsimp only
              exact ⟨get_modify_ne fun h => usub_ne hc hd (by omega) h.symm, get_modify_none hu'⟩
            · cases h3
          · cases h3; exact ⟨rfl, hu'⟩
    · rw [hp, classify_field f (Nat.le_add_right _ _)] at h3
      dsimp only at h3
      unfold armField at h3
      rw [if_neg (by omega)] at h3
      dsimp only at h3
      rw [Nat.add_sub_cancel_left] at h3
      have htd : tableEntryDir t e.path = false := by rw [hp]; simp [tableEntryDir]
      by_cases hd : t' = t
      · subst hd
        have hfs : fieldsDir t' e.path = true := fieldsDir_iff.mpr ⟨f, hp⟩
        have hfd : ∀ k, inField t' k e.path = decide (f % 65536 = k) := fun k => by rw [hp, inField_mk]
        have en : enters (tableEntryDir t') e = false := by simp [enters, htd]
        rcases hw with hw | ⟨k, b, hw⟩
        · rw [if_pos (by simp [toChunk, hw])] at h3
          have en2 : enters (fieldsDir t') e = true := by rw [enters_push hw, hfs]
          cases h3
          dsimp only
          have hg : ∃ tb : FTable, (if u.file.tables.contains t' = true then u.file.tables else u.file.tables.insert t' {}).get t' = some tb ∧
              tb.name = lastText fmStringDecrypt (tableEntryDir t') 16 (tableSince es t') ∧
              ∀ k, tb.fields.get k = fieldSaid fmStringDecrypt (tableSince es t') t' k := by
            cases hkk : tableKnown es t' with
            | true =>
              obtain ⟨tb, q1, q2, q3⟩ := hu.2 hkk
              rw [HMap.contains_eq, q1]
              exact ⟨tb, q1, q2, q3⟩
            | false =>
              obtain ⟨q1, q2⟩ := hu.1 hkk
              rw [HMap.contains_eq, q1]
              refine ⟨{}, ?_, ?_, fun k => ?_⟩
              · simp [HMap.get_insert]
              · rw [tableSince_unknown hkk, lastText, q2]; rfl
              · rw [tableSince_unknown hkk, fieldSaid_unknown hkk]; rfl
          obtain ⟨tb, q1, q2, q3⟩ := hg
          refine ⟨⟨fun hk => ?_, fun _ => ⟨_, by rw [HMap.get_modify, if_pos rfl, q1]; rfl, ?_, fun k => ?_⟩⟩, ?_⟩
          · rw [tableKnown_snoc, en2] at hk; simp at hk
          · rw [tableSince_snoc en, lastText_push hw]; exact q2
          · rw [tableSince_snoc en]
            dsimp only
            rw [HMap.get_insert]
            by_cases hk : f % 65536 = k
            · rw [fieldSaid_push hw (by rw [hfd, hk]; simp), if_pos hk.symm]
            · rw [fieldSaid_other (by rw [hfd]; simpa using hk), if_neg (fun h => hk h.symm), q3]
          · rw [HMap.get_modify, if_neg (by omega)]
            split
            · exact hu'
            · rw [HMap.get_insert, if_neg (by omega), hu']
        · rw [if_neg (by simp [toChunk, hw])] at h3
          have en2 : enters (fieldsDir t') e = false := enters_kv hw
          have hk : tableKnown (es ++ [e]) t' = tableKnown es t' := by rw [tableKnown_snoc, en, en2]; simp
          simp only [toChunk, hw, dataOr, Option.getD_some] at h3
          cases hs : fieldSetter k (fmStringDecrypt b) with
          | none =>
            rw [hs] at h3
            cases h3
            refine ⟨⟨fun hkk => ?_, fun hkk => ?_⟩, hu'⟩ <;> rw [hk] at hkk
            · refine ⟨(hu.1 hkk).1, ?_⟩
              rw [lastProperty_snoc, propertyAt_dir htd, (hu.1 hkk).2]; rfl
            · obtain ⟨tb, q1, q2, q3⟩ := hu.2 hkk
              refine ⟨tb, q1, ?_, fun k' => ?_⟩ <;> rw [tableSince_snoc en]
              · rw [lastText_other htd, q2]
              · by_cases hk' : f % 65536 = k'
                · rw [fieldSaid_kv hw (by rw [hfd, hk']; simp), hs, q3]
                  cases fieldSaid fmStringDecrypt (tableSince es t') t' k' <;> rfl
                · rw [fieldSaid_other (by rw [hfd]; simpa using hk'), q3]
          | some g =>
            rw [hs] at h3
            dsimp only at h3
            cases hg : u.file.tables.get t' with
            | none => rw [hg] at h3; cases h3
            | some tb0 =>
              rw [hg] at h3
              dsimp only at h3
              split at h3
              · cases h3
                dsimp only
                rw [HMap.get_modify, if_pos rfl, HMap.get_modify, if_neg (by omega), hg]
                refine ⟨⟨fun hkk => ?_, fun hkk => ?_⟩, hu'⟩ <;> rw [hk] at hkk
                · have := (hu.1 hkk).1; rw [hg] at this; cases this
                · obtain ⟨tb, q1, q2, q3⟩ := hu.2 hkk
                  rw [hg] at q1; cases q1
                  refine ⟨_, rfl, ?_, fun k' => ?_⟩ <;> rw [tableSince_snoc en]
                  · rw [lastText_other htd]; exact q2
                  · dsimp only
                    rw [HMap.get_modify]
                    by_cases hk' : f % 65536 = k'
                    · rw [fieldSaid_kv hw (by rw [hfd, hk']; simp), hs, if_pos hk'.symm, hk', q3]
                      rfl
                    · rw [fieldSaid_other (by rw [hfd]; simpa using hk'), if_neg (fun h => hk' h.symm), q3]
              · cases h3
      · have hfs : fieldsDir t e.path = false := by rw [hp]; simp [fieldsDir]; exact hd
        suffices hh : st.file.tables.get t = u.file.tables.get t ∧ st.file.tables.get (128 + t) = none from
          ⟨hh.1 ▸ hu.other htd hfs, hh.2⟩
        rcases hw with hw | ⟨k, b, hw⟩
        · rw [if_pos (by simp [toChunk, hw])] at h3
          have hd2 : t' ≠ 128 + t := by
            rintro rfl
            rw [enters_push hw, fieldsDir_iff.mpr ⟨f, hp⟩] at hn2; cases hn2
          cases h3
          dsimp only
          rw [get_modify_ne fun h => hd h.symm, get_modify_ne fun h => hd2 h.symm]
          split
          · exact ⟨rfl, hu'⟩
          · exact ⟨get_insert_ne fun h => hd h.symm, (get_insert_ne fun h => hd2 h.symm).trans hu'⟩
        · rw [if_neg (by simp [toChunk, hw])] at h3
          split at h3
          · cases h3; exact ⟨rfl, hu'⟩
          · split at h3
            · cases h3
            · rename_i tb hg
              split at h3
              · cases h3
                dsimp only
                exact ⟨get_modify_ne fun h => hd h.symm, get_modify_none hu'⟩
              · cases h3

end BurnFm

namespace BurnFm
open Spec

/-! Scripts -/

def scriptName (k : Nat) (st : DState) : Option Str := (st.file.scripts.get k).map (·.name)

theorem scriptName_setSteps {k id : Nat} {st : DState} {steps : List ScriptStep} : scriptName k (st.setSteps id steps) = scriptName k st := by
  unfold scriptName DState.setSteps
  dsimp only
  rw [HMap.get_modify]
  split
  · rename_i h; rw [h]; cases st.file.scripts.get id <;> rfl
  · rfl

macro "gives_names" : tactic => `(tactic| repeat' (first
  | exact Gives.err
  | exact Gives.ok rfl
  | exact Gives.pure rfl
  | exact Gives.pure scriptName_setSteps
  | exact Gives.ok (by assumption)
  | exact Gives.pure (by assumption)
  | exact Gives.pure (Eq.trans scriptName_setSteps (by assumption))
  | (refine Gives.bind (fun _ _ => ?_))
  | split
  | dsimp only))

theorem armScript_names {st : DState} {k id : Nat} {ch : Chunk} : Gives (fun s => scriptName k s = scriptName k st) (armScript st id ch) := by
  unfold armScript
  split
  · exact .pure rfl
  · split
    · refine .bind fun d _ => .fold (fun s b hs => ?_) rfl
      gives_names
    · split
      · refine .bind fun d _ => .fold (fun s b hs => ?_) rfl
        gives_names
      · exact .pure rfl

theorem dispatch_names {p : Profile} {st st' : DState} {path : DirPath} {ch : Chunk} {k : Nat}
    (h : dispatch p st path ch = .ok st') (h1 : ∀ d, classify path ≠ .scriptMeta d) : scriptName k st' = scriptName k st := by
  have key : Gives (fun s => scriptName k s = scriptName k st) (dispatch p st path ch) := by
    unfold dispatch
    cases hc : classify path with
    | scriptMeta d => exact absurd hc (h1 d)
    | script id => exact armScript_names
    | other => exact .ok rfl
    | tableMeta d => dsimp only; unfold armTableMeta; gives_names
    | field d f => dsimp only; unfold armField; gives_names
    | relationship => dsimp only; unfold armRelationship; gives_names
    | occurrence => dsimp only; unfold armOccurrence; gives_names
    | join => dsimp only; unfold armJoin; gives_names
    | layout => dsimp only; unfold armLayout; gives_names
    | segment => dsimp only; unfold armSegments; gives_names
    | stepExpr => dsimp only; unfold armStepExpr; gives_names
    | stepName => dsimp only; unfold armStepName; gives_names
    | stepValue => dsimp only; unfold armStepValue; gives_names
    | sourceNames => dsimp only; unfold armSourceNames; gives_names
    | source => dsimp only; unfold armSource; gives_names
  exact key st' h

theorem assembleScripts_names {st : DState} {g : FmpFile} {k : Nat} (h : assembleScripts st = .ok g) :
    (g.scripts.get k).map (·.name) = scriptName k st := by
  unfold assembleScripts at h
  obtain ⟨u, h1, h2⟩ := bind_ok.mp h
  cases h2
  refine Gives.fold (P := fun s => scriptName k s = scriptName k st) (fun s a hs => ?_) rfl u h1
  unfold assembleScript
  refine Gives.fold (fun s b hs => ?_) hs
  gives_names

theorem scriptNameDir_iff {k : Nat} {path : List Nat} : scriptNameDir k path = true ↔ ∃ x rest, path = 17 :: 1 :: x :: k :: rest := by
  constructor
  · intro h
    match path, h with
    | a :: b :: c :: d :: rest, h =>
      simp [scriptNameDir] at h
      obtain ⟨⟨rfl, rfl⟩, rfl⟩ := h
      exact ⟨c, rest, rfl⟩
    | [], h => simp [scriptNameDir] at h
    | [_], h => simp [scriptNameDir] at h
    | [_, _], h => simp [scriptNameDir] at h
    | [_, _, _], h => simp [scriptNameDir] at h
  · rintro ⟨x, rest, rfl⟩; simp [scriptNameDir]

theorem run_names_said {p : Profile} {k : Nat} (es : List Event) : ∀ {st : DState},
    runEvents p {} es = .ok st → scriptName k st = (lastProperty (scriptNameDir k) 16 es).map fmStringDecrypt := by
  induction es using List.reverseRecOn with
  | nil => intro st h; cases h; rfl
  | append_singleton es e ih =>
    intro st h
    rw [runEvents_append] at h
    obtain ⟨u, h1, h2⟩ := bind_ok.mp h
    have hu := ih h1
    rw [runEvents_cons] at h2
    obtain ⟨v, h3, h4⟩ := bind_ok.mp h2
    cases h4
    unfold edispatch at h3
    rw [lastProperty_snoc]
    by_cases hc : ∃ d, classify e.path = .scriptMeta d
    · obtain ⟨d, hc⟩ := hc
      obtain ⟨x, rest, hp⟩ := of_classify_scriptMeta hc
      unfold dispatch at h3
      rw [hc] at h3
      dsimp only at h3
      unfold armScriptMeta at h3
      cases hw : e.what with
      | kv k' b =>
        rw [propertyAt_kv hw]
        split at h3
        · rename_i h16
          have h16 : k' = 16 := by simpa [toChunk, hw] using h16
          obtain ⟨b', hb, h3⟩ := bind_ok.mp h3
          have hb : b = b' := by simpa [toChunk, hw, unwrap] using hb
          subst hb
          have key : scriptName k st = if k = d then some (fmStringDecrypt b) else scriptName k u := by
            unfold scriptName
            rw [HMap.contains_eq] at h3
            split at h3
            · rename_i hs
              cases h3
              dsimp only
              rw [HMap.get_modify]
              obtain ⟨sc, hs⟩ := Option.isSome_iff_exists.mp hs
              split
              · rw [hs]; rfl
              · rfl
            · cases h3
              dsimp only
              rw [HMap.get_insert]
              split <;> rfl
          rw [key]
          by_cases hk : k = d
          · rw [if_pos hk, if_pos ⟨h16, scriptNameDir_iff.mpr ⟨x, rest, by rw [hp, hk]⟩⟩]; rfl
          · rw [if_neg hk, if_neg, hu]; rfl
            rintro ⟨_, h⟩
            obtain ⟨x', rest', h⟩ := scriptNameDir_iff.mp h
            rw [hp] at h
            simp at h
            exact hk h.2.1.symm
        · rename_i h16
          have h16 : ¬ k' = 16 := by simpa [toChunk, hw] using h16
          cases h3
          rw [if_neg fun h => h16 h.1, hu]; rfl
      | push =>
        rw [if_neg (by simp [toChunk, hw])] at h3
        cases h3
        rw [propertyAt_push hw, hu]; rfl
      | _ =>
        rw [if_neg (by simp [toChunk, hw])] at h3
        cases h3
        rw [show propertyAt (scriptNameDir k) 16 e = none by unfold propertyAt; rw [hw], hu]; rfl
    · rw [dispatch_names h3 fun d h => hc ⟨d, h⟩, hu, propertyAt_dir]
      · rfl
      · cases hd : scriptNameDir k e.path with
        | false => rfl
        | true =>
          obtain ⟨x, rest, hp⟩ := scriptNameDir_iff.mp hd
          exact absurd ⟨k, by rw [hp]; exact classify_scriptMeta _ _ _⟩ hc

theorem names_filter (es : List Event) (k : Nat) : lastProperty (scriptNameDir k) 16 (es.filter aboutScripts) = lastProperty (scriptNameDir k) 16 es := by
  refine lastProperty_filter (fun e h => ?_) es
  obtain ⟨b, h1, h2⟩ := propertyAt_ne h
  obtain ⟨x, rest, hp⟩ := scriptNameDir_iff.mp h2
  simp [aboutScripts, hp, h1]

/-! Tables and fields in the whole file -/

theorem schema_of_entry {t : Nat} {e : Event} (h : tableEntryDir t e.path = true ∨ fieldsDir t e.path = true)
    (hw : e.what = .push ∨ ∃ k b, e.what = .kv k b) : describesSchema e = true := by
  unfold describesSchema
  rw [Bool.and_eq_true]
  refine ⟨?_, by rcases hw with hw | ⟨k, b, hw⟩ <;> rw [hw]⟩
  rcases h with h | h
  · rw [tableEntryDir_iff.mp h]; simp [isEntry]
  · obtain ⟨f, hp⟩ := fieldsDir_iff.mp h
    rw [hp]; simp [isEntry]

theorem tableKnown_filter (es : List Event) (t : Nat) : tableKnown (es.filter describesSchema) t = tableKnown es t := by
  unfold tableKnown
  rw [List.any_filter]
  congr 1
  funext e
  cases h : enters (tableEntryDir t) e || enters (fieldsDir t) e with
  | false => simp
  | true =>
    rw [Bool.or_eq_true] at h
    rcases h with h | h
    · rw [schema_of_entry (.inl (enters_iff.mp h).2) (.inl (enters_iff.mp h).1)]; rfl
    · rw [schema_of_entry (.inr (enters_iff.mp h).2) (.inl (enters_iff.mp h).1)]; rfl

theorem tableSince_filter (es : List Event) (t : Nat) :
    tableSince (es.filter describesSchema) t = (tableSince es t).filter describesSchema := by
  unfold tableSince
  rw [sinceLast_filter (fun e h => schema_of_entry (.inl (enters_iff.mp h).2) (.inl (enters_iff.mp h).1))]
  cases sinceLast (enters (tableEntryDir t)) es <;> rfl

theorem tableText_filter (dec : Bytes → Str) (es : List Event) (t k : Nat) :
    lastText dec (tableEntryDir t) k (es.filter describesSchema) = lastText dec (tableEntryDir t) k es := by
  unfold lastText
  rw [lastProperty_filter]
  intro e h
  obtain ⟨b, h1, h2⟩ := propertyAt_ne h
  exact schema_of_entry (.inl h2) (.inr ⟨k, b, h1⟩)

theorem fieldsDir_of {t k : Nat} {path : List Nat} (h : inField t k path = true) : fieldsDir t path = true := by
  unfold inField at h
  rw [Bool.and_eq_true] at h
  exact h.1

theorem fieldText_filter (dec : Bytes → Str) (es : List Event) (t k n : Nat) :
    lastText dec (inField t k) n (es.filter describesSchema) = lastText dec (inField t k) n es := by
  unfold lastText
  rw [lastProperty_filter]
  intro e h
  obtain ⟨b, h1, h2⟩ := propertyAt_ne h
  exact schema_of_entry (.inr (fieldsDir_of h2)) (.inr ⟨n, b, h1⟩)

theorem fieldSaid_filter (dec : Bytes → Str) (es : List Event) (t k : Nat) :
    fieldSaid dec (es.filter describesSchema) t k = fieldSaid dec es t k := by
  unfold fieldSaid
  rw [sinceLast_filter (fun e h => schema_of_entry (.inr (fieldsDir_of (enters_iff.mp h).2)) (.inl (enters_iff.mp h).1))]
  cases sinceLast (enters (inField t k)) es with
  | none => rfl
  | some since => simp only [Option.map_some, fieldText_filter]

end BurnFm
