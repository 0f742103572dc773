import Verif.Proofs.Provenance
import Verif.Proofs.GraphFold

namespace BurnFm
open Spec

/-! Occurrences -/

theorem nil_or_snoc {α : Type} (l : List α) : l = [] ∨ ∃ init x, l = init ++ [x] := by
  induction l using List.reverseRecOn with
  | nil => exact .inl rfl
  | append_singleton l x _ => exact .inr ⟨l, x, rfl⟩

theorem takeWhile_snoc_neg {α : Type} {q : α → Bool} {es : List α} {e : α} (h : q e = false) : (es ++ [e]).takeWhile q = es.takeWhile q := by
  induction es with
  | nil => simp [h]
  | cons a es ih => rw [List.cons_append, List.takeWhile_cons, List.takeWhile_cons, ih]

theorem takeWhile_snoc_pos {α : Type} {q : α → Bool} {es : List α} {e : α} (h : q e = true) :
    (es ++ [e]).takeWhile q = es.takeWhile q ++ (if es.all q then [e] else []) := by
  induction es with
  | nil => simp [h]
  | cons a es ih =>
    rw [List.cons_append, List.takeWhile_cons, List.takeWhile_cons, ih]
    by_cases ha : q a = true <;> simp [ha]

theorem occurrencesSaid_cons_none {dec : Bytes → Str} {e : Event} {es : List Event} (h : occurrenceStart e = none) :
    occurrencesSaid dec (e :: es) = occurrencesSaid dec es := by rw [occurrencesSaid, h]

theorem occurrencesSaid_cons_some {dec : Bytes → Str} {e : Event} {es : List Event} {b : Bytes} (h : occurrenceStart e = some b) :
    occurrencesSaid dec (e :: es) =
      { name := lastText dec occurrenceDir 16 (es.takeWhile fun e => (occurrenceStart e).isNone), tableActual := byteAt b 6 } ::
        occurrencesSaid dec es := by rw [occurrencesSaid, h]

theorem occurrencesSaid_start {dec : Bytes → Str} {es : List Event} {e : Event} {b : Bytes} (h : occurrenceStart e = some b) :
    occurrencesSaid dec (es ++ [e]) = occurrencesSaid dec es ++ [{ tableActual := byteAt b 6 }] := by
  induction es with
  | nil => rw [List.nil_append, occurrencesSaid_cons_some h]; rfl
  | cons a es ih =>
    rw [List.cons_append]
    cases ha : occurrenceStart a with
    | none => rw [occurrencesSaid_cons_none ha, occurrencesSaid_cons_none ha, ih]
    | some b' =>
      rw [occurrencesSaid_cons_some ha, occurrencesSaid_cons_some ha, ih, takeWhile_snoc_neg (by rw [h]; rfl)]
      rfl

theorem occurrencesSaid_other {dec : Bytes → Str} {es : List Event} {e : Event} (h : occurrenceStart e = none)
    (h2 : propertyAt occurrenceDir 16 e = none) : occurrencesSaid dec (es ++ [e]) = occurrencesSaid dec es := by
  induction es with
  | nil => rw [List.nil_append, occurrencesSaid_cons_none h]
  | cons a es ih =>
    rw [List.cons_append]
    cases ha : occurrenceStart a with
    | none => rw [occurrencesSaid_cons_none ha, occurrencesSaid_cons_none ha, ih]
    | some b' =>
      rw [occurrencesSaid_cons_some ha, occurrencesSaid_cons_some ha, ih, takeWhile_snoc_pos (by rw [h]; rfl)]
      congr 2
      split
      · unfold lastText
        rw [lastProperty_snoc, h2, Option.none_or]
      · rw [List.append_nil]

theorem occurrencesSaid_nil {dec : Bytes → Str} {es : List Event} (h : occurrencesSaid dec es = []) :
    es.all (fun e => (occurrenceStart e).isNone) = true := by
  induction es with
  | nil => rfl
  | cons a es ih =>
    cases ha : occurrenceStart a with
    | none => rw [occurrencesSaid_cons_none ha] at h; rw [List.all_cons, ha, ih h]; rfl
    | some b => rw [occurrencesSaid_cons_some ha] at h; cases h

theorem occurrencesSaid_ne {dec : Bytes → Str} {es : List Event} (h : occurrencesSaid dec es ≠ []) :
    es.all (fun e => (occurrenceStart e).isNone) = false := by
  induction es with
  | nil => exact absurd rfl h
  | cons a es ih =>
    cases ha : occurrenceStart a with
    | none => rw [occurrencesSaid_cons_none ha] at h; rw [List.all_cons, ih h, Bool.and_false]
    | some b => rw [List.all_cons, ha]; rfl

theorem occurrencesSaid_name {dec : Bytes → Str} {e : Event} {b : Bytes} (h : occurrenceStart e = none)
    (h2 : propertyAt occurrenceDir 16 e = some b) {es : List Event} : ∀ {init : List FOccurrence} {o : FOccurrence},
    occurrencesSaid dec es = init ++ [o] → occurrencesSaid dec (es ++ [e]) = init ++ [{ o with name := dec b }] := by
  induction es with
  | nil => intro init o hi; simp [occurrencesSaid] at hi
  | cons a es ih =>
    intro init o hi
    rw [List.cons_append]
    cases ha : occurrenceStart a with
    | none =>
      rw [occurrencesSaid_cons_none ha] at hi
      rw [occurrencesSaid_cons_none ha, ih hi]
    | some b' =>
      rw [occurrencesSaid_cons_some ha] at hi
      rw [occurrencesSaid_cons_some ha, takeWhile_snoc_pos (by rw [h]; rfl)]
      rcases nil_or_snoc (occurrencesSaid dec es) with hn | ⟨l, o', hn⟩
      · rw [hn] at hi
        have hi' : init = [] := by
          have := congrArg List.length hi
          simp at this
          exact this
        subst hi'
        have hall := occurrencesSaid_nil hn
        rw [hall, if_pos rfl]
        have hrest : occurrencesSaid dec (es ++ [e]) = [] := by
          clear ih hi
          induction es with
          | nil => rw [List.nil_append, occurrencesSaid_cons_none h]; rfl
          | cons c es ih2 =>
            cases hc : occurrenceStart c with
            | none =>
              rw [List.cons_append, occurrencesSaid_cons_none hc]
              rw [occurrencesSaid_cons_none hc] at hn
              exact ih2 hn (occurrencesSaid_nil hn)
            | some x => rw [occurrencesSaid_cons_some hc] at hn; cases hn
        rw [hrest]
        simp only [List.nil_append, List.cons.injEq, and_true] at hi
        rw [← hi]
        simp only [List.nil_append, List.cons.injEq, and_true]
        have : lastText dec occurrenceDir 16 (es.takeWhile (fun e => (occurrenceStart e).isNone) ++ [e]) = dec b := by
          unfold lastText
          rw [lastProperty_snoc, h2, Option.some_or]
          rfl
        rw [this]
      · rw [ih hn, occurrencesSaid_ne (dec := dec) (by rw [hn]; simp), if_neg (by simp), List.append_nil]
        rw [hn, ← List.cons_append] at hi
        obtain ⟨h3, h4⟩ := List.append_inj' hi rfl
        cases h4
        rw [← h3]
        rfl

def numberedFrom1 (l : List FOccurrence) : HMap FOccurrence := l.zipIdx.map fun (o, i) => (i + 1, o)

theorem numberedFrom1_snoc (l : List FOccurrence) (o : FOccurrence) : numberedFrom1 (l ++ [o]) = numberedFrom1 l ++ [(l.length + 1, o)] := by
  simp [numberedFrom1, List.zipIdx_append]

theorem numberedFrom1_length (l : List FOccurrence) : (numberedFrom1 l).length = l.length := by simp [numberedFrom1]

theorem numberedFrom1_new (l : List FOccurrence) : HMap.contains (numberedFrom1 l) (l.length + 1) = false :=
  zipIdx_keys l (fun o _ => o) (l.length + 1) (by omega)

theorem classify_occurrenceDir {path : List Nat} (h : occurrenceDir path = true) : classify path = .occurrence := by
  unfold occurrenceDir at h
  rw [Bool.and_eq_true, beq_iff_eq, bne_iff_ne] at h
  unfold classify
  dsimp only
  rw [if_neg h.2, if_pos h.1]

/-! Links -/

def Spec.LinkSaid.add (e : Event) (l : LinkSaid) : LinkSaid := { l with after := l.after ++ [e] }

theorem link_not_start {e : Event} {b : Bytes} (h : linkBytes e = some b) : occurrenceStart e = none := by
  unfold linkBytes at h
  split at h
  · rename_i hw
    unfold occurrenceStart propertyAt
    rw [hw]
  · cases h

theorem linksSaid_snoc {dec : Bytes → Str} {e : Event} {es : List Event} : ∀ {n : Nat},
    linksSaid n (es ++ [e]) = (linksSaid n es).map (·.add e) ++ (match linkBytes e with
      | some b => [{ table1 := (n + (occurrencesSaid dec es).length) % 65536, table2 := byteAt b 2, after := [] }]
      | none => []) := by
  induction es with
  | nil =>
    intro n
    rw [List.nil_append]
    cases h : linkBytes e <;> simp [linksSaid, h, occurrencesSaid]
  | cons a es ih =>
    intro n
    rw [List.cons_append, linksSaid, linksSaid]
    cases ha : linkBytes a with
    | some b =>
      dsimp only
      rw [ih, occurrencesSaid_cons_none (link_not_start ha), List.map_cons, List.cons_append]
      rfl
    | none =>
      dsimp only
      rw [ih]
      cases hs : occurrenceStart a with
      | none => rw [occurrencesSaid_cons_none hs]; rfl
      | some b =>
        rw [occurrencesSaid_cons_some hs]
        simp only [Option.isSome_some, if_true, List.length_cons]
        rw [show n + 1 + (occurrencesSaid dec es).length = n + ((occurrencesSaid dec es).length + 1) by omega]

theorem keptLinks_snoc (ls : List LinkSaid) (l : LinkSaid) : keptLinks (ls ++ [l]) =
    if (keptLinks ls).any (fun k => k.table1 == l.table2 && k.table2 == l.table1) then keptLinks ls else keptLinks ls ++ [l] := by
  unfold keptLinks
  rw [List.foldl_append]
  rfl

theorem keptLinks_add (e : Event) (ls : List LinkSaid) : keptLinks (ls.map (·.add e)) = (keptLinks ls).map (·.add e) := by
  induction ls using List.reverseRecOn with
  | nil => rfl
  | append_singleton ls l ih =>
    rw [List.map_append, List.map_cons, List.map_nil, keptLinks_snoc, ih, keptLinks_snoc, List.any_map]
    have : (((fun k : LinkSaid => k.table1 == (l.add e).table2 && k.table2 == (l.add e).table1) ∘ fun x : LinkSaid => x.add e)) =
        fun k : LinkSaid => k.table1 == l.table2 && k.table2 == l.table1 := rfl
    rw [this]
    split
    · rfl
    · rw [List.map_append]; rfl

def relsOf (ls : List LinkSaid) : HMap FRelationship := ls.zipIdx.map fun (l, r) => (r + 1, l.relationship (r + 1))

theorem relsOf_add {e : Event} (ls : List LinkSaid) (h : ∀ r, propertyAt (criterionDir r) 1 e = none) :
    relsOf (ls.map (·.add e)) = relsOf ls := by
  unfold relsOf
  rw [List.zipIdx_map, List.map_map]
  congr 1
  funext ⟨l, r⟩
  simp only [Function.comp, Prod.map, id, LinkSaid.relationship, LinkSaid.add, lastProperty_snoc, h, Option.none_or]

theorem relationship_tables (l : LinkSaid) (r : Nat) : (l.relationship r).table1 = l.table1 ∧ (l.relationship r).table2 = l.table2 := by
  unfold LinkSaid.relationship
  split <;> exact ⟨rfl, rfl⟩

theorem relsOf_any (ls : List LinkSaid) (a b : Nat) :
    ((relsOf ls).any fun e => e.2.table1 == a && e.2.table2 == b) = ls.any fun k => k.table1 == a && k.table2 == b := by
  unfold relsOf
  rw [List.any_map]
  have : (fun e : Nat × FRelationship => e.2.table1 == a && e.2.table2 == b) ∘ (fun x : LinkSaid × Nat => (x.2 + 1, x.1.relationship (x.2 + 1))) =
      (fun k : LinkSaid => k.table1 == a && k.table2 == b) ∘ Prod.fst := by
    funext ⟨l, r⟩
    simp only [Function.comp, (relationship_tables l _).1, (relationship_tables l _).2]
  show ls.zipIdx.any ((fun e : Nat × FRelationship => e.2.table1 == a && e.2.table2 == b) ∘ (fun x : LinkSaid × Nat => (x.2 + 1, x.1.relationship (x.2 + 1)))) = _
  rw [this, ← List.any_map, List.zipIdx_map_fst]

theorem relsOf_length (ls : List LinkSaid) : (relsOf ls).length = ls.length := by simp [relsOf]

theorem relsOf_snoc (ls : List LinkSaid) (l : LinkSaid) : relsOf (ls ++ [l]) = relsOf ls ++ [(ls.length + 1, l.relationship (ls.length + 1))] := by
  simp [relsOf, List.zipIdx_append]

theorem relsOf_new (ls : List LinkSaid) : HMap.contains (relsOf ls) (ls.length + 1) = false :=
  zipIdx_keys ls (fun l r => l.relationship (r + 1)) (ls.length + 1) (by omega)

/-- The three forms of an event about the graph. -/
theorem aboutGraph_forms {e : Event} (h : aboutGraph e = true) :
    (∃ b, e.what = .data b ∧ e.path = [3, 17, 5, 0, 251]) ∨
    (∃ k b, e.what = .kv k b ∧ occurrenceDir e.path = true ∧ (k = 2 ∨ k = 16)) ∨
    (∃ r b, e.what = .kv 1 b ∧ e.path = [3, 251, 5, r, 3]) := by
  unfold aboutGraph at h
  split at h
  · rename_i b hw
    exact .inl ⟨b, hw, by simpa using h⟩
  · rename_i k b hw
    rw [Bool.or_eq_true] at h
    rcases h with h | h
    · rw [Bool.and_eq_true] at h
      exact .inr (.inl ⟨k, b, hw, h.1, by simpa using h.2⟩)
    · right; right
      simp only [Bool.and_eq_true, beq_iff_eq] at h
      obtain ⟨⟨⟨h1, h2⟩, h3⟩, rfl⟩ := h
      match hp : e.path, h1 with
      | [a, b', c, d, f], _ =>
        rw [hp] at h2 h3
        simp at h2 h3
        obtain ⟨rfl, rfl, rfl⟩ := h2
        subst h3
        exact ⟨d, b, hw, rfl⟩
  · cases h

theorem criterionDir_iff {r : Nat} {path : List Nat} : criterionDir r path = true ↔ path = [3, 251, 5, r, 3] := by
  simp [criterionDir]

theorem occurrenceDir_not_criterion {r : Nat} {path : List Nat} (h : occurrenceDir path = true) : criterionDir r path = false := by
  cases hc : criterionDir r path with
  | false => rfl
  | true => rw [criterionDir_iff.mp hc] at h; simp [occurrenceDir] at h

theorem byteAt_idx {b : Bytes} {i : Nat} {c : UInt8} (h : idx b i = .ok c) : byteAt b i = c.toNat := by
  unfold byteAt
  rw [List.getD_eq_getElem?_getD, idx_ok.mp h]
  rfl

theorem getPathInt_slice {p : Profile} {b s : Bytes} {i n : Nat} (h : slice b i (i + 2) = .ok s) (h2 : usub p (getPathInt s) 128 = .ok n) :
    n % 65536 = byteAt b (i + 1) := by
  unfold slice at h
  split at h
  · cases h
    rename_i hl
    have : (b.drop i).take (i + 2 - i) = [b.getD i 0, b.getD (i + 1) 0] := by
      rw [Nat.add_sub_cancel_left]
      obtain ⟨_, hl⟩ := hl
      clear h2
      induction b generalizing i with
      | nil => simp at hl
      | cons a b ih =>
        cases i with
        | zero =>
          cases b with
          | nil => simp at hl
          | cons c b => rfl
        | succ i =>
          have := ih (i := i) (by simp) (by simpa using hl)
          simpa using this
    rw [this] at h2
    unfold usub at h2
    rw [getPathInt_two, if_pos (Nat.le_add_right _ _), Nat.add_sub_cancel_left] at h2
    cases h2
    exact Nat.mod_eq_of_lt (Nat.lt_trans (UInt8.toNat_lt _) (by omega))
  · cases h

theorem relsOf_criterion {e : Event} {r : Nat} {b : Bytes} (ls : List LinkSaid) (hw : e.what = .kv 1 b) (hp : e.path = [3, 251, 5, r, 3]) :
    relsOf (ls.map (·.add e)) = (relsOf ls).modify r
      ({ · with comparison := comparisonWithCode (byteAt b 0), field1 := byteAt b 3, field2 := byteAt b 6 }) := by
  unfold relsOf HMap.modify
  rw [List.zipIdx_map, List.map_map, List.map_map]
  congr 1
  funext ⟨l, i⟩
  simp only [Function.comp, Prod.map, id, LinkSaid.relationship, LinkSaid.add, lastProperty_snoc]
  rw [propertyAt_kv hw]
  by_cases h : i + 1 = r
  · rw [if_pos ⟨rfl, criterionDir_iff.mpr (by rw [hp, h])⟩, if_pos h, Option.some_or]
    dsimp only
    cases lastProperty (criterionDir (i + 1)) 1 l.after <;> rfl
  · rw [if_neg h, if_neg, Option.none_or]
    rintro ⟨_, hc⟩
    rw [hp] at hc
    have := criterionDir_iff.mp hc
    simp at this
    exact h this.symm

theorem run_graph_said {p : Profile} (es : List Event) : ∀ {st : DState}, (∀ e ∈ es, aboutGraph e = true) →
    runEvents p {} es = .ok st →
    st.file.tableOccurrences = numberedFrom1 (occurrencesSaid fmStringDecrypt es) ∧
    st.file.relationships = relsOf (keptLinks (linksSaid 0 es)) := by
  induction es using List.reverseRecOn with
  | nil => intro st _ h; cases h; exact ⟨rfl, rfl⟩
  | append_singleton es e ih =>
    intro st ha h
    rw [runEvents_append] at h
    obtain ⟨u, h1, h2⟩ := bind_ok.mp h
    obtain ⟨ho, hr⟩ := ih (fun e he => ha e (by simp [he])) h1
    rw [runEvents_cons] at h2
    obtain ⟨v, h3, h4⟩ := bind_ok.mp h2
    cases h4
    unfold edispatch dispatch at h3
    rw [linksSaid_snoc (dec := fmStringDecrypt)]
    rcases aboutGraph_forms (ha e (by simp)) with ⟨b, hw, hp⟩ | ⟨k, b, hw, hp, hk⟩ | ⟨r, b, hw, hp⟩
    · have hl : linkBytes e = some b := by unfold linkBytes; rw [hw]; exact if_pos hp
      have hs := link_not_start hl
      have hn : ∀ dir k, propertyAt dir k e = none := fun dir k => by unfold propertyAt; rw [hw]
      rw [hl, occurrencesSaid_other hs (hn _ _)]
      dsimp only
      rw [keptLinks_snoc, keptLinks_add]
      have hc : classify e.path = .relationship := by rw [hp]; rfl
      rw [hc] at h3
      dsimp only at h3
      unfold armRelationship at h3
      rw [if_pos (by simp [toChunk, hw])] at h3
      obtain ⟨b', hb, h3⟩ := bind_ok.mp h3
      have hb : b = b' := by simpa [toChunk, hw, unwrap] using hb
      subst hb
      obtain ⟨c, hc2, h3⟩ := bind_ok.mp h3
      have hb2 := byteAt_idx hc2
      dsimp only at h3
      rw [hr, relsOf_any, ho, numberedFrom1_length] at h3
      rw [List.any_map, Nat.zero_add, hb2]
      have hcomp : ∀ (x y : Nat), (fun k : LinkSaid => k.table1 == x && k.table2 == y) ∘ (fun l : LinkSaid => l.add e) =
          fun k => k.table1 == x && k.table2 == y := fun x y => rfl
      rw [hcomp]
      split at h3
      · rename_i hany
        cases h3
        rw [if_pos hany, relsOf_add _ (fun r => hn _ _)]
        exact ⟨ho, hr⟩
      · rename_i hany
        cases h3
        rw [if_neg hany]
        dsimp only
        refine ⟨rfl, ?_⟩
        rw [relsOf_length, HMap.insert_new (relsOf_new _), relsOf_snoc, List.length_map, relsOf_add _ (fun r => hn _ _)]
        rfl
    · have hl : linkBytes e = none := by unfold linkBytes; rw [hw]
      have hnc : ∀ r, propertyAt (criterionDir r) 1 e = none := fun r => propertyAt_dir (occurrenceDir_not_criterion hp)
      rw [hl]
      dsimp only
      rw [List.append_nil, keptLinks_add, relsOf_add _ hnc]
      rw [classify_occurrenceDir hp] at h3
      dsimp only at h3
      unfold armOccurrence at h3
      rcases hk with rfl | rfl
      · have hs : occurrenceStart e = some b := by unfold occurrenceStart; rw [propertyAt_kv hw, if_pos ⟨rfl, hp⟩]
        rw [if_pos (by simp [toChunk, hw])] at h3
        obtain ⟨b', hb, h3⟩ := bind_ok.mp h3
        have hb : b = b' := by simpa [toChunk, hw, unwrap] using hb
        subst hb
        obtain ⟨c, hc2, h3⟩ := bind_ok.mp h3
        obtain ⟨_, _, h3⟩ := bind_ok.mp h3
        cases h3
        dsimp only
        rw [occurrencesSaid_start hs, numberedFrom1_snoc, ho, numberedFrom1_length, HMap.insert_new (numberedFrom1_new _), byteAt_idx hc2]
        exact ⟨rfl, hr⟩
      · have hs : occurrenceStart e = none := by unfold occurrenceStart; rw [propertyAt_kv hw, if_neg (by simp)]
        have hs2 : propertyAt occurrenceDir 16 e = some b := by rw [propertyAt_kv hw, if_pos ⟨rfl, hp⟩]
        rw [if_neg (by simp [toChunk, hw]), if_pos (by simp [toChunk, hw])] at h3
        dsimp only at h3
        rw [ho, numberedFrom1_length] at h3
        rcases nil_or_snoc (occurrencesSaid fmStringDecrypt es) with hn | ⟨init, o, hn⟩
        · rw [hn] at h3; cases h3
        · rw [hn, List.length_append, numberedFrom1_snoc] at h3
          split at h3
          · cases h3
            dsimp only
            refine ⟨?_, hr⟩
            rw [occurrencesSaid_name hs hs2 hn, numberedFrom1_snoc]
            have := modify_last (numberedFrom1_new init) (v := o) (f := ({ · with name := fmStringDecrypt (dataOr (toChunk e)) }))
            rw [show [o].length = 1 from rfl, this]
            simp [dataOr, toChunk, hw]
          · cases h3
    · have hl : linkBytes e = none := by unfold linkBytes; rw [hw]
      have hnd : occurrenceDir e.path = false := by rw [hp]; simp [occurrenceDir]
      rw [hl]
      dsimp only
      rw [List.append_nil, keptLinks_add, relsOf_criterion _ hw hp, occurrencesSaid_other (propertyAt_dir hnd) (propertyAt_dir hnd)]
      rw [hp, classify_join] at h3
      dsimp only at h3
      unfold armJoin at h3
      rw [if_pos (by simp [toChunk, hw])] at h3
      obtain ⟨b', hb, h3⟩ := bind_ok.mp h3
      have hb : b = b' := by simpa [toChunk, hw, unwrap] using hb
      subst hb
      obtain ⟨c, hc, h3⟩ := bind_ok.mp h3
      obtain ⟨s1, hs1, h3⟩ := bind_ok.mp h3
      obtain ⟨f1, hf1, h3⟩ := bind_ok.mp h3
      obtain ⟨s2, hs2, h3⟩ := bind_ok.mp h3
      obtain ⟨f2, hf2, h3⟩ := bind_ok.mp h3
      cases h3
      dsimp only
      refine ⟨ho, ?_⟩
      rw [hr, comparison_code, ← byteAt_idx hc, getPathInt_slice hs1 hf1, getPathInt_slice hs2 hf2]

/-! The graph in the whole file -/

theorem takeWhile_filter {α : Type} {q r : α → Bool} (h : ∀ e, q e = false → r e = true) (es : List α) :
    (es.filter r).takeWhile q = (es.takeWhile q).filter r := by
  induction es with
  | nil => rfl
  | cons a es ih =>
    rw [List.takeWhile_cons]
    by_cases hq : q a = true
    · rw [if_pos hq]
      by_cases hr : r a = true
      · rw [List.filter_cons_of_pos hr, List.filter_cons_of_pos hr, List.takeWhile_cons, if_pos hq, ih]
      · rw [List.filter_cons_of_neg hr, List.filter_cons_of_neg hr, ih]
    · have hr := h a (by simpa using hq)
      rw [if_neg hq, List.filter_cons_of_pos hr, List.takeWhile_cons, if_neg hq]
      rfl

theorem aboutGraph_occurrence {k : Nat} {e : Event} (hk : k = 2 ∨ k = 16) (h : propertyAt occurrenceDir k e ≠ none) : aboutGraph e = true := by
  obtain ⟨b, h1, h2⟩ := propertyAt_ne h
  unfold aboutGraph
  rw [h1]
  unfold occurrenceDir at h2
  dsimp only
  rw [h2]
  rcases hk with rfl | rfl <;> rfl

theorem aboutGraph_criterion {r : Nat} {e : Event} (h : propertyAt (criterionDir r) 1 e ≠ none) : aboutGraph e = true := by
  obtain ⟨b, h1, h2⟩ := propertyAt_ne h
  unfold aboutGraph
  rw [h1, criterionDir_iff.mp h2]
  simp

theorem aboutGraph_link {e : Event} (h : linkBytes e ≠ none) : aboutGraph e = true := by
  unfold linkBytes at h
  unfold aboutGraph
  split at h
  · rename_i hw
    split at h
    · rename_i hp; rw [hw, hp]; rfl
    · exact absurd rfl h
  · exact absurd rfl h

theorem not_aboutGraph {e : Event} (h : aboutGraph e ≠ true) :
    occurrenceStart e = none ∧ propertyAt occurrenceDir 16 e = none ∧ linkBytes e = none := by
  refine ⟨?_, ?_, ?_⟩
  · cases hx : occurrenceStart e with
    | none => rfl
    | some b => exact absurd (aboutGraph_occurrence (.inl rfl) (show propertyAt occurrenceDir 2 e ≠ none from by rw [show propertyAt occurrenceDir 2 e = _ from hx]; simp)) h
  · cases hx : propertyAt occurrenceDir 16 e with
    | none => rfl
    | some b => exact absurd (aboutGraph_occurrence (.inr rfl) (by rw [hx]; simp)) h
  · cases hx : linkBytes e with
    | none => rfl
    | some b => exact absurd (aboutGraph_link (by rw [hx]; simp)) h

theorem occurrencesSaid_filter (dec : Bytes → Str) (es : List Event) : occurrencesSaid dec (es.filter aboutGraph) = occurrencesSaid dec es := by
  induction es with
  | nil => rfl
  | cons a es ih =>
    by_cases h : aboutGraph a = true
    · rw [List.filter_cons_of_pos h]
      cases ha : occurrenceStart a with
      | none => rw [occurrencesSaid_cons_none ha, occurrencesSaid_cons_none ha, ih]
      | some b =>
        rw [occurrencesSaid_cons_some ha, occurrencesSaid_cons_some ha, ih]
        rw [takeWhile_filter (fun e he => aboutGraph_occurrence (k := 2) (.inl rfl) (by
          intro hn
          rw [show occurrenceStart e = none from hn] at he
          cases he))]
        unfold lastText
        rw [lastProperty_filter fun e he => aboutGraph_occurrence (.inr rfl) he]
    · rw [List.filter_cons_of_neg h, ih, occurrencesSaid_cons_none (not_aboutGraph h).1]

def Spec.LinkSaid.restrict (l : LinkSaid) : LinkSaid := { l with after := l.after.filter aboutGraph }

theorem linksSaid_filter (es : List Event) : ∀ n, linksSaid n (es.filter aboutGraph) = (linksSaid n es).map LinkSaid.restrict := by
  induction es with
  | nil => intro n; rfl
  | cons a es ih =>
    intro n
    by_cases h : aboutGraph a = true
    · rw [List.filter_cons_of_pos h, linksSaid, linksSaid]
      cases linkBytes a with
      | none => dsimp only; rw [ih]
      | some b => dsimp only; rw [ih]; rfl
    · rw [List.filter_cons_of_neg h, linksSaid, (not_aboutGraph h).2.2, ih, (not_aboutGraph h).1]
      rfl

theorem keptLinks_restrict (ls : List LinkSaid) : keptLinks (ls.map LinkSaid.restrict) = (keptLinks ls).map LinkSaid.restrict := by
  induction ls using List.reverseRecOn with
  | nil => rfl
  | append_singleton ls l ih =>
    rw [List.map_append, List.map_cons, List.map_nil, keptLinks_snoc, ih, keptLinks_snoc, List.any_map]
    have : ((fun k : LinkSaid => k.table1 == l.restrict.table2 && k.table2 == l.restrict.table1) ∘ LinkSaid.restrict) =
        fun k : LinkSaid => k.table1 == l.table2 && k.table2 == l.table1 := rfl
    rw [this]
    split
    · rfl
    · rw [List.map_append]; rfl

theorem relsOf_restrict (ls : List LinkSaid) : relsOf (ls.map LinkSaid.restrict) = relsOf ls := by
  unfold relsOf
  rw [List.zipIdx_map, List.map_map]
  congr 1
  funext ⟨l, r⟩
  simp only [Function.comp, Prod.map, id, LinkSaid.relationship, LinkSaid.restrict]
  rw [lastProperty_filter fun e he => aboutGraph_criterion he]

theorem relationshipsSaid_filter (es : List Event) : relsOf (keptLinks (linksSaid 0 (es.filter aboutGraph))) = relationshipsSaid es := by
  rw [linksSaid_filter, keptLinks_restrict, relsOf_restrict]
  rfl

end BurnFm
