import Verif.Proofs.StoredNumbers
import Verif.Proofs.Disk
import Verif.Props.FileContents

/-! Property C112: the numbers of table occurrences and relationships. -/

namespace BurnFm.Props
open Spec (Event Raw OccurrenceDef CriterionDef StoredOccurrence byteAt)

/-- C112: whatever the links are, the occurrences of the result are numbered in the order of the file, and the relationships in
the order in which the links mention them. -/
theorem graph_numbering (p : Profile) (buf : Bytes) (evs : List Event) (os : List OccurrenceDef) (cs : List CriterionDef)
    (hf : Spec.FileOf buf evs) (hd : evs.filter Spec.aboutGraph = Spec.graphEvents fmStringEncrypt os cs) (hok : Spec.Readable os cs)
    (fuel : Nat) (f : FmpFile) (h : decompile p buf fuel = .ok (some f)) :
    (∀ k, f.tableOccurrences.get k = if 1 ≤ k then (os[k - 1]?).map fun o => { name := o.name, tableActual := byteAt o.info 6 } else none) ∧
    ∀ k, f.relationships.get k = if 1 ≤ k then ((Spec.mentionedPairs os)[k - 1]?).map (Spec.relationshipOf cs k) else none := by
  obtain ⟨T, G, L, S, g, _, rfl, _, h2, _⟩ := file_project hf h
  rw [hd, graph_run hok] at h2
  cases h2
  exact ⟨get_enumOccs os, get_withCriteria _ cs⟩

/-- C112 for occurrences, exactly: if the names of the occurrences are different, every occurrence has in the result the number
that it is stored under if and only if the stored numbers are 1, 2, 3, ... in the order of the file. -/
theorem occurrence_numbers_exact (p : Profile) (buf : Bytes) (raws : List Raw) (os : List StoredOccurrence) (cs : List CriterionDef)
    (hf : Spec.RawFileOf buf raws) (hd : raws.filterMap Spec.graphNote = Spec.storedGraph fmStringEncrypt os cs)
    (hok : Spec.Readable (os.map (·.occ)) cs) (hn : (os.map (·.occ.name)).Nodup)
    (fuel : Nat) (f : FmpFile) (h : decompile p buf fuel = .ok (some f)) :
    (∀ o ∈ os, (f.tableOccurrences.get o.id.toNat).map (·.name) = some o.occ.name) ↔ os.map (·.id.toNat) = List.range' 1 os.length := by
  have hg := (graph_numbering p buf (Spec.seen raws) (os.map (·.occ)) cs (rawFile_file hf) (by rw [notes_events, hd, stored_events]) hok fuel f h).1
  constructor
  · intro hk
    apply List.ext_getElem?
    intro i
    rw [List.getElem?_map]
    cases hi : os[i]? with
    | none =>
      rw [List.getElem?_eq_none (by simpa using List.getElem?_eq_none_iff.mp hi)]
      rfl
    | some o =>
      have hlt := (List.getElem?_eq_some_iff.mp hi).1
      rw [List.getElem?_range' hlt]
      have := hk o (List.mem_of_getElem? hi)
      rw [hg] at this
      by_cases h1 : 1 ≤ o.id.toNat
      · rw [if_pos h1, List.getElem?_map] at this
        cases hj : os[o.id.toNat - 1]? with
        | none => rw [hj] at this; cases this
        | some o' =>
          rw [hj] at this
          have hnm : o'.occ.name = o.occ.name := by simpa using this
          have : o.id.toNat - 1 = i := by
            refine (List.getElem?_inj (by simpa using (List.getElem?_eq_some_iff.mp hj).1) hn).mp ?_
            rw [List.getElem?_map, List.getElem?_map, hj, hi]
            simp [hnm]
          simp
          omega
      · rw [if_neg h1] at this
        cases this
  · intro hk o ho
    obtain ⟨i, hi⟩ := List.mem_iff_getElem?.mp ho
    have hlt := (List.getElem?_eq_some_iff.mp hi).1
    have : (os.map (·.id.toNat))[i]? = some o.id.toNat := by rw [List.getElem?_map, hi]; rfl
    rw [hk, List.getElem?_range' hlt] at this
    have : o.id.toNat = i + 1 := by simp at this; omega
    rw [hg, if_pos (by omega), List.getElem?_map, show o.id.toNat - 1 = i from by omega, hi]
    rfl

/-- C112 for relationships, exactly: if no occurrence has two links to the same one, every link is stored with the number of a
relationship of the result between the two occurrences if and only if the stored numbers are the places of the pairs in the
order in which the links mention them. -/
theorem relationship_numbers_exact (p : Profile) (buf : Bytes) (evs : List Event) (os : List OccurrenceDef) (cs : List CriterionDef)
    (hf : Spec.FileOf buf evs) (hd : evs.filter Spec.aboutGraph = Spec.graphEvents fmStringEncrypt os cs) (hok : Spec.Readable os cs)
    (honce : ∀ o ∈ os, o.linked.Nodup) (fuel : Nat) (f : FmpFile) (h : decompile p buf fuel = .ok (some f)) :
    (∀ i o, os[i]? = some o → ∀ l ∈ o.links, ∃ r, f.relationships.get (Spec.relationshipNumber l) = some r ∧
      ((r.table1 = i + 1 ∧ r.table2 = byteAt l 2) ∨ (r.table1 = byteAt l 2 ∧ r.table2 = i + 1))) ↔
    ∀ i o, os[i]? = some o → ∀ l ∈ o.links, ∀ k pair, (Spec.mentionedPairs os)[k]? = some pair →
      pair = (i + 1, byteAt l 2) ∨ pair = (byteAt l 2, i + 1) → Spec.relationshipNumber l = k + 1 := by
  have hg := (graph_numbering p buf evs os cs hf hd hok fuel f h).2
  constructor
  · intro hk i o hi l hl k pair hp hor
    obtain ⟨r, hr, hrt⟩ := hk i o hi l hl
    rw [hg] at hr
    by_cases h1 : 1 ≤ Spec.relationshipNumber l
    · rw [if_pos h1] at hr
      cases hq : (Spec.mentionedPairs os)[Spec.relationshipNumber l - 1]? with
      | none => rw [hq] at hr; cases hr
      | some q =>
        rw [hq] at hr
        cases hr
        rw [(relationshipOf_tables _ _ _).1, (relationshipOf_tables _ _ _).2] at hrt
        have : k = Spec.relationshipNumber l - 1 := by
          refine mentioned_unique honce hp hq ?_
          obtain ⟨a, b⟩ := q
          rcases hor with rfl | rfl <;> rcases hrt with ⟨rfl, rfl⟩ | ⟨rfl, rfl⟩ <;> simp
        omega
    · rw [if_neg h1] at hr
      cases hr
  · intro hnum i o hi l hl
    have hm : ∃ pair ∈ Spec.mentionedPairs os, pair = (i + 1, byteAt l 2) ∨ pair = (byteAt l 2, i + 1) := by
      rcases mentioned_mem hi (j := byteAt l 2) (List.mem_map.mpr ⟨l, hl, rfl⟩) with h | h
      · exact ⟨_, h, .inl rfl⟩
      · exact ⟨_, h, .inr rfl⟩
    obtain ⟨pair, hp, hor⟩ := hm
    obtain ⟨k, hk⟩ := List.mem_iff_getElem?.mp hp
    have hr := hnum i o hi l hl k pair hk hor
    refine ⟨Spec.relationshipOf cs (k + 1) pair, ?_, ?_⟩
    · rw [hg, hr, if_pos (by omega), Nat.add_sub_cancel, hk]
      rfl
    · rw [(relationshipOf_tables _ _ _).1, (relationshipOf_tables _ _ _).2]
      rcases hor with rfl | rfl
      · exact .inl ⟨rfl, rfl⟩
      · exact .inr ⟨rfl, rfl⟩

/-- C112 is false: a file in which some occurrence is linked to a number greater than the number of occurrences, as happens as
soon as an occurrence has been deleted, decompiles to a schema for which no test can be run. -/
theorem dangling_link_panics (p : Profile) (buf : Bytes) (evs : List Event) (os : List OccurrenceDef) (cs : List CriterionDef)
    (hf : Spec.FileOf buf evs) (hd : evs.filter Spec.aboutGraph = Spec.graphEvents fmStringEncrypt os cs) (hok : Spec.Readable os cs)
    (fuel : Nat) (f : FmpFile) (h : decompile p buf fuel = .ok (some f)) (i : Nat) (o : OccurrenceDef) (hi : os[i]? = some o) (l : Bytes)
    (hl : l ∈ o.links) (hlink : os.length < byteAt l 2) : ∃ e, Vm.generate f = .error (.panic e) := by
  cases hv : Vm.generate f with
  | error e =>
    cases e with
    | panic e => exact ⟨e, rfl⟩
    | fuel =>
      exfalso
      unfold Vm.generate at hv
      cases hg : Database.generate {} f with
      | error e => rw [hg] at hv; cases hv
      | ok db => rw [hg] at hv; cases hv
  | ok vm =>
    exfalso
    have hb := generate_bound hv
    obtain ⟨T, G, L, S, g, _, rfl, _, h2, _⟩ := file_project hf h
    rw [hd, graph_run hok] at h2
    cases h2
    have hmax := maxKey_enum os
    have : ∃ pair ∈ Spec.mentionedPairs os, pair = (i + 1, byteAt l 2) ∨ pair = (byteAt l 2, i + 1) := by
      rcases mentioned_mem hi (j := byteAt l 2) (List.mem_map.mpr ⟨l, hl, rfl⟩) with h | h
      · exact ⟨_, h, .inl rfl⟩
      · exact ⟨_, h, .inr rfl⟩
    obtain ⟨pair, hp, hor⟩ := this
    obtain ⟨k, hk⟩ := List.mem_iff_getElem?.mp hp
    have hb := hb (k + 1, Spec.relationshipOf cs (k + 1) pair) (List.mem_map.mpr ⟨(pair, k), List.mem_zipIdx_iff_getElem?.mpr hk, rfl⟩)
    change (Spec.relationshipOf cs (k + 1) pair).table1 ≤ maxKey (enumOccs os) ∧ (Spec.relationshipOf cs (k + 1) pair).table2 ≤ maxKey (enumOccs os) at hb
    rw [(relationshipOf_tables _ _ _).1, (relationshipOf_tables _ _ _).2] at hb
    rcases hor with rfl | rfl <;> dsimp only at hb <;> omega

/-! ## Examples -/

/-- Occurrence `a` under the number 1 and `b` under 3, linked by relationship 1. -/
def gapOccurrences : List StoredOccurrence :=
  [⟨1, ⟨[0, 0, 0, 0, 0, 0, 1], t!"a", [[208, 0, 3, 1, 1]]⟩⟩, ⟨3, ⟨[0, 0, 0, 0, 0, 0, 1], t!"b", [[208, 0, 1, 1, 1]]⟩⟩]

def gapItems : List Item :=
  [.push 3, .push 17, .push 5, .push3 208 0 1, .kv 2 [0, 0, 0, 0, 0, 0, 1], .kv 16 (fmStringEncrypt t!"a"), .push 251, .data [208, 0, 3, 1, 1], .pop, .pop,
   .push3 208 0 3, .kv 2 [0, 0, 0, 0, 0, 0, 1], .kv 16 (fmStringEncrypt t!"b"), .push 251, .data [208, 0, 1, 1, 1], .pop, .pop, .pop, .pop, .pop]

theorem gap_ok : Spec.RawFileOf (itemFile gapItems) (itemRaws [] gapItems) ∧
    (itemRaws [] gapItems).filterMap Spec.graphNote = Spec.storedGraph fmStringEncrypt gapOccurrences [] ∧
    Spec.Readable (gapOccurrences.map (·.occ)) [] ∧ (gapOccurrences.map (·.occ.name)).Nodup :=
  ⟨itemFile_raw _ (by decide) (by decide) (by decide), by rfl, ⟨by decide, by decide, by decide⟩, by decide⟩

theorem gap_decompiles (p : Profile) : ∃ fuel f, decompile p (itemFile gapItems) fuel = .ok (some f) := by
  obtain ⟨fuel, h⟩ := raw_run (p := p) gap_ok.1 (T := {}) (G := graphState (enumOccs (gapOccurrences.map (·.occ))) (withCriteria (Spec.mentionedPairs (gapOccurrences.map (·.occ))) []))
    (L := {}) (S := {}) (D := {}) (f := {}) (by rfl) (by rw [notes_events, gap_ok.2.1, stored_events, graph_run gap_ok.2.2.1]) (by rfl) (by rfl) (by rfl) (by rfl)
  exact ⟨fuel, _, h fuel (Nat.le_refl _)⟩

/-- C112 is false: the file decompiles, occurrence `b` is not where it is stored, and the schema cannot be tested. -/
theorem stored_numbers_refuted (p : Profile) : ∃ buf raws os, Spec.RawFileOf buf raws ∧ raws.filterMap Spec.graphNote = Spec.storedGraph fmStringEncrypt os [] ∧
    ∃ fuel f, decompile p buf fuel = .ok (some f) ∧ (∃ o ∈ os, f.tableOccurrences.get o.id.toNat = none) ∧ ∃ e, Vm.generate f = .error (.panic e) := by
  obtain ⟨g1, g2, g3, g4⟩ := gap_ok
  obtain ⟨fuel, f, h⟩ := gap_decompiles p
  refine ⟨_, _, _, g1, g2, fuel, f, h, ⟨_, List.mem_cons_of_mem _ (List.mem_cons_self ..), ?_⟩, ?_⟩
  · rw [(graph_numbering p _ _ _ _ (rawFile_file g1) (by rw [notes_events, g2, stored_events]) g3 fuel f h).1]
    rfl
  · exact dangling_link_panics p _ _ _ _ (rawFile_file g1) (by rw [notes_events, g2, stored_events]) g3 fuel f h 0 _ rfl _ (List.mem_cons_self ..) (by decide)

/-- Occurrence 1 is linked to occurrence 2 by relationship 2 and to occurrence 3 by relationship 1. -/
def crossedOccurrences : List OccurrenceDef :=
  [⟨[0, 0, 0, 0, 0, 0, 1], t!"a", [[208, 0, 2, 1, 2], [208, 0, 3, 1, 1]]⟩, ⟨[0, 0, 0, 0, 0, 0, 1], t!"b", [[208, 0, 1, 1, 2]]⟩,
   ⟨[0, 0, 0, 0, 0, 0, 1], t!"c", [[208, 0, 1, 1, 1]]⟩]

/-- Relationship 1 compares with `>`. -/
def crossedCriteria : List CriterionDef := [⟨1, [4, 0, 0, 1, 0, 0, 2]⟩]

def crossedItems : List Item :=
  [.push 3, .push 17, .push 5, .push3 208 0 1, .kv 2 [0, 0, 0, 0, 0, 0, 1], .kv 16 (fmStringEncrypt t!"a"), .push 251, .data [208, 0, 2, 1, 2],
   .data [208, 0, 3, 1, 1], .pop, .pop,
   .push3 208 0 2, .kv 2 [0, 0, 0, 0, 0, 0, 1], .kv 16 (fmStringEncrypt t!"b"), .push 251, .data [208, 0, 1, 1, 2], .pop, .pop,
   .push3 208 0 3, .kv 2 [0, 0, 0, 0, 0, 0, 1], .kv 16 (fmStringEncrypt t!"c"), .push 251, .data [208, 0, 1, 1, 1], .pop, .pop, .pop, .pop,
   .push 251, .push 5, .push 1, .push 3, .kv 1 [4, 0, 0, 1, 0, 0, 2], .pop, .pop, .pop, .pop, .pop]

set_option maxRecDepth 20000 in
/-- C112 is false: the criterion given for relationship 1, which is between occurrences 1 and 3, is applied between 1 and 2. -/
theorem relationship_numbers_refuted (p : Profile) : ∃ buf evs, Spec.FileOf buf evs ∧
    evs.filter Spec.aboutGraph = Spec.graphEvents fmStringEncrypt crossedOccurrences crossedCriteria ∧
    ∃ fuel f, decompile p buf fuel = .ok (some f) ∧
      f.relationships.get 1 = some { table1 := 1, table2 := 2, comparison := .greater, field1 := 1, field2 := 2 } ∧
      f.relationships.get 2 = some { table1 := 1, table2 := 3 } := by
  have h1 : Spec.RawFileOf (itemFile crossedItems) (itemRaws [] crossedItems) := itemFile_raw _ (by decide) (by decide) (by decide)
  have h2 : (Spec.seen (itemRaws [] crossedItems)).filter Spec.aboutGraph = Spec.graphEvents fmStringEncrypt crossedOccurrences crossedCriteria := by rfl
  have h3 : Spec.Readable crossedOccurrences crossedCriteria := ⟨by decide, by decide, by decide⟩
  refine ⟨_, _, rawFile_file h1, h2, ?_⟩
  obtain ⟨fuel, h⟩ := raw_run (p := p) h1 (T := {}) (L := {}) (S := {}) (D := {}) (f := {}) (by rfl) (by rw [h2, graph_run h3]) (by rfl) (by rfl) (by rfl) (by rfl)
  exact ⟨fuel, _, h fuel (Nat.le_refl _), rfl, rfl⟩

/-- The hypotheses of `occurrence_numbers_exact`: in that file `b` is stored under 3 and is the second, so not all keep their number. -/
example (p : Profile) : ∃ fuel f, decompile p (itemFile gapItems) fuel = .ok (some f) ∧
    ¬ ∀ o ∈ gapOccurrences, (f.tableOccurrences.get o.id.toNat).map (·.name) = some o.occ.name := by
  obtain ⟨g1, g2, g3, g4⟩ := gap_ok
  obtain ⟨fuel, f, h⟩ := gap_decompiles p
  refine ⟨fuel, f, h, ?_⟩
  rw [occurrence_numbers_exact p _ _ _ _ g1 g2 g3 g4 fuel f h]
  decide

/-- With the numbers 1 and 2 both occurrences keep theirs. -/
def orderlyItems : List Item :=
  [.push 3, .push 17, .push 5, .push3 208 0 1, .kv 2 [0, 0, 0, 0, 0, 0, 1], .kv 16 (fmStringEncrypt t!"a"), .push 251, .data [208, 0, 2, 1, 1], .pop, .pop,
   .push3 208 0 2, .kv 2 [0, 0, 0, 0, 0, 0, 1], .kv 16 (fmStringEncrypt t!"b"), .push 251, .data [208, 0, 1, 1, 1], .pop, .pop, .pop, .pop, .pop]

def orderlyOccurrences : List StoredOccurrence :=
  [⟨1, ⟨[0, 0, 0, 0, 0, 0, 1], t!"a", [[208, 0, 2, 1, 1]]⟩⟩, ⟨2, ⟨[0, 0, 0, 0, 0, 0, 1], t!"b", [[208, 0, 1, 1, 1]]⟩⟩]

example (p : Profile) (fuel : Nat) (f : FmpFile) (h : decompile p (itemFile orderlyItems) fuel = .ok (some f)) :
    (∀ o ∈ orderlyOccurrences, (f.tableOccurrences.get o.id.toNat).map (·.name) = some o.occ.name) ∧
    ∀ i o, (orderlyOccurrences.map (·.occ))[i]? = some o → ∀ l ∈ o.links, ∃ r, f.relationships.get (Spec.relationshipNumber l) = some r ∧
      ((r.table1 = i + 1 ∧ r.table2 = byteAt l 2) ∨ (r.table1 = byteAt l 2 ∧ r.table2 = i + 1)) := by
  have h1 : Spec.RawFileOf (itemFile orderlyItems) (itemRaws [] orderlyItems) := itemFile_raw _ (by decide) (by decide) (by decide)
  have h2 : (itemRaws [] orderlyItems).filterMap Spec.graphNote = Spec.storedGraph fmStringEncrypt orderlyOccurrences [] := by rfl
  have h3 : Spec.Readable (orderlyOccurrences.map (·.occ)) [] := ⟨by decide, by decide, by decide⟩
  constructor
  · rw [occurrence_numbers_exact p _ _ _ _ h1 h2 h3 (by decide) fuel f h]
    decide
  · rw [relationship_numbers_exact p _ _ _ [] (rawFile_file h1) (by rw [notes_events, h2, stored_events]) h3 (by decide) fuel f h]
    intro i o hi l hl k pair hk _
    rcases k with _ | k
    · rcases i with _ | _ | i
      · cases hi; simp at hl; subst hl; rfl
      · cases hi; simp at hl; subst hl; rfl
      · cases hi
    · rcases k with _ | k <;> cases hk

end BurnFm.Props
