import Verif.Proofs.GraphFold
import Verif.Proofs.Generate
import Verif.Spec.StoredNumbers
import Verif.Model.Vm
import Verif.Proofs.Ev
import Mathlib.Data.List.Induction

/-! Occurrences and relationships in general. -/

namespace BurnFm
open Spec (Event OccurrenceDef CriterionDef byteAt)

theorem mentionedPairs_snoc (os : List OccurrenceDef) (o : OccurrenceDef) :
    Spec.mentionedPairs (os ++ [o]) = o.linked.foldl (Spec.addLink (os.length + 1)) (Spec.mentionedPairs os) := by
  simp [Spec.mentionedPairs, List.zipIdx_append]

theorem links_run {p : Profile} (occs : HMap FOccurrence) (ho : occs.length < 65536) (ls : List Bytes) : ∀ ps, (∀ l ∈ ls, 3 ≤ l.length) →
    runEvents p (graphState occs (enumRels ps)) (ls.map fun l => ⟨[3, 17, 5, 0, 251], .data l⟩) =
      .ok (graphState occs (enumRels ((ls.map (byteAt · 2)).foldl (Spec.addLink occs.length) ps))) := by
  induction ls with
  | nil => intro ps _; rfl
  | cons l ls ih =>
    intro ps h
    rw [List.map_cons, runEvents_cons, graph_link _ _ _ (h l (by simp)) ho, ok_bind, ih _ (fun x hx => h x (by simp [hx]))]
    rfl

theorem occurrence_run {p : Profile} (done : List OccurrenceDef) (o : OccurrenceDef) (hd : done.length + 1 < 65536) (hi : 7 ≤ o.info.length)
    (hl : ∀ l ∈ o.links, 3 ≤ l.length) :
    runEvents p (graphState (enumOccs done) (enumRels (Spec.mentionedPairs done))) (Spec.occurrenceEvents fmStringEncrypt o) =
      .ok (graphState (enumOccs (done ++ [o])) (enumRels (Spec.mentionedPairs (done ++ [o])))) := by
  have cl : classify [3, 17, 5, 0] = .occurrence := rfl
  have hnew : HMap.contains (enumOccs done) (done.length + 1) = false :=
    zipIdx_keys done (fun o _ => ({ name := o.name, tableActual := byteAt o.info 6 } : FOccurrence)) (done.length + 1) (by omega)
  have ge : ∀ i, i < 7 → idx o.info i = .ok (o.info.getD i 0) := fun i hi =>
    idx_of (by rw [List.getD_eq_getElem?_getD, List.getElem?_eq_getElem (by omega)]; rfl)
  have e1 : edispatch p (graphState (enumOccs done) (enumRels (Spec.mentionedPairs done))) ⟨[3, 17, 5, 0], .kv 2 o.info⟩ =
      .ok (graphState (enumOccs done ++ [(done.length + 1, { tableActual := byteAt o.info 6 })]) (enumRels (Spec.mentionedPairs done))) := by
    unfold edispatch dispatch
    dsimp only
    rw [cl]
    dsimp only
    unfold armOccurrence
    rw [if_pos (by simp [toChunk])]
    simp only [toChunk, unwrap, ok_bind, ge 6 (by omega), ge 2 (by omega)]
    simp only [graphState, enumOccs_length, HMap.insert_new hnew]
    rfl
  have e2 : edispatch p (graphState (enumOccs done ++ [(done.length + 1, { tableActual := byteAt o.info 6 })]) (enumRels (Spec.mentionedPairs done)))
      ⟨[3, 17, 5, 0], .kv 16 (fmStringEncrypt o.name)⟩ =
      .ok (graphState (enumOccs (done ++ [o])) (enumRels (Spec.mentionedPairs done))) := by
    unfold edispatch dispatch
    dsimp only
    rw [cl]
    dsimp only
    unfold armOccurrence
    rw [if_neg (by simp [toChunk]), if_pos (by simp [toChunk])]
    simp only [graphState, List.length_append, enumOccs_length, List.length_cons, List.length_nil, Nat.zero_add]
    rw [if_pos (contains_mid _ [] _ _), modify_last hnew]
    simp only [dataOr, toChunk, Option.getD_some, decrypt_encrypt, enumOccs_snoc]
    rfl
  unfold Spec.occurrenceEvents
  rw [runEvents_append, runEvents_cons, e1, ok_bind, runEvents_cons, e2, ok_bind]
  show (Except.ok _ >>= _) = _
  rw [ok_bind, links_run _ (by rw [enumOccs_length]; simpa using hd) _ _ hl, mentionedPairs_snoc, enumOccs_length]
  simp [OccurrenceDef.linked]

theorem occurrences_run {p : Profile} (os : List OccurrenceDef) : ∀ done : List OccurrenceDef, Spec.Readable (done ++ os) [] →
    runEvents p (graphState (enumOccs done) (enumRels (Spec.mentionedPairs done))) (os.flatMap (Spec.occurrenceEvents fmStringEncrypt)) =
      .ok (graphState (enumOccs (done ++ os)) (enumRels (Spec.mentionedPairs (done ++ os)))) := by
  induction os with
  | nil => intro done _; simp; rfl
  | cons o os ih =>
    intro done h
    have hc := h.count
    rw [List.length_append, List.length_cons] at hc
    rw [List.flatMap_cons, runEvents_append, occurrence_run done o (by omega) (h.info o (by simp)).1 (h.info o (by simp)).2, ok_bind,
      ih (done ++ [o]) (by simpa using h)]
    simp

theorem graph_run {p : Profile} {os : List OccurrenceDef} {cs : List CriterionDef} (h : Spec.Readable os cs) :
    runEvents p {} (Spec.graphEvents fmStringEncrypt os cs) =
      .ok (graphState (enumOccs os) (withCriteria (Spec.mentionedPairs os) cs)) := by
  unfold Spec.graphEvents
  rw [runEvents_append]
  have := occurrences_run (p := p) os [] ⟨h.count, h.info, by simp⟩
  rw [show graphState (enumOccs []) (enumRels (Spec.mentionedPairs [])) = {} from rfl] at this
  rw [this, ok_bind, List.nil_append]
  have e : enumRels (Spec.mentionedPairs os) = withCriteria (Spec.mentionedPairs os) [] := rfl
  rw [e, graph_criteria _ _ _ _ h.criteria, List.nil_append]

/-! From notes to events -/

def noteEvents : Spec.GraphNote → List Event
  | .enter _ => []
  | .event e => [e]

theorem notes_events (raws : List Spec.Raw) : (Spec.seen raws).filter Spec.aboutGraph = (raws.filterMap Spec.graphNote).flatMap noteEvents := by
  induction raws with
  | nil => rfl
  | cons r raws ih =>
    unfold Spec.seen at ih ⊢
    cases he : r.event with
    | none =>
      rw [List.filterMap_cons_none he, List.filterMap_cons_none (by unfold Spec.graphNote; rw [he])]
      exact ih
    | some e =>
      rw [List.filterMap_cons_some he]
      by_cases ha : Spec.aboutGraph e = true
      · rw [List.filter_cons_of_pos ha, List.filterMap_cons_some (b := .event e) (by unfold Spec.graphNote; rw [he]; dsimp only; rw [if_pos ha]), ih]
        rfl
      · rw [List.filter_cons_of_neg ha, ih]
        by_cases hp : r.opcode = 0x30 ∧ e = ⟨[3, 17, 5, 0], .push⟩
        · rw [List.filterMap_cons_some (b := .enter r.operands) (by unfold Spec.graphNote; rw [he]; dsimp only; rw [if_neg ha, if_pos hp])]
          rfl
        · rw [List.filterMap_cons_none (by unfold Spec.graphNote; rw [he]; dsimp only; rw [if_neg ha, if_neg hp])]

theorem flatMap_event (evs : List Event) : (evs.map Spec.GraphNote.event).flatMap noteEvents = evs := by
  induction evs with
  | nil => rfl
  | cons e evs ih => simp only [List.map_cons, List.flatMap_cons, ih]; rfl

theorem stored_events (os : List Spec.StoredOccurrence) (cs : List CriterionDef) :
    (Spec.storedGraph fmStringEncrypt os cs).flatMap noteEvents = Spec.graphEvents fmStringEncrypt (os.map (·.occ)) cs := by
  unfold Spec.storedGraph Spec.graphEvents
  rw [List.flatMap_append, flatMap_event]
  congr 1
  induction os with
  | nil => rfl
  | cons o os ih =>
    rw [List.flatMap_cons, List.flatMap_append, ih, List.map_cons, List.flatMap_cons, List.flatMap_cons, flatMap_event]
    rfl

/-! Pairs -/

theorem addLink_sub {i j : Nat} {ps : List (Nat × Nat)} {q : Nat × Nat} (h : q ∈ ps) : q ∈ Spec.addLink i ps j := by
  unfold Spec.addLink
  split
  · exact h
  · simp [h]

theorem addLinks_sub {i : Nat} {js : List Nat} : ∀ {ps : List (Nat × Nat)} {q : Nat × Nat}, q ∈ ps → q ∈ js.foldl (Spec.addLink i) ps := by
  induction js with
  | nil => intro ps q h; exact h
  | cons j js ih => intro ps q h; exact ih (addLink_sub h)

theorem addLinks_mem {i j : Nat} {js : List Nat} (hj : j ∈ js) : ∀ ps, (i, j) ∈ js.foldl (Spec.addLink i) ps ∨ (j, i) ∈ js.foldl (Spec.addLink i) ps := by
  induction js with
  | nil => simp at hj
  | cons k js ih =>
    intro ps
    rcases List.mem_cons.mp hj with rfl | hj
    · rw [List.foldl_cons]
      by_cases h : (j, i) ∈ ps
      · exact .inr (addLinks_sub (addLink_sub h))
      · left
        apply addLinks_sub
        unfold Spec.addLink
        rw [if_neg h]
        simp
    · exact ih hj _

theorem mentioned_mem {os : List OccurrenceDef} {i j : Nat} {o : OccurrenceDef} (hi : os[i]? = some o) (hj : j ∈ o.linked) :
    (i + 1, j) ∈ Spec.mentionedPairs os ∨ (j, i + 1) ∈ Spec.mentionedPairs os := by
  induction os using List.reverseRecOn with
  | nil => simp at hi
  | append_singleton os x ih =>
    rw [mentionedPairs_snoc]
    rcases Nat.lt_trichotomy i os.length with h | h | h
    · rw [List.getElem?_append_left h] at hi
      rcases ih hi with h | h
      · exact .inl (addLinks_sub h)
      · exact .inr (addLinks_sub h)
    · subst h
      simp at hi
      subst hi
      exact addLinks_mem hj _
    · rw [List.getElem?_eq_none (by simp; omega)] at hi
      cases hi

/-! The test environment -/

theorem setIdx_len {α : Type} {l l' : List α} {i : Nat} {v : α} (h : setIdx l i v = .ok l') : l'.length = l.length := by
  unfold setIdx at h
  split at h
  · cases h; simp
  · cases h

theorem modIdx_len {α : Type} {l l' : List α} {i : Nat} {f : α → α} (h : modIdx l i f = .ok l') : l'.length = l.length ∧ i < l.length := by
  unfold modIdx at h
  obtain ⟨x, hx, h⟩ := bind_ok.mp h
  refine ⟨setIdx_len h, ?_⟩
  have := idx_ok.mp hx
  exact (List.getElem?_eq_some_iff.mp this).1

theorem genOccs_len {file : FmpFile} {occs : List DOcc} {ind : SMap Nat} (h : genOccs [] [] file = .ok (occs, ind)) :
    occs.length = maxKey file.tableOccurrences + 1 := by
  unfold genOccs at h
  have key : ∀ (l : HMap FOccurrence) (a b : List DOcc × SMap Nat), l.foldlM (fun acc e => do
      let os ← setIdx acc.1 e.1 ({ foundSet := [], recordPtr := 0, tablePtr := e.2.tableActual, related := [] } : DOcc)
      pure (os, SMap.insert acc.2 e.2.name (e.1 % 65536))) a = Except.ok (ε := Panic) b → b.1.length = a.1.length := by
    intro l
    induction l with
    | nil => intro a b h; cases h; rfl
    | cons e l ih =>
      intro a b h
      rw [List.foldlM_cons] at h
      obtain ⟨u, h1, h2⟩ := bind_ok.mp h
      obtain ⟨w, h3, h4⟩ := bind_ok.mp h1
      cases h4
      rw [ih _ _ h2]
      exact setIdx_len h3
  have := key _ _ _ h
  rw [this, resize_nil]
  simp

theorem genRels_bound {file : FmpFile} {occs : List DOcc} {g : Graph} {r : List DOcc × Graph} (h : genRels occs g file = .ok r) :
    ∀ e ∈ file.relationships, e.2.table1 < occs.length ∧ e.2.table2 < occs.length := by
  unfold genRels at h
  have key : ∀ (l : HMap FRelationship) (a b : List DOcc × Graph), l.foldlM (fun acc e => do
      let os ← addRelSets acc.1 e.2
      pure (os, addRelation acc.2 e.2.table1 e.2.table2)) a = Except.ok (ε := Panic) b →
      ∀ e ∈ l, e.2.table1 < a.1.length ∧ e.2.table2 < a.1.length := by
    intro l
    induction l with
    | nil => intro a b _ e he; simp at he
    | cons x l ih =>
      intro a b h e he
      rw [List.foldlM_cons] at h
      obtain ⟨u, h1, h2⟩ := bind_ok.mp h
      obtain ⟨w, h3, h4⟩ := bind_ok.mp h1
      cases h4
      unfold addRelSets at h3
      obtain ⟨v, h5, h6⟩ := bind_ok.mp h3
      obtain ⟨l1, l2⟩ := modIdx_len h5
      obtain ⟨l3, l4⟩ := modIdx_len h6
      rcases List.mem_cons.mp he with rfl | he
      · exact ⟨l2, by omega⟩
      · have := ih _ _ h2 e he
        dsimp only at this
        omega
  exact key _ _ _ h

/-- A test environment is built only if every relationship is between numbers up to the largest number of an occurrence. -/
theorem generate_bound {file : FmpFile} {vm : Vm} (h : Vm.generate file = .ok vm) :
    ∀ e ∈ file.relationships, e.2.table1 ≤ maxKey file.tableOccurrences ∧ e.2.table2 ≤ maxKey file.tableOccurrences := by
  unfold Vm.generate at h
  obtain ⟨db, h1, _⟩ := ev_bind_ok.mp h
  have h1 := liftR_ok.mp h1
  unfold Database.generate at h1
  obtain ⟨tables, _, h2⟩ := bind_ok.mp h1
  obtain ⟨⟨occs, ind⟩, h3, h4⟩ := bind_ok.mp h2
  obtain ⟨r, h5, _⟩ := bind_ok.mp h4
  intro e he
  have := genRels_bound h5 e he
  rw [genOccs_len h3] at this
  omega

theorem maxKey_enum (os : List OccurrenceDef) : maxKey (enumOccs os) ≤ os.length := by
  unfold maxKey
  cases h : ((enumOccs os).map (·.1)).max? with
  | none => simp
  | some x =>
    obtain ⟨e, he, rfl⟩ := List.mem_map.mp (List.max?_eq_some_iff.mp h).1
    obtain ⟨⟨o, i⟩, hm, rfl⟩ := List.mem_map.mp he
    have := List.mem_zipIdx hm
    simp
    omega

theorem get_enumOccs (os : List OccurrenceDef) (k : Nat) :
    (enumOccs os).get k = if 1 ≤ k then (os[k - 1]?).map fun o => { name := o.name, tableActual := byteAt o.info 6 } else none := by
  have key : ∀ (os : List OccurrenceDef) (n : Nat), HMap.get ((os.zipIdx n).map fun (o, i) => (i + 1, ({ name := o.name, tableActual := byteAt o.info 6 } : FOccurrence))) k =
      if n + 1 ≤ k then (os[k - 1 - n]?).map fun o => { name := o.name, tableActual := byteAt o.info 6 } else none := by
    intro os
    induction os with
    | nil => intro n; simp [HMap.get_nil]
    | cons o os ih =>
      intro n
      rw [List.zipIdx_cons, List.map_cons, HMap.get_cons]
      dsimp only
      by_cases h : n + 1 = k
      · subst h; simp
      · rw [if_neg h, ih]
        by_cases h2 : n + 1 ≤ k
        · rw [if_pos h2, if_pos (by omega), show k - 1 - n = (k - 1 - (n + 1)) + 1 from by omega, List.getElem?_cons_succ]
        · rw [if_neg h2, if_neg (by omega)]
  have := key os 0
  simpa [enumOccs] using this

theorem get_withCriteria (ps : List (Nat × Nat)) (cs : List CriterionDef) (k : Nat) :
    (withCriteria ps cs).get k = if 1 ≤ k then (ps[k - 1]?).map (Spec.relationshipOf cs k) else none := by
  have key : ∀ (ps : List (Nat × Nat)) (n : Nat), HMap.get ((ps.zipIdx n).map fun (q, r) => (r + 1, Spec.relationshipOf cs (r + 1) q)) k =
      if n + 1 ≤ k then (ps[k - 1 - n]?).map (Spec.relationshipOf cs k) else none := by
    intro os
    induction os with
    | nil => intro n; simp [HMap.get_nil]
    | cons o os ih =>
      intro n
      rw [List.zipIdx_cons, List.map_cons, HMap.get_cons]
      dsimp only
      by_cases h : n + 1 = k
      · subst h; simp
      · rw [if_neg h, ih]
        by_cases h2 : n + 1 ≤ k
        · rw [if_pos h2, if_pos (by omega), show k - 1 - n = (k - 1 - (n + 1)) + 1 from by omega, List.getElem?_cons_succ]
        · rw [if_neg h2, if_neg (by omega)]
  have := key ps 0
  simpa [withCriteria] using this

/-! No pair is mentioned twice -/

def Apart (a b : Nat × Nat) : Prop := a ≠ b ∧ a ≠ (b.2, b.1)

theorem addLinks_apart (n : Nat) (js : List Nat) : ∀ (seen : List Nat) (ps : List (Nat × Nat)), (seen ++ js).Nodup → ps.Pairwise Apart →
    (∀ q ∈ ps, q.1 ≤ n ∨ (q.1 = n + 1 ∧ q.2 ∈ seen)) →
    (js.foldl (Spec.addLink (n + 1)) ps).Pairwise Apart ∧ ∀ q ∈ js.foldl (Spec.addLink (n + 1)) ps, q.1 ≤ n + 1 := by
  induction js with
  | nil =>
    intro seen ps _ hp hq
    refine ⟨hp, fun q h => ?_⟩
    rcases hq q h with h | h <;> omega
  | cons j js ih =>
    intro seen ps hn hp hq
    rw [List.foldl_cons]
    have hj : j ∉ seen := by
      intro hm
      exact (List.nodup_append.mp hn).2.2 j hm j (by simp) rfl
    refine ih (seen ++ [j]) _ (by simpa using hn) ?_ ?_
    · unfold Spec.addLink
      split
      · exact hp
      · rename_i hne
        rw [List.pairwise_append]
        refine ⟨hp, by simp, fun a ha b hb => ?_⟩
        rw [List.mem_singleton] at hb
        subst hb
        constructor
        · rintro rfl
          rcases hq _ ha with h | ⟨_, h⟩
          · exact absurd h (Nat.not_succ_le_self n)
          · exact hj h
        · rintro rfl
          exact hne ha
    · intro q h
      unfold Spec.addLink at h
      split at h
      · rcases hq q h with h | ⟨h1, h2⟩
        · exact .inl h
        · exact .inr ⟨h1, by simp [h2]⟩
      · rcases List.mem_append.mp h with h | h
        · rcases hq q h with h | ⟨h1, h2⟩
          · exact .inl h
          · exact .inr ⟨h1, by simp [h2]⟩
        · rw [List.mem_singleton] at h
          subst h
          exact .inr ⟨rfl, by simp⟩

theorem mentioned_apart (os : List OccurrenceDef) (h : ∀ o ∈ os, o.linked.Nodup) :
    (Spec.mentionedPairs os).Pairwise Apart ∧ ∀ q ∈ Spec.mentionedPairs os, q.1 ≤ os.length := by
  induction os using List.reverseRecOn with
  | nil => exact ⟨.nil, by simp [Spec.mentionedPairs]⟩
  | append_singleton os o ih =>
    obtain ⟨i1, i2⟩ := ih fun x hx => h x (by simp [hx])
    rw [mentionedPairs_snoc]
    have := addLinks_apart os.length o.linked [] _ (by simpa using h o (by simp)) i1 (fun q hq => .inl (i2 q hq))
    simpa using this

theorem mentioned_unique {os : List OccurrenceDef} (h : ∀ o ∈ os, o.linked.Nodup) {k k' : Nat} {a b : Nat × Nat}
    (hk : (Spec.mentionedPairs os)[k]? = some a) (hk' : (Spec.mentionedPairs os)[k']? = some b) (hab : a = b ∨ a = (b.2, b.1)) : k = k' := by
  obtain ⟨h1, _⟩ := mentioned_apart os h
  obtain ⟨l1, e1⟩ := List.getElem?_eq_some_iff.mp hk
  obtain ⟨l2, e2⟩ := List.getElem?_eq_some_iff.mp hk'
  rw [List.pairwise_iff_getElem] at h1
  rcases Nat.lt_trichotomy k k' with hlt | heq | hgt
  · have := h1 k k' l1 l2 hlt
    rw [e1, e2] at this
    rcases hab with h | h
    · exact absurd h this.1
    · exact absurd h this.2
  · exact heq
  · have := h1 k' k l2 l1 hgt
    rw [e1, e2] at this
    rcases hab with h | h
    · exact absurd h.symm this.1
    · exact absurd (by rw [h]) this.2

end BurnFm
