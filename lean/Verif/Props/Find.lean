import Verif.Props.Database

/-! Property C34: `perform_find`. -/

namespace BurnFm.Props
open Spec

theorem splitCC_noColon (s : Str) (h : ':' ∉ s) : splitCC s = [s] := by
  induction s with
  | nil => rfl
  | cons c s ih =>
    have hc : c ≠ ':' := fun e => h (by rw [e]; simp)
    have hs : ':' ∉ s := fun e => h (List.mem_cons_of_mem _ e)
    unfold splitCC
    split
    · rename_i h2; cases h2
    · rename_i h2; cases h2; exact absurd rfl hc
    · rename_i _ h2; cases h2; rw [ih hs]

theorem splitCC_pair (a b : Str) (ha : ':' ∉ a) (hb : ':' ∉ b) : splitCC (a ++ t!"::" ++ b) = [a, b] := by
  induction a with
  | nil =>
    show splitCC (':' :: ':' :: b) = _
    rw [splitCC, splitCC_noColon b hb]
  | cons c a ih =>
    have hc : c ≠ ':' := fun e => ha (by rw [e]; simp)
    have hs : ':' ∉ a := fun e => ha (List.mem_cons_of_mem _ e)
    show splitCC (c :: (a ++ t!"::" ++ b)) = _
    have := ih hs
    generalize a ++ t!"::" ++ b = s at this
    unfold splitCC
    split
    · rename_i h2; cases h2
    · rename_i h2; cases h2; exact absurd rfl hc
    · rename_i _ h2; cases h2; rw [this]

/-- The names in a criterion contain no colon, so that `occ::field` has one reading. -/
def Plain (c : Criterion) : Prop := ':' ∉ c.occ ∧ ':' ∉ c.field

theorem critMatch_iff (db : Database) (o : DOcc) (t : DTable) (ho : db.occs[db.handle]? = some o)
    (ht : db.tables[o.tablePtr]? = some t) (c : Criterion) (hc : Plain c) (r : Nat) :
    CritMatch db c.raw r ↔ hasValue t c.field c.value r := by
  unfold CritMatch Criterion.raw hasValue
  simp only [splitCC_pair c.occ c.field hc.1 hc.2]
  constructor
  · rintro ⟨field, values, h1, h2, h3⟩
    cases h1
    obtain ⟨o', t', f, ho', ht', _, hf, rfl⟩ := fieldVals_ok h2
    rw [ho] at ho'; cases ho'
    rw [ht] at ht'; cases ht'
    exact ⟨f, hf, h3⟩
  · rintro ⟨f, hf, hr⟩
    refine ⟨c.field, f.records, rfl, ?_, hr⟩
    unfold Database.fieldVals
    rw [currentTable_ok.mpr ⟨o, ho, ht⟩, ok_bind, firstField_ok.mpr hf]
    rfl

/-- C34: a find succeeds when all its fields exist in the current table. -/
theorem find_succeeds (db : Database) (o : DOcc) (t : DTable) (ho : db.occs[db.handle]? = some o)
    (ht : db.tables[o.tablePtr]? = some t) (hne : t.fields ≠ []) (cs : List Criterion)
    (hc : ∀ c ∈ cs, Plain c ∧ ∃ f ∈ t.fields, f.name = c.field) :
    ∃ db', db.performFind (cs.map Criterion.raw) = .ok db' := by
  have hfr : ∀ (acc : List Nat), ∃ rs, (cs.map Criterion.raw).foldlM (fun acc c => do
      let field ← idx (splitCC c.1) 1
      let values ← db.fieldVals field
      pure ((matchIds values c.2).foldl (fun s i => insertSorted i s) acc)) acc = (.ok rs : Res (List Nat)) := by
    induction cs with
    | nil => intro acc; exact ⟨acc, rfl⟩
    | cons c cs ih =>
      intro acc
      obtain ⟨hp, f, hf, hn⟩ := hc c List.mem_cons_self
      have : ∃ g, t.fields.find? (fun f => f.name == c.field) = some g := by
        rw [← Option.isSome_iff_exists, List.find?_isSome]
        exact ⟨f, hf, by simpa using hn⟩
      obtain ⟨g, hg⟩ := this
      have hv : db.fieldVals c.field = .ok g.records := by
        unfold Database.fieldVals
        rw [currentTable_ok.mpr ⟨o, ho, ht⟩, ok_bind, firstField_ok.mpr hg]
        rfl
      rw [List.map_cons, List.foldlM_cons]
      simp only [Criterion.raw, splitCC_pair c.occ c.field hp.1 hp.2]
      have e1 : idx [c.occ, c.field] 1 = .ok c.field := rfl
      rw [e1, ok_bind, hv]
      exact ih (fun x hx => hc x (List.mem_cons_of_mem _ hx)) _
  obtain ⟨rs, hrs⟩ := hfr []
  obtain ⟨f, fs, hfs⟩ := List.exists_cons_of_ne_nil hne
  have hreset : ∃ d, db.resetFoundSet = .ok d ∧ ∃ x, d.occs[d.handle]? = some x := by
    unfold Database.resetFoundSet
    rw [currentTable_ok.mpr ⟨o, ho, ht⟩, ok_bind, hfs, idx_zero, ok_bind]
    refine ⟨_, modCurrentOcc_ok.mpr ⟨o, ho, rfl⟩, _, List.getElem?_set_self (List.getElem?_eq_some_iff.mp ho).1⟩
  obtain ⟨d, hd, x, hx⟩ := hreset
  unfold Database.performFind Database.findRecords
  rw [hrs, ok_bind]
  unfold Database.updateFoundSet
  split
  · exact ⟨d, hd⟩
  · rw [hd, ok_bind]
    exact ⟨_, modCurrentOcc_ok.mpr ⟨x, hx, rfl⟩⟩

/-- C34: after a find the found set consists of exactly the records that match a criterion, in ascending order
and without duplicates, and the first one is current; if nothing matches, of all records of the table.
Nothing else changes: not the data, not any other occurrence. -/
theorem find_exact (db db' : Database) (hv : Valid db) (o : DOcc) (t : DTable) (ho : db.occs[db.handle]? = some o)
    (ht : db.tables[o.tablePtr]? = some t) (cs : List Criterion) (hc : ∀ c ∈ cs, Plain c)
    (h : db.performFind (cs.map Criterion.raw) = .ok db') :
    ∃ o', db' = { db with occs := db.occs.set db.handle o' } ∧ o'.tablePtr = o.tablePtr ∧ o'.related = o.related ∧
      o'.foundSet.Pairwise (· < ·) ∧
      ((∃ r, ∃ c ∈ cs, hasValue t c.field c.value r) → o'.recordPtr = 0 ∧
        ∀ r, r ∈ o'.foundSet ↔ ∃ c ∈ cs, hasValue t c.field c.value r) ∧
      ((¬ ∃ r, ∃ c ∈ cs, hasValue t c.field c.value r) → ∀ r, r ∈ o'.foundSet ↔ IsRecord db o.tablePtr r) := by
  unfold Database.performFind at h
  obtain ⟨rs, hrs, h⟩ := bind_ok.mp h
  obtain ⟨hs, hm⟩ := findRecords_spec hrs
  have hm' : ∀ r, r ∈ rs ↔ ∃ c ∈ cs, hasValue t c.field c.value r := by
    intro r
    rw [hm]
    constructor
    · rintro ⟨x, hx, hcm⟩
      obtain ⟨c, hcc, rfl⟩ := List.mem_map.mp hx
      exact ⟨c, hcc, (critMatch_iff db o t ho ht c (hc c hcc) r).mp hcm⟩
    · rintro ⟨c, hcc, hval⟩
      exact ⟨c.raw, List.mem_map.mpr ⟨c, hcc, rfl⟩, (critMatch_iff db o t ho ht c (hc c hcc) r).mpr hval⟩
  have hlen : db.handle < db.occs.length := (List.getElem?_eq_some_iff.mp ho).1
  unfold Database.updateFoundSet at h
  rcases ite_ok.mp h with ⟨he, h⟩ | ⟨hne, h⟩
  · obtain ⟨o2, t2, f, ho2, ht2, hf, rfl⟩ := reset_ok h
    rw [ho] at ho2; cases ho2
    rw [ht] at ht2; cases ht2
    have hnil : rs = [] := by simpa using he
    refine ⟨_, rfl, rfl, rfl, List.pairwise_lt_range, ?_, ?_⟩
    · rintro ⟨r, hr⟩
      have := (hm' r).mpr hr
      rw [hnil] at this; cases this
    · intro _ r
      show r ∈ List.range f.records.length ↔ _
      rw [List.mem_range]
      have hfm := List.mem_of_getElem? hf
      constructor
      · intro hr
        refine ⟨t, ht, List.ne_nil_of_mem hfm, ?_⟩
        intro g hg
        rw [hv.rect t (List.mem_of_getElem? ht) g hg f hfm]
        exact hr
      · rintro ⟨tab, h1, _, h3⟩
        rw [ht] at h1; cases h1
        exact h3 f hfm
  · obtain ⟨d, hd, h⟩ := bind_ok.mp h
    obtain ⟨o2, t2, f, ho2, ht2, hf, rfl⟩ := reset_ok hd
    rw [ho] at ho2; cases ho2
    obtain ⟨o3, ho3, rfl⟩ := modCurrentOcc_ok.mp h
    simp only [List.getElem?_set_self hlen, Option.some.injEq] at ho3
    subst ho3
    have hnn : rs ≠ [] := by simpa using hne
    refine ⟨{ o with foundSet := rs, recordPtr := 0 }, ?_, rfl, rfl, hs, fun _ => ⟨rfl, hm'⟩, ?_⟩
    · simp only [List.set_set]
    · intro hno
      obtain ⟨r, hr⟩ := List.exists_mem_of_ne_nil rs hnn
      exact absurd ⟨r, (hm' r).mp hr⟩ hno

/-- Two criteria on the example state: the records named Ann or with id 7 are found. -/
example : ∃ db', petState.performFind ([⟨t!"others", t!"id", t!"7"⟩, ⟨t!"others", t!"name", t!"Ann"⟩].map Criterion.raw) = .ok db' ∧
    (db'.occs[5]?).map (fun o => (o.foundSet, o.recordPtr)) = some ([0, 1], 0) := by
  refine ⟨match petState.performFind ([⟨t!"others", t!"id", t!"7"⟩, ⟨t!"others", t!"name", t!"Ann"⟩].map Criterion.raw) with
    | .ok d => d | _ => {}, ?_⟩
  set_option maxRecDepth 20000 in exact ⟨rfl, by decide⟩

set_option maxRecDepth 20000 in
example : ((petState.performFind [(t!"others::id", t!"7")]).toOption.bind (·.occs[5]?)).map (·.foundSet) = some [1] := by
  decide

end BurnFm.Props
