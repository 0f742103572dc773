import Verif.Proofs.FileFacts
import Verif.Proofs.Sources
import Verif.Proofs.FileWriter
import Mathlib.Data.List.Nodup

/-! C73–C79: what decompiling a complete file gives. -/

namespace BurnFm.Props
open Spec (Event OccurrenceDef CriterionDef LayoutDef StoredScript StepDef FileDef)

/-! ## C73, C74: occurrences and relationships -/

/-- Whatever else the file contains, if it decompiles and describes the occurrences `os` with
the criteria `cs`, the result has exactly these occurrences, and the relationships given by their links. -/
theorem graph_recovered (p : Profile) (buf : Bytes) (evs : List Event) (os : List OccurrenceDef) (cs : List CriterionDef)
    (hf : Spec.FileOf buf evs) (hd : evs.filter Spec.aboutGraph = Spec.graphEvents fmStringEncrypt os cs) (hok : Spec.GraphOk os cs)
    (fuel : Nat) (f : FmpFile) (h : decompile p buf fuel = .ok (some f)) :
    f.tableOccurrences = Spec.occurrencesOf os ∧ f.relationships = Spec.relationshipsOf os cs := by
  obtain ⟨T, G, L, S, g, _, rfl, _, h2, _⟩ := file_project hf h
  rw [hd, run_graph hok] at h2
  cases h2
  exact ⟨rfl, rfl⟩

/-- The relationships between occurrences `i` and `j`, in either direction. -/
def between (f : FmpFile) (i j : Nat) : List (Nat × FRelationship) :=
  f.relationships.filter fun r => (r.2.table1 == i && r.2.table2 == j) || (r.2.table1 == j && r.2.table2 == i)

/-- Two occurrences have exactly one relationship between them if they are linked, and none otherwise. -/
theorem one_relationship_per_link (p : Profile) (buf : Bytes) (evs : List Event) (os : List OccurrenceDef) (cs : List CriterionDef)
    (hf : Spec.FileOf buf evs) (hd : evs.filter Spec.aboutGraph = Spec.graphEvents fmStringEncrypt os cs) (hok : Spec.GraphOk os cs)
    (fuel : Nat) (f : FmpFile) (h : decompile p buf fuel = .ok (some f)) (i j : Nat) (o : OccurrenceDef) (hi : os[i]? = some o) :
    (between f (i + 1) j).length = if j ∈ o.linked then 1 else 0 := by
  obtain ⟨_, hr⟩ := graph_recovered p buf evs os cs hf hd hok fuel f h
  unfold between
  rw [hr, ← List.countP_eq_length_filter]
  unfold Spec.relationshipsOf
  rw [List.countP_map]
  have e : ((fun r : Nat × FRelationship => (r.2.table1 == i + 1 && r.2.table2 == j) || (r.2.table1 == j && r.2.table2 == i + 1)) ∘
      fun x : (Nat × Nat) × Nat => match x with
        | (pair, r) => (r + 1, Spec.relationshipOf cs (r + 1) pair)) =
      fun x => (fun q : Nat × Nat => (q == (i + 1, j)) || (q == (j, i + 1))) x.1 := by
    funext ⟨⟨a, b⟩, r⟩
    show (((Spec.relationshipOf cs (r + 1) (a, b)).table1 == i + 1 && (Spec.relationshipOf cs (r + 1) (a, b)).table2 == j) ||
      ((Spec.relationshipOf cs (r + 1) (a, b)).table1 == j && (Spec.relationshipOf cs (r + 1) (a, b)).table2 == i + 1)) =
      ((a, b) == (i + 1, j) || (a, b) == (j, i + 1))
    rw [(relationshipOf_tables _ _ _).1, (relationshipOf_tables _ _ _).2]
    rfl
  rw [e, countP_zipIdx (fun q : Nat × Nat => (q == (i + 1, j)) || (q == (j, i + 1)))]
  have hn := nodup_linkedPairs os hok.once
  have hm : ∀ a b : Nat, (a, b) ∈ Spec.linkedPairs os ↔ _ := fun a b => mem_linkedPairs os a b
  -- the pair is stored from the lower number
  have hsym : (j, i + 1) ∈ Spec.linkedPairs os ∨ (i + 1, j) ∈ Spec.linkedPairs os ↔ j ∈ o.linked := by
    constructor
    · rintro (hp | hp)
      · obtain ⟨h1, h2, x, h3, h4⟩ := (hm _ _).mp hp
        obtain ⟨o', h5, h6, h7⟩ := hok.symmetric (j - 1) x h3 (i + 1) h4
        rw [Nat.add_sub_cancel, hi] at h6
        cases h6
        rwa [show j - 1 + 1 = j by omega] at h7
      · obtain ⟨h1, h2, x, h3, h4⟩ := (hm _ _).mp hp
        rw [Nat.add_sub_cancel, hi] at h3
        cases h3
        exact h4
    · intro hj
      obtain ⟨o', h5, h6, h7⟩ := hok.symmetric i o hi j hj
      rcases Nat.lt_or_ge j (i + 1) with hlt | hge
      · exact Or.inl ((hm _ _).mpr ⟨h5, by omega, o', h6, h7⟩)
      · exact Or.inr ((hm _ _).mpr ⟨by omega, hge, o, by rwa [Nat.add_sub_cancel], hj⟩)
  by_cases hlink : j ∈ o.linked
  · rw [if_pos hlink]
    rcases hsym.mpr hlink with hp | hp
    · have hle := ((hm _ _).mp hp).2.1
      have : (Spec.linkedPairs os).countP (fun q => (q == (i + 1, j)) || (q == (j, i + 1))) =
          (Spec.linkedPairs os).countP (fun q => q == (j, i + 1)) := by
        simp only [Bool.or_comm]
        refine countP_or _ _ _ fun x hx hx2 => ?_
        simp only [beq_iff_eq] at hx2 ⊢
        subst hx2
        have := ((hm _ _).mp hx).2.1
        rw [show j = i + 1 by omega]
      rw [this]
      exact List.count_eq_one_of_mem hn hp
    · have hle := ((hm _ _).mp hp).2.1
      have : (Spec.linkedPairs os).countP (fun q => (q == (i + 1, j)) || (q == (j, i + 1))) =
          (Spec.linkedPairs os).countP (fun q => q == (i + 1, j)) := by
        refine countP_or _ _ _ fun x hx hx2 => ?_
        simp only [beq_iff_eq] at hx2 ⊢
        subst hx2
        have := ((hm _ _).mp hx).2.1
        rw [show j = i + 1 by omega]
      rw [this]
      exact List.count_eq_one_of_mem hn hp
  · rw [if_neg hlink, List.countP_eq_zero]
    intro q hq hq2
    simp only [Bool.or_eq_true, beq_iff_eq] at hq2
    rcases hq2 with rfl | rfl
    · exact hlink (hsym.mp (Or.inr hq))
    · exact hlink (hsym.mp (Or.inl hq))

/-- The comparison and the fields of a relationship are those of the last criterion given for its number. -/
theorem criterion_recovered (p : Profile) (buf : Bytes) (evs : List Event) (os : List OccurrenceDef) (cs : List CriterionDef)
    (hf : Spec.FileOf buf evs) (hd : evs.filter Spec.aboutGraph = Spec.graphEvents fmStringEncrypt os cs) (hok : Spec.GraphOk os cs)
    (fuel : Nat) (f : FmpFile) (h : decompile p buf fuel = .ok (some f)) (id : Nat) (r : FRelationship) (hr : (id, r) ∈ f.relationships)
    (before after : List CriterionDef) (c : CriterionDef) (hc : cs = before ++ c :: after) (hid : c.rel = id)
    (hlast : ∀ c' ∈ after, c'.rel ≠ id) :
    r.comparison = Spec.comparisonWithCode (Spec.byteAt c.info 0) ∧ r.field1 = Spec.byteAt c.info 3 ∧ r.field2 = Spec.byteAt c.info 6 := by
  obtain ⟨_, h2⟩ := graph_recovered p buf evs os cs hf hd hok fuel f h
  rw [h2] at hr
  obtain ⟨⟨pair, k⟩, hk, he⟩ := List.mem_map.mp hr
  simp only [Prod.mk.injEq] at he
  obtain ⟨rfl, rfl⟩ := he
  have : Spec.criterionOf cs (k + 1) = some c.info := by
    unfold Spec.criterionOf
    have ha : after.filter (·.rel == k + 1) = [] := List.filter_eq_nil_iff.mpr (fun c' hc' => by simpa using hlast c' hc')
    rw [hc, List.filter_append, List.filter_cons_of_pos (by simpa using hid), ha, List.getLast?_append]
    rfl
  unfold Spec.relationshipOf
  rw [this]
  exact ⟨rfl, rfl, rfl⟩

/-! ## C75: layouts -/

/-- Whatever else the file contains, if it decompiles and describes the layouts `ls`, the result
has exactly these layouts. Partial: the layouts' directories must not contain directories, see `layout_reset`. -/
theorem layouts_recovered_partial (p : Profile) (buf : Bytes) (evs : List Event) (ls : List LayoutDef) (hf : Spec.FileOf buf evs)
    (hd : evs.filter Spec.aboutLayouts = ls.flatMap (Spec.layoutEvents fmStringEncrypt))
    (hok : Spec.LayoutsOk ls) (fuel : Nat) (f : FmpFile) (h : decompile p buf fuel = .ok (some f)) :
    f.layouts = ls.map fun l => (l.id, l.layout) := by
  obtain ⟨T, G, L, S, g, _, rfl, _, _, h3, _⟩ := file_project hf h
  have := run_layouts (p := p) ls [] hok
  rw [show layoutState (([] : List LayoutDef).map fun l => (l.id, l.layout)) = {} from rfl] at this
  rw [hd, this] at h3
  cases h3
  rfl

/-- Entering a layout's directory again, or any directory inside it, forgets everything said about the layout before. -/
theorem layout_reset (p : Profile) (buf : Bytes) (pre post : List Event) (x : Nat) (inner : List Nat)
    (hf : Spec.FileOf buf (pre ++ ⟨4 :: 1 :: 7 :: x :: inner, .push⟩ :: post))
    (hpost : ∀ e ∈ post, Spec.aboutLayouts e = true → e.path.getD 3 0 ≠ x)
    (fuel : Nat) (f : FmpFile) (h : decompile p buf fuel = .ok (some f)) : f.layouts.get x = some { name := [], tableOccurrence := 0 } := by
  obtain ⟨T, G, L, S, g, _, rfl, _, _, h3, _⟩ := file_project hf h
  rw [List.filter_append, List.filter_cons_of_pos (by simp [Spec.aboutLayouts]), runEvents_append] at h3
  obtain ⟨u, _, h4⟩ := bind_ok.mp h3
  rw [runEvents_cons] at h4
  obtain ⟨u', h5, h6⟩ := bind_ok.mp h4
  have hk := layouts_keep (x := x) _ h6 (fun e he ha => hpost e (List.mem_filter.mp he).1 ha)
  show L.file.layouts.get x = _
  rw [hk]
  unfold edispatch dispatch at h5
  dsimp only at h5
  rw [classify_layout] at h5
  dsimp only at h5
  unfold armLayout at h5
  rw [if_pos (by simp [toChunk])] at h5
  cases h5
  dsimp only
  rw [HMap.get_insert, if_pos rfl]

/-! ## C76, C77: scripts -/

/-- Whatever else the file contains, if it decompiles and describes the scripts `ss`, the result
has exactly these scripts, with their steps in order and the parameters of each step. Partial: a script stored in segments
has no parameters, and long code has steps numbered 0, 1, 2, …; see `parameters_need_steps` and `long_code_numbers`. -/
theorem scripts_recovered_partial (p : Profile) (buf : Bytes) (evs : List Event) (ss : List StoredScript) (hf : Spec.FileOf buf evs)
    (hd : evs.filter Spec.aboutScripts = Spec.scriptEvents fmStringEncrypt ss)
    (hok : Spec.ScriptsOk fmStringEncrypt ss) (fuel : Nat) (f : FmpFile) (h : decompile p buf fuel = .ok (some f)) :
    f.scripts = ss.map fun s => (s.id, s.script ss) := by
  obtain ⟨T, G, L, S, g, _, rfl, _, _, _, h4, h5⟩ := file_project hf h
  obtain ⟨S', f', r1, r2, r3⟩ := run_scripts (p := p) hok
  rw [hd, r1] at h4
  cases h4
  rw [r2] at h5
  cases h5
  exact r3

/-- A parameter of a step of script `k` that comes before any steps of the script panics. Steps in segments do not count:
they are put together only at the end of the file. -/
theorem parameters_need_steps (p : Profile) (buf : Bytes) (pre post : List Event) (k n : Nat) (e : Event)
    (he : (∃ v, e = ⟨[17, 5, k, 5, n, 128], .kv 1 v⟩) ∨ (∃ v, e = ⟨[17, 5, k, 5, n, 128, 5], .kv 5 v⟩) ∨
      ∃ v, e = ⟨[17, 5, k, 5, n, 129, 5], .kv 5 v⟩)
    (hf : Spec.FileOf buf (pre ++ e :: post))
    (hpre : ∀ e' ∈ pre, Spec.givesSteps k e' = false) :
    ∃ fuel₀ x, ∀ fuel, fuel₀ ≤ fuel → decompile p buf fuel = .error x :=
  file_fails hf (by rcases he with ⟨v, rfl⟩ | ⟨v, rfl⟩ | ⟨v, rfl⟩ <;> simp [classify, isSource])
    fun _ _ hu => param_fails (noSteps_events _ hu (fun _ hsc => by cases hsc) fun e' h' => hpre e' (List.mem_filter.mp h').1) he

/-- Long code of a script that has no steps yet panics when the number of its first step is not 0. -/
theorem long_code_numbers (p : Profile) (buf : Bytes) (pre post : List Event) (k : Nat) (ss : List StoredScript) (t : StepDef)
    (rest : Bytes) (ht : t.Ok fmStringEncrypt ss) (hi : 1 ≤ t.index)
    (hf : Spec.FileOf buf (pre ++ ⟨[17, 5, k], .segment 4 (t.bytes ++ rest)⟩ :: post))
    (hpre : ∀ e ∈ pre, Spec.givesSteps k e = false) :
    ∃ fuel₀ x, ∀ fuel, fuel₀ ≤ fuel → decompile p buf fuel = .error x :=
  file_fails hf (by simp [classify, isSource]) fun _ _ hu =>
    long_fails ht hi rest (noSteps_events _ hu (fun _ hsc => by cases hsc) fun e' h' => hpre e' (List.mem_filter.mp h').1)

/-- Code of a script that comes before the name of the script panics. -/
theorem code_needs_name (p : Profile) (buf : Bytes) (pre post : List Event) (k : Nat) (ss : List StoredScript) (t : StepDef)
    (rest : Bytes) (ht : t.Ok fmStringEncrypt ss)
    (hf : Spec.FileOf buf (pre ++ ⟨[17, 5, k], .kv 4 (t.bytes ++ rest)⟩ :: post))
    (hpre : ∀ e ∈ pre, ∀ v, e.path.take 2 = [17, 1] → e.path.getD 3 0 = k → e.what ≠ .kv 16 v) :
    ∃ fuel₀ x, ∀ fuel, fuel₀ ≤ fuel → decompile p buf fuel = .error x := by
  refine file_fails hf (by simp [classify, isSource]) fun _ _ hu => unnamed_fails ht rest (unnamed_events _ hu rfl fun e he => ?_)
  have := hpre e (List.mem_filter.mp he).1
  unfold namesScript
  cases hw : e.what with
  | kv n v =>
    by_cases h1 : e.path.take 2 = [17, 1]
    · by_cases h2 : e.path.getD 3 0 = k
      · have := this v h1 h2
        rw [hw] at this
        have hn : n ≠ 16 := by rintro rfl; exact this rfl
        simp [hn]
      · simp only [beq_eq_false_iff_ne.mpr h2, Bool.and_false, Bool.false_and]
    · simp only [beq_eq_false_iff_ne.mpr h1, Bool.false_and]
  | _ => simp

/-! ## C78: the whole file -/

/-- A file that describes tables, occurrences, relationships, layouts, scripts and data sources decompiles to exactly these. -/
theorem file_recovered_partial (p : Profile) (buf : Bytes) (raws : List Spec.Raw) (d : FileDef) (hf : Spec.RawFileOf buf raws)
    (hd : Spec.Describes fmStringEncrypt encodeName raws d) (hok : d.WellFormed fmStringEncrypt) :
    ∃ fuel₀, ∀ fuel, fuel₀ ≤ fuel → decompile p buf fuel = .ok (some d.file) := by
  obtain ⟨T, t1, t2⟩ := run_tables_events (p := p) hok.tables
  have g1 := run_graph (p := p) hok.graph
  have l1 := run_layouts (p := p) d.layouts [] hok.layouts
  rw [show layoutState (([] : List LayoutDef).map fun l => (l.id, l.layout)) = {} from rfl] at l1
  obtain ⟨S, f, s1, s2, s3⟩ := run_scripts (p := p) hok.scripts
  have := raw_run hf (by rw [hd.tables]; exact t1) (by rw [hd.graph]; exact g1) (by rw [hd.layouts]; exact l1)
    (by rw [hd.scripts]; exact s1) (by rw [hd.sources]; exact run_sources hok.sources) s2
  obtain ⟨fuel₀, hfuel⟩ := this
  refine ⟨fuel₀, fun fuel hle => ?_⟩
  rw [hfuel fuel hle]
  unfold merge FileDef.file
  dsimp only
  rw [t2, s3]
  rfl

/-! ## C79: order -/

/-- Two files that say the same about tables, about occurrences and relationships, about layouts, about scripts and about
data sources, each in the same order, decompile to the same, however the five are mixed with each other and with other
content. Partial: the order within each of the five matters, see `order_refuted`. -/
theorem order_independent_partial (p : Profile) (buf buf' : Bytes) (raws raws' : List Spec.Raw) (hf : Spec.RawFileOf buf raws)
    (hf' : Spec.RawFileOf buf' raws')
    (h1 : (Spec.seen raws).filter Spec.describesSchema = (Spec.seen raws').filter Spec.describesSchema)
    (h2 : (Spec.seen raws).filter Spec.aboutGraph = (Spec.seen raws').filter Spec.aboutGraph)
    (h3 : (Spec.seen raws).filter Spec.aboutLayouts = (Spec.seen raws').filter Spec.aboutLayouts)
    (h4 : (Spec.seen raws).filter Spec.aboutScripts = (Spec.seen raws').filter Spec.aboutScripts)
    (h5 : raws.filterMap Spec.Raw.note = raws'.filterMap Spec.Raw.note) (f : FmpFile) :
    (∃ fuel, decompile p buf fuel = .ok (some f)) ↔ ∃ fuel, decompile p buf' fuel = .ok (some f) := by
  constructor
  · rintro ⟨fuel, h⟩
    obtain ⟨T, G, L, S, D, g, rfl, r1, r2, r3, r4, r5, r6⟩ := raw_project hf h
    obtain ⟨fuel', h'⟩ := raw_run hf' (by rw [← h1]; exact r1) (by rw [← h2]; exact r2) (by rw [← h3]; exact r3)
      (by rw [← h4]; exact r4) (by rw [← h5]; exact r5) r6
    exact ⟨fuel', h' _ (Nat.le_refl _)⟩
  · rintro ⟨fuel, h⟩
    obtain ⟨T, G, L, S, D, g, rfl, r1, r2, r3, r4, r5, r6⟩ := raw_project hf' h
    obtain ⟨fuel', h'⟩ := raw_run hf (by rw [h1]; exact r1) (by rw [h2]; exact r2) (by rw [h3]; exact r3)
      (by rw [h4]; exact r4) (by rw [h5]; exact r5) r6
    exact ⟨fuel', h' _ (Nat.le_refl _)⟩

/-! ## Example -/

/-- `n = x & 7`; `n` is the value of a Set Variable step. -/
def exampleCalc : List Spec.CalcItem := [.var t!"x", .symbol 0x50 t!"&", .number (Spec.zeros 8) 7 (Spec.zeros 10)]

def exampleScripts : List StoredScript :=
  [⟨1, t!"ab", [⟨exampleRecord 1 141, .setVariable, 1, 1, [.variableName t!"n", .value exampleCalc]⟩,
                ⟨exampleRecord 7 1, .performScript, 7, 1, []⟩], .inline⟩,
   ⟨2, t!"c", [⟨exampleRecord 0 1, .performScript, 0, 1, []⟩, ⟨exampleRecord 1 141, .setVariable, 1, 1, []⟩], .long⟩,
   ⟨3, t!"d", [⟨exampleRecord 1 141, .setVariable, 1, 1, []⟩, ⟨exampleRecord 2 1, .performScript, 2, 1, []⟩],
     .segments [(2, (exampleRecord 1 141 ++ exampleRecord 2 1).drop 30), (1, (exampleRecord 1 141 ++ exampleRecord 2 1).take 30)]⟩]

def exampleLocation : Spec.LocationDef :=
  ⟨[0, 0, 0, 1, 4], t!"file", [.colon, .text t!"data", .slash, .up, .slash], t!"stock"⟩

def exampleSources : List Spec.SourceDef :=
  [⟨1, t!"stock_list", some exampleLocation, some t!"Admin"⟩, ⟨4, t!"prices", none, none⟩]

/-- A table with a field; two occurrences of it, linked, with a criterion; a layout; three scripts; two data sources. -/
def exampleFile : FileDef :=
  { tables := [⟨1, [(16, t!"people")], [⟨1, [(16, t!"name")]⟩]⟩]
    occurrences := [⟨[0, 0, 0, 0, 0, 0, 1], t!"a", [[0, 0, 2]]⟩, ⟨[0, 0, 0, 0, 0, 0, 1], t!"b", [[0, 0, 1]]⟩]
    criteria := [⟨1, [4, 0, 0, 1, 0, 0, 2]⟩]
    layouts := [⟨2, [.info [0, 129], .other 5 [1], .name t!"Main"]⟩]
    scripts := exampleScripts
    sources := exampleSources }

def exampleItems : List Item :=
  [.push 3, .push 16, .push 5, .push 129, .kv 16 (fmStringEncrypt t!"people"), .pop, .pop, .pop,
   .push 17, .push 5, .push 0, .kv 2 [0, 0, 0, 0, 0, 0, 1], .kv 16 (fmStringEncrypt t!"a"), .push 251, .data [0, 0, 2], .pop, .pop,
   .push 0, .kv 2 [0, 0, 0, 0, 0, 0, 1], .kv 16 (fmStringEncrypt t!"b"), .push 251, .data [0, 0, 1], .pop, .pop, .pop, .pop,
   .push 251, .push 5, .push 1, .push 3, .kv 1 [4, 0, 0, 1, 0, 0, 2], .pop, .pop, .pop, .pop, .pop,
   .push 4, .push 1, .push 7, .push 2, .kv 2 [0, 129], .kv 5 [1], .kv 16 (fmStringEncrypt t!"Main"), .pop, .pop, .pop, .pop,
   .push 129, .push 3, .push 5, .push 1, .kv 16 (fmStringEncrypt t!"name"), .pop, .pop, .pop, .pop,
   .push 17, .push 1, .push 7, .push 1, .kv 16 (fmStringEncrypt t!"ab"), .pop, .push 2, .kv 16 (fmStringEncrypt t!"c"), .pop,
   .push 3, .kv 16 (fmStringEncrypt t!"d"), .pop, .pop, .pop,
   .push 5, .push 1, .kv 4 (exampleRecord 1 141 ++ exampleRecord 7 1),
   .push 5, .push 1, .push 128, .kv 1 (fmStringEncrypt t!"n"), .pop, .push 129, .push 5, .kv 5 (Spec.calcBytes fmStringEncrypt exampleCalc), .pop,
   .pop, .pop, .pop, .pop,
   .push 2, .segment 4 (exampleRecord 0 1 ++ exampleRecord 1 141), .pop,
   .push 3, .push 4, .segment 2 ((exampleRecord 1 141 ++ exampleRecord 2 1).drop 30),
   .segment 1 ((exampleRecord 1 141 ++ exampleRecord 2 1).take 30), .pop, .pop, .pop, .pop,
   .push 32, .push 1, .push 1, .data (encodeName t!"stock_list"), .data (encodeName t!"prices"), .pop, .pop,
   .push 5, .push 1, .kv 130 (exampleLocation.bytes fmStringEncrypt), .kvE 2 (fmStringEncrypt t!"Admin"), .pop, .push 4, .kv 16 [1], .pop, .pop, .pop]

set_option maxRecDepth 20000 in
theorem exampleFile_ok : Spec.RawFileOf (itemFile exampleItems) (itemRaws [] exampleItems) ∧
    Spec.Describes fmStringEncrypt encodeName (itemRaws [] exampleItems) exampleFile ∧ exampleFile.WellFormed fmStringEncrypt := by
  refine ⟨itemFile_raw _ (by decide) (by decide) (by decide), ⟨by rfl, by rfl, by rfl, by rfl, by rfl⟩, ⟨?_, ?_, ?_, ?_, ?_⟩⟩
  · refine ⟨by simp [exampleFile], ?_⟩
    intro t ht
    simp [exampleFile] at ht
    subst ht
    simp
  · refine ⟨by decide, by decide, by decide, ?_, by decide⟩
    intro i o hi j hj
    match i, hi with
    | 0, hi => cases hi; simp [OccurrenceDef.linked, Spec.byteAt] at hj; subst hj; exact ⟨_, by omega, rfl, by decide⟩
    | 1, hi => cases hi; simp [OccurrenceDef.linked, Spec.byteAt] at hj; subst hj; exact ⟨_, by omega, rfl, by decide⟩
  · refine ⟨by simp [exampleFile], ?_⟩
    intro l hl i hi
    simp [exampleFile] at hl
    subst hl
    simp at hi
    rcases hi with rfl | rfl | rfl <;> simp [Spec.LayoutItem.Ok, Spec.byteAt]
  · refine ⟨by simp [exampleFile, exampleScripts], ?_, ?_⟩
    · intro s hs t ht
      have hc : ∀ t : StepDef, t.callee = 1 → t.op = .performScript → ∃ s ∈ exampleScripts, s.id = t.callee :=
        fun t h1 _ => ⟨_, List.mem_cons_self, h1.symm⟩
      have hv : ∀ i ∈ exampleCalc, i.Valid fmStringEncrypt := by
        intro i hi
        simp [exampleCalc] at hi
        rcases hi with rfl | rfl | rfl
        · show (fmStringEncrypt t!"x").length ≤ 255
          decide
        · show (_, _) ∈ Spec.calcSymbols
          decide
        · exact ⟨rfl, rfl⟩
      simp [exampleFile, exampleScripts] at hs
      rcases hs with rfl | rfl | rfl
      all_goals
        simp at ht
        rcases ht with rfl | rfl
        all_goals refine ⟨rfl, rfl, by decide, Or.inl ⟨rfl, rfl⟩, rfl, hc _ rfl, ?_⟩
        all_goals simp [Spec.ParamDef.Ok]
      exact hv
    · intro s hs
      simp [exampleFile, exampleScripts] at hs
      rcases hs with rfl | rfl | rfl
      · simp [StoredScript.CodeOk]
      · intro i t hi
        match i, hi with
        | 0, hi => cases hi; rfl
        | 1, hi => cases hi; rfl
      · refine ⟨by simp, [(1, _), (2, _)], List.Perm.swap _ _ _, by simp, ?_⟩
        rfl
  · refine ⟨by simp [exampleFile, exampleSources], by decide, ?_⟩
    intro s hs l hl
    simp [exampleFile, exampleSources] at hs
    rcases hs with rfl | rfl <;> cases hl
    refine ⟨rfl, by decide, by decide, ?_, by decide⟩
    intro x hx
    simp [exampleLocation] at hx
    rcases hx with rfl | rfl | rfl | rfl | rfl
    · trivial
    · show ∀ b ∈ fmStringEncrypt t!"data", _
      decide
    all_goals trivial

/-- The example decompiles. -/
theorem exampleFile_decompiles (p : Profile) : ∃ fuel, decompile p (itemFile exampleItems) fuel = .ok (some exampleFile.file) := by
  obtain ⟨fuel₀, h⟩ := file_recovered_partial p _ _ _ exampleFile_ok.1 exampleFile_ok.2.1 exampleFile_ok.2.2
  exact ⟨fuel₀, h _ (Nat.le_refl _)⟩

set_option maxRecDepth 20000 in
/-- The hypotheses of the theorems above are met by the example. -/
example (p : Profile) : ∃ fuel f, decompile p (itemFile exampleItems) fuel = .ok (some f) ∧
    f.relationships = [(1, { table1 := 1, table2 := 2, comparison := .greater, field1 := 1, field2 := 2 })] ∧ (between f 1 2).length = 1 ∧
    f.layouts = [(2, { name := t!"Main", tableOccurrence := 1 })] ∧
    f.scripts.get 1 = some { name := t!"ab", instructions := [⟨.setVariable, 1, [t!"n", t!"x&7"]⟩, ⟨.performScript, 7, [t!"ab"]⟩] } ∧
    f.scripts.get 3 = some { name := t!"d", instructions := [⟨.setVariable, 1, []⟩, ⟨.performScript, 2, [t!"ab"]⟩] } ∧
    f.dataSources = [(1, ⟨t!"stock_list", ⟨t!"file", t!":data/../", t!"stock"⟩, [], t!"Admin"⟩), (4, ⟨t!"prices", {}, [], []⟩)] := by
  obtain ⟨fuel, h⟩ := exampleFile_decompiles p
  refine ⟨fuel, _, h, rfl, rfl, rfl, rfl, rfl, rfl⟩

/-! ## What the full statements of C75, C76 and C77 miss -/

/-- A layout whose directory holds its properties and then another directory. -/
def nestedLayout : List Item :=
  [.push 4, .push 1, .push 7, .push 2, .kv 2 [0, 129], .kv 16 (fmStringEncrypt t!"Main"), .push 6, .pop, .pop, .pop, .pop, .pop]

set_option maxRecDepth 20000 in
/-- C75 as stated is false: a layout that is given a name and an occurrence loses both. -/
theorem layouts_recovered_refuted (p : Profile) : ∃ buf evs, Spec.FileOf buf evs ∧
    ⟨[4, 1, 7, 2], .kv 16 (fmStringEncrypt t!"Main")⟩ ∈ evs ∧ ⟨[4, 1, 7, 2], .kv 2 [0, 129]⟩ ∈ evs ∧
    ∃ fuel f, decompile p buf fuel = .ok (some f) ∧ f.layouts.get 2 = some { name := [], tableOccurrence := 0 } := by
  have hf : Spec.FileOf (itemFile nestedLayout) (itemEvents [] nestedLayout) := itemFile_spec _ (by decide) (by decide) (by decide)
  refine ⟨_, _, hf, ?_, ?_, ?_⟩
  · have : (itemEvents [] nestedLayout)[5]? = some ⟨[4, 1, 7, 2], .kv 16 (fmStringEncrypt t!"Main")⟩ := rfl
    exact List.mem_of_getElem? this
  · have : (itemEvents [] nestedLayout)[4]? = some ⟨[4, 1, 7, 2], .kv 2 [0, 129]⟩ := rfl
    exact List.mem_of_getElem? this
  · obtain ⟨fuel, h⟩ := file_run (p := p) (T := {}) (G := {}) (L := layoutState [(2, {})]) (S := {}) (f := {}) hf (by decide)
      (by rfl) (by rfl) (by cases p <;> rfl) (by rfl) (by rfl)
    exact ⟨fuel, _, h fuel (Nat.le_refl _), rfl⟩

/-- The same script `d` as above, in segments, with a parameter for its first step. -/
def segmentedWithParameter : List Item :=
  [.push 17, .push 1, .push 7, .push 3, .kv 16 (fmStringEncrypt t!"d"), .pop, .pop, .pop,
   .push 5, .push 3, .push 4, .segment 1 (exampleRecord 1 141), .pop,
   .push 5, .push 1, .push 128, .kv 1 (fmStringEncrypt t!"n"), .pop, .pop, .pop, .pop, .pop, .pop]

set_option maxRecDepth 20000 in
/-- C77 as stated is false: a complete script in segments whose first step has a parameter panics. -/
theorem parameters_recovered_refuted (p : Profile) : ∃ buf evs, Spec.FileOf buf evs ∧
    evs.filter Spec.aboutScripts = [⟨[17, 1, 7, 3], .kv 16 (fmStringEncrypt t!"d")⟩, ⟨[17, 5, 3, 4], .push⟩,
      ⟨[17, 5, 3, 4], .segment 1 (exampleRecord 1 141)⟩, ⟨[17, 5, 3, 5, 1, 128], .kv 1 (fmStringEncrypt t!"n")⟩] ∧
    ∃ fuel₀ x, ∀ fuel, fuel₀ ≤ fuel → decompile p buf fuel = .error x := by
  have hf : Spec.FileOf (itemFile segmentedWithParameter) (itemEvents [] segmentedWithParameter) :=
    itemFile_spec _ (by decide) (by decide) (by decide)
  refine ⟨_, _, hf, rfl, ?_⟩
  exact parameters_need_steps p _ ((itemEvents [] segmentedWithParameter).take 16) ((itemEvents [] segmentedWithParameter).drop 17) 3 1
    _ (Or.inl ⟨_, rfl⟩) hf (by decide)

theorem exampleStep_ok (n : UInt8) : (⟨exampleRecord n 141, .setVariable, n.toNat, 1, []⟩ : StepDef).Ok fmStringEncrypt [] :=
  ⟨rfl, rfl, by simp, Or.inl ⟨rfl, rfl⟩, rfl, by simp, by simp⟩

def longFromOne : List Item :=
  [.push 17, .push 1, .push 7, .push 3, .kv 16 (fmStringEncrypt t!"d"), .pop, .pop, .pop,
   .push 5, .push 3, .segment 4 (exampleRecord 1 141 ++ exampleRecord 2 141), .pop, .pop, .pop]

set_option maxRecDepth 20000 in
/-- C76 as stated is false: long code with steps numbered 1 and 2 panics. -/
theorem steps_recovered_refuted (p : Profile) : ∃ buf evs, Spec.FileOf buf evs ∧
    evs.filter Spec.aboutScripts = [⟨[17, 1, 7, 3], .kv 16 (fmStringEncrypt t!"d")⟩,
      ⟨[17, 5, 3], .segment 4 (exampleRecord 1 141 ++ exampleRecord 2 141)⟩] ∧
    ∃ fuel₀ x, ∀ fuel, fuel₀ ≤ fuel → decompile p buf fuel = .error x := by
  have hf : Spec.FileOf (itemFile longFromOne) (itemEvents [] longFromOne) := itemFile_spec _ (by decide) (by decide) (by decide)
  refine ⟨_, _, hf, rfl, ?_⟩
  exact long_code_numbers p _ ((itemEvents [] longFromOne).take 10) ((itemEvents [] longFromOne).drop 11) 3 []
    _ (exampleRecord 2 141) (exampleStep_ok 1) (by decide) hf (by decide)

def codeFirst : List Item :=
  [.push 17, .push 5, .push 3, .kv 4 (exampleRecord 1 141), .pop, .pop,
   .push 1, .push 7, .push 3, .kv 16 (fmStringEncrypt t!"d"), .pop, .pop, .pop, .pop]

def nameFirst : List Item :=
  [.push 17, .push 1, .push 7, .push 3, .kv 16 (fmStringEncrypt t!"d"), .pop, .pop, .pop,
   .push 5, .push 3, .kv 4 (exampleRecord 1 141), .pop, .pop, .pop]

set_option maxRecDepth 20000 in
/-- C79 as stated is false: with the name of a script before its code a file decompiles, with the code first it panics. -/
theorem order_refuted (p : Profile) : ∃ buf buf' evs evs', Spec.FileOf buf evs ∧ Spec.FileOf buf' evs' ∧
    (evs.filter Spec.aboutScripts).Perm (evs'.filter Spec.aboutScripts) ∧
    (∃ fuel f, decompile p buf fuel = .ok (some f) ∧ f.scripts.get 3 = some { name := t!"d", instructions := [⟨.setVariable, 1, []⟩] }) ∧
    ∃ fuel₀ x, ∀ fuel, fuel₀ ≤ fuel → decompile p buf' fuel = .error x := by
  have hf : Spec.FileOf (itemFile nameFirst) (itemEvents [] nameFirst) := itemFile_spec _ (by decide) (by decide) (by decide)
  have hfr := itemFile_raw nameFirst (by decide) (by decide) (by decide)
  have hf' : Spec.FileOf (itemFile codeFirst) (itemEvents [] codeFirst) := itemFile_spec _ (by decide) (by decide) (by decide)
  have e1 : (itemEvents [] nameFirst).filter Spec.aboutScripts =
    [⟨[17, 1, 7, 3], .kv 16 (fmStringEncrypt t!"d")⟩, ⟨[17, 5, 3], .kv 4 (exampleRecord 1 141)⟩] := rfl
  have e2 : (itemEvents [] codeFirst).filter Spec.aboutScripts =
    [⟨[17, 5, 3], .kv 4 (exampleRecord 1 141)⟩, ⟨[17, 1, 7, 3], .kv 16 (fmStringEncrypt t!"d")⟩] := rfl
  refine ⟨_, _, _, _, hf, hf', by rw [e1, e2]; exact List.Perm.swap _ _ [], ?_, ?_⟩
  · let d : FileDef := { scripts := [⟨3, t!"d", [⟨exampleRecord 1 141, .setVariable, 1, 1, []⟩], .inline⟩] }
    obtain ⟨fuel, h⟩ := file_recovered_partial p _ _ d hfr ⟨rfl, rfl, rfl, rfl, rfl⟩
      ⟨by simp [d, Spec.WellNumbered], ⟨by simp [d], by simp [d], by simp [d], by simp [d], by simp [d]⟩, ⟨by simp [d], by simp [d]⟩,
        ⟨by simp [d], by
          intro s hs t ht
          simp [d] at hs
          subst hs
          simp at ht
          subst ht
          exact ⟨rfl, rfl, by simp, Or.inl ⟨rfl, rfl⟩, rfl, by simp, by simp⟩, by
          intro s hs
          simp [d] at hs
          subst hs
          simp [StoredScript.CodeOk]⟩, ⟨by simp [d], by simp [d], by simp [d]⟩⟩
    exact ⟨fuel, _, h _ (Nat.le_refl _), rfl⟩
  · have hp : ∀ e ∈ (itemEvents [] codeFirst).take 3, e.path.take 2 ≠ [17, 1] := by decide
    exact code_needs_name p _ ((itemEvents [] codeFirst).take 3) ((itemEvents [] codeFirst).drop 4) 3 [] _ [] (exampleStep_ok 1)
      hf' (fun e he v h1 => absurd h1 (hp e he))

set_option maxRecDepth 20000 in
/-- The hypotheses of `code_needs_name` are met by a file that gives the code of a script and then its name. -/
example (p : Profile) : ∃ fuel₀ x, ∀ fuel, fuel₀ ≤ fuel → decompile p (itemFile codeFirst) fuel = .error x := by
  have hf : Spec.FileOf (itemFile codeFirst) (itemEvents [] codeFirst) := itemFile_spec _ (by decide) (by decide) (by decide)
  have hp : ∀ e ∈ (itemEvents [] codeFirst).take 3, e.path.take 2 ≠ [17, 1] := by decide
  exact code_needs_name p _ ((itemEvents [] codeFirst).take 3) ((itemEvents [] codeFirst).drop 4) 3 [] _ [] (exampleStep_ok 1)
    hf (fun e he v h1 => absurd h1 (hp e he))

end BurnFm.Props
