import Verif.Proofs.Burn
import Verif.Props.BurnScript
import Verif.Props.Generate
import Verif.Spec.ToyRuntime

/-! Properties C59-C61 and C67-C72: compiling `.burn` programs. -/

namespace BurnFm.Props
open Spec

/-! ### C59 -/

/-- C59: the parser gives the file the program stands for, whatever the tables and value lists contain. -/
theorem program_parses (ds : List Decl) (ts : List BurnTok) (h : ProgramToks ds ts) :
    ∃ f, parseBurn .top {} ts = .ok (some f) ∧ StandsFor ds f :=
  ⟨_, parse_program h, standsFor_file ds⟩

/-- C59: a text that spells a program compiles to the file the program stands for: every table, value list and script
is there under the numbers 1, 2, …, every occurrence under 0, 1, …, every test in its place, and nothing else. -/
theorem program_compiles [Rt] (p : Profile) (ds : List Decl) (ts : List BurnTok) (s : Str) (h : ProgramToks ds ts)
    (hs : BurnText ts s) : ∃ f, compileBurn p s = .ok f ∧ StandsFor ds f :=
  ⟨_, compile_program p h hs, standsFor_file ds⟩

/-- The file is determined by `StandsFor` up to relationships: two files that stand for the same program have the same
lookups. -/
theorem standsFor_unique (ds : List Decl) (f g : FmpFile) (hf : StandsFor ds f) (hg : StandsFor ds g) (k : Nat) :
    f.tables.get k = g.tables.get k ∧ f.valueLists.get k = g.valueLists.get k ∧ f.scripts.get k = g.scripts.get k ∧
      f.tableOccurrences.get k = g.tableOccurrences.get k ∧ f.tests = g.tests :=
  ⟨(hf.tables k).trans (hg.tables k).symm, (hf.valueLists k).trans (hg.valueLists k).symm,
    (hf.scripts k).trans (hg.scripts k).symm, (hf.occurrences k).trans (hg.occurrences k).symm,
    hf.tests.trans hg.tests.symm⟩

/-! ### C60 -/

/-- C60, exactly: the relationship under the number `k` is the one declared last among those declared after exactly
`k - 1` tables. -/
theorem relationship_numbers [Rt] (p : Profile) (ds : List Decl) (ts : List BurnTok) (s : Str) (h : ProgramToks ds ts)
    (hs : BurnText ts s) :
    ∃ f, compileBurn p s = .ok f ∧ ∀ k r, f.relationships.get k = some r ↔ RelationshipAt ds k r :=
  ⟨_, compile_program p h hs, file_relationships ds⟩

/-- C60 (partial): a relationship is kept if a table is declared between it and every later relationship. Missing: the
other relationships, which are lost, see `relationship_lost`. -/
theorem relationship_kept_partial [Rt] (p : Profile) (pre post : List Decl) (a b : Str) (ts : List BurnTok) (s : Str)
    (h : ProgramToks (pre ++ .relationship a b :: post) ts) (hs : BurnText ts s)
    (ht : ∀ mid c d post', post = mid ++ .relationship c d :: post' → ∃ n, Decl.table n ∈ mid) :
    ∃ f k, compileBurn p s = .ok f ∧ f.relationships.get k = some { table1Name := a, table2Name := b } := by
  refine ⟨_, tableCount pre + 1, compile_program p h hs, (file_relationships _ _ _).mpr
    ⟨pre, _, post, rfl, rfl, rfl, ?_⟩⟩
  intro mid d' post' hp hd
  cases d' <;> simp [Decl.relationship?] at hd
  obtain ⟨n, hn⟩ := ht mid _ _ post' hp
  intro h0
  have : (mid.filterMap Decl.table?) = [] := List.length_eq_zero_iff.mp h0
  have hm : ({ name := n } : FTable) ∈ mid.filterMap Decl.table? := List.mem_filterMap.mpr ⟨_, hn, rfl⟩
  rw [this] at hm
  cases hm

/-- C60 is false: of two relationships without a table between them the first is lost, in every program. -/
theorem relationship_lost [Rt] (p : Profile) (pre mid post : List Decl) (a b c d : Str) (ts : List BurnTok) (s : Str)
    (h : ProgramToks (pre ++ .relationship a b :: (mid ++ .relationship c d :: post)) ts) (hs : BurnText ts s)
    (hm : ∀ n, Decl.table n ∉ mid)
    (h1 : ∀ e ∈ pre ++ (mid ++ .relationship c d :: post), e ≠ .relationship a b) :
    ∃ f, compileBurn p s = .ok f ∧ ∀ k, f.relationships.get k ≠ some { table1Name := a, table2Name := b } := by
  refine ⟨_, compile_program p h hs, fun k hk => ?_⟩
  obtain ⟨pre', e, post', e1, e2, e3, e4⟩ := (file_relationships _ _ _).mp hk
  have he : e = .relationship a b := by
    cases e <;> simp [Decl.relationship?] at e2
    rw [e2.1, e2.2]
  subst he
  have hpre : pre' = pre ∧ post' = mid ++ .relationship c d :: post := by
    rcases List.append_eq_append_iff.mp e1 with ⟨as, h2, h3⟩ | ⟨as, h2, h3⟩
    · cases as with
      | nil => simp at h2 h3; exact ⟨h2, h3.symm⟩
      | cons x xs =>
        simp only [List.cons_append, List.cons.injEq] at h3
        exact absurd rfl (h1 (.relationship a b) (by rw [h3.2]; simp))
    · cases as with
      | nil => simp at h2 h3; exact ⟨h2.symm, h3⟩
      | cons x xs =>
        simp only [List.cons_append, List.cons.injEq] at h3
        exact absurd rfl (h1 (.relationship a b) (by rw [h2, ← h3.1]; simp))
  obtain ⟨rfl, rfl⟩ := hpre
  refine e4 mid _ post rfl (by simp [Decl.relationship?]) ?_
  unfold tableCount
  rw [List.length_eq_zero_iff, List.filterMap_eq_nil_iff]
  intro x hx
  cases x with
  | table n => exact absurd hx (hm n)
  | _ => rfl

/-! ### C68-C70: what is not kept -/

/-- C68, C69 are false for every program: the fields of tables, the values of value lists and the join criteria of
relationships are ignored. Two texts that declare the same names compile to the same file. -/
theorem contents_ignored [Rt] (p : Profile) (ds : List Decl) (ts ts' : List BurnTok) (s s' : Str) (h : ProgramToks ds ts)
    (hs : BurnText ts s) (h' : ProgramToks ds ts') (hs' : BurnText ts' s') : compileBurn p s = compileBurn p s' :=
  (compile_program p h hs).trans (compile_program p h' hs').symm

/-- C68 is false for every program: no table of the compiled file has a field. -/
theorem compiled_tables_have_no_fields [Rt] (p : Profile) (ds : List Decl) (ts : List BurnTok) (s : Str)
    (h : ProgramToks ds ts) (hs : BurnText ts s) :
    ∃ f, compileBurn p s = .ok f ∧ ∀ k t, f.tables.get k = some t → t.fields = [] := by
  obtain ⟨f, h1, h2⟩ := program_compiles p ds ts s h hs
  refine ⟨f, h1, fun k t ht => ?_⟩
  rw [h2.tables k] at ht
  split at ht
  · cases ht
  · have := List.mem_of_getElem? ht
    obtain ⟨d, _, hd⟩ := List.mem_filterMap.mp this
    cases d <;> simp [Decl.table?] at hd
    rw [← hd]

/-- C70 is false for every program: every occurrence refers to table 0, which is not the number of any table. -/
theorem occurrences_refer_to_no_table [Rt] (p : Profile) (ds : List Decl) (ts : List BurnTok) (s : Str)
    (h : ProgramToks ds ts) (hs : BurnText ts s) :
    ∃ f, compileBurn p s = .ok f ∧ f.tables.get 0 = none ∧
      ∀ k o, f.tableOccurrences.get k = some o → o.tableActual = 0 := by
  obtain ⟨f, h1, h2⟩ := program_compiles p ds ts s h hs
  refine ⟨f, h1, by rw [h2.tables 0]; rfl, fun k o ho => ?_⟩
  rw [h2.occurrences k] at ho
  split at ho
  · cases ho
  · have := List.mem_of_getElem? ho
    obtain ⟨d, _, hd⟩ := List.mem_filterMap.mp this
    cases d <;> simp [Decl.occurrence?] at hd
    rw [← hd]

/-! ### C71: unterminated declarations -/

/-- C71 is false: a declaration of a table without its `end table;` is accepted at the end of a program, and swallows
every declaration after it that is not a closing. -/
theorem unterminated_table_accepted (ds : List Decl) (ts inner : List BurnTok) (name : Str) (h : ProgramToks ds ts)
    (hi : ∀ t ∈ inner, t.ty ≠ .end) :
    ∃ f, parseBurn .top {} (ts ++ ⟨.table, []⟩ :: ⟨.identifier, name⟩ :: inner) = .ok (some f) ∧
      StandsFor (ds ++ [.table name]) f := by
  refine ⟨(ds ++ [Decl.table name]).foldl addDecl {}, ?_, standsFor_file _⟩
  have e : ∀ {ds : List Decl} {ts : List BurnTok}, ProgramToks ds ts → ∀ ret rest,
      parseBurn .top ret (ts ++ rest) = parseBurn .top (ds.foldl addDecl ret) rest := by
    intro ds ts h
    induction h with
    | nil => intro ret rest; rfl
    | cons hd _ ih => intro ret rest; rw [List.append_assoc, parse_decl hd, ih]; rfl
  rw [e h, List.foldl_append]
  simp only [parseBurn, if_true]
  have := parse_table_inner (t := ({ name := name } : FTable)) (ret := ds.foldl addDecl {}) (rest := []) hi
  rw [List.append_nil] at this
  exact this

/-! ### C87: the script of a test -/

/-- The parser after the declarations before. -/
theorem parse_before {ds : List Decl} {ts : List BurnTok} (h : ProgramToks ds ts) :
    ∀ ret rest, parseBurn .top ret (ts ++ rest) = parseBurn .top (ds.foldl addDecl ret) rest := by
  induction h with
  | nil => intro ret rest; rfl
  | cons hd _ ih => intro ret rest; rw [List.append_assoc, parse_decl hd, ih]; rfl

/-- C87: a program with a test whose block does not define exactly one script is not compiled, whatever comes before and
after the test. -/
theorem test_needs_one_script [Rt] (p : Profile) (ds : List Decl) (ts block rest : List BurnTok) (name : Str)
    (defs : List ScriptDef) (s : Str) (h : ProgramToks ds ts) (hb : BlockToks defs block) (hn : defs.length ≠ 1)
    (hs : BurnText (ts ++ ⟨.test, []⟩ :: ⟨.identifier, name⟩ :: ⟨.colon, []⟩ :: ⟨.script, []⟩ :: block ++ rest) s) :
    ∃ e, compileBurn p s = .error e := by
  unfold compileBurn lexBurn
  rw [plex_text hs (by intro t ht; cases ht) (fun _ => ?_) (by
    rw [List.append_assoc]
    refine lateParens_program h _ (fun _ => ?_)
    intro t ht
    simp at ht
    rcases ht with rfl | rfl | rfl <;> simp), ok_bind, List.nil_append, List.append_assoc, parse_before h]
  · obtain ⟨hs', hw⟩ := hb
    have e : ∀ ret r, parseBurn .top ret (⟨.test, []⟩ :: ⟨.identifier, name⟩ :: ⟨.colon, []⟩ :: ⟨.script, []⟩ :: r) =
      parseBurn (.testColon { name := name }) ret r := by intro ret r; simp [parseBurn, BurnItem.named]
    simp only [List.cons_append, List.nil_append]
    rw [e]
    match defs, hn with
    | [], _ => exact ⟨.index, by simp [parseBurn, compile_defs hs' hw, ok_bind, idx, error_bind]⟩
    | d :: d' :: defs', _ =>
      exact ⟨.unwrap, by simp [parseBurn, compile_defs hs' hw, ok_bind, unwrap]⟩
    | [_], hn => exact (hn rfl).elim
  · have h1 := lateBlocks_program h
    intro t ht
    rw [List.append_assoc] at ht
    match ts, h1, ht with
    | [], _, ht =>
      simp only [List.nil_append, List.cons_append, List.take_succ_cons, List.take_zero, List.mem_cons, List.not_mem_nil,
        or_false] at ht
      rcases ht with rfl | rfl <;> simp
    | [a], h1, ht =>
      simp only [List.cons_append, List.nil_append, List.take_succ_cons, List.take_zero, List.mem_cons, List.not_mem_nil,
        or_false] at ht
      rcases ht with rfl | rfl
      · exact h1 _ (by simp)
      · simp
    | a :: b :: r, h1, ht => exact h1 t (by simpa using ht)

/-! ### The compiled file can be tested -/

/-- C72: the test environment of every compiled program can be generated. -/
theorem program_generates [Rt] (p : Profile) (ds : List Decl) (ts : List BurnTok) (s : Str) (h : ProgramToks ds ts)
    (hs : BurnText ts s) : ∃ f vm, compileBurn p s = .ok f ∧ StandsFor ds f ∧ Vm.generate f = .ok vm := by
  obtain ⟨db, h1, _⟩ := generate_ok (ds.foldl addDecl {}) (distinct_file ds) (rels_file ds)
  refine ⟨_, { world := { db := db, layouts := generateLayoutMgr [] (ds.foldl addDecl {}).layouts } },
    compile_program p h hs, standsFor_file ds, ?_⟩
  unfold Vm.generate
  rw [h1]
  rfl

/-- The scripts of a compiled program are those that it defines. -/
theorem program_linked (ds : List Decl) : Linked (ds.foldl addDecl {}).scripts (programEnv ds) := by
  intro name q h
  rw [file_scripts]
  have e : ds.flatMap Decl.scripts? =
      (ds.flatMap (fun d => match d with | .scripts defs => defs | _ => [])).map ScriptDef.script := by
    rw [List.map_flatMap]
    congr 1
    funext d
    cases d <;> rfl
  unfold programEnv at h
  rw [e]
  generalize ds.flatMap (fun d => match d with | .scripts defs => defs | _ => []) = defs at h
  generalize 1 = k
  induction defs generalizing k with
  | nil => cases h
  | cons d defs ih =>
    rw [List.find?_cons] at h
    rw [List.map_cons, numbered, List.find?_cons]
    show ∃ e, (match d.name == name with | true => _ | false => _) = some e ∧ _
    cases hn : d.name == name with
    | true =>
      rw [hn] at h
      injection h with h
      exact ⟨_, rfl, by rw [← h]; rfl⟩
    | false =>
      rw [hn] at h
      exact ih h (k + 1)

/-- C52, C59, C72 from the program text: the tests of a program are executed as written, with the scripts of the program,
up to the first one that fails. Missing: scripts that are not orderly, see `script_runs_as_written_partial`; the tests after
the first failure. -/
theorem program_verdicts_partial [Rt] (ev : Calculator) (p : Profile) (ds : List Decl) (ts : List BurnTok) (s : Str)
    (h : ProgramToks ds ts) (hs : BurnText ts s) (ok : Bool → Taken → Taken → Str → Prop)
    (hok : OrderlyScripts ev (programEnv ds) ok)
    (hq : ∀ q ∈ ds.filterMap Decl.testBody?, Orderly ev ok true none .free (some false) q (some false)) :
    ∃ f vm, compileBurn p s = .ok f ∧ Vm.generate f = .ok vm ∧ ∀ vs : List Bool,
      ((∃ n last, vm.runTests ev p f.scripts n f.tests = .ok (vs, last)) ↔
        RunsTests ev p (programEnv ds) (ds.filterMap Decl.testBody?) vm.world vs) := by
  obtain ⟨db, h1, _⟩ := generate_ok (ds.foldl addDecl {}) (distinct_file ds) (rels_file ds)
  refine ⟨_, { world := { db := db, layouts := generateLayoutMgr [] (ds.foldl addDecl {}).layouts } },
    compile_program p h hs, ?_, fun vs => ?_⟩
  · unfold Vm.generate
    rw [h1]
    rfl
  · rw [file_tests]
    refine structured_verdicts_partial ev p _ _ ok (program_linked ds) hok (some false) _ _ ?_ _ rfl ?_ rfl vs
    · clear * - hq
      induction ds with
      | nil => exact .nil
      | cons d ds ih =>
        cases d
        case test n d =>
          simp only [List.filterMap_cons, Decl.test?, Decl.testBody?] at hq ⊢
          exact .cons ⟨rfl, hq d.body (by simp)⟩ (ih (fun q hq' => hq q (by simp [hq'])))
        all_goals
          simp only [List.filterMap_cons, Decl.test?, Decl.testBody?] at hq ⊢
          exact ih hq
    · intro x hx; cases hx; rfl

/-! ### C61 -/

/-- C61, exactly: among input files that use the same number the last one wins; the tests of all files are kept, in
order. -/
theorem merge_last_wins (files : List FmpFile) (hu : ∀ f ∈ files, UniqueKeys f) (k : Nat) :
    (mergeFiles files).tables.get k = lastWins (files.map (·.tables)) k ∧
    (mergeFiles files).relationships.get k = lastWins (files.map (·.relationships)) k ∧
    (mergeFiles files).valueLists.get k = lastWins (files.map (·.valueLists)) k ∧
    (mergeFiles files).tableOccurrences.get k = lastWins (files.map (·.tableOccurrences)) k ∧
    (mergeFiles files).scripts.get k = lastWins (files.map (·.scripts)) k ∧
    (mergeFiles files).layouts.get k = lastWins (files.map (·.layouts)) k ∧
    (mergeFiles files).tests = files.flatMap (·.tests) := by
  unfold mergeFiles
  induction files using List.reverseRecOn with
  | nil => exact ⟨rfl, rfl, rfl, rfl, rfl, rfl, rfl⟩
  | append_singleton fs f ih =>
    obtain ⟨i1, i2, i3, i4, i5, i6, i7⟩ := ih (fun g hg => hu g (List.mem_append_left _ hg))
    have hf := hu f (by simp)
    have e : ∀ {α : Type} (sel : FmpFile → HMap α), lastWins ((fs ++ [f]).map sel) k =
        ((sel f).get k).or (lastWins (fs.map sel) k) := by
      intro α sel
      simp only [lastWins, List.map_append, List.map_cons, List.map_nil, List.reverse_append, List.reverse_cons,
        List.reverse_nil, List.nil_append, List.cons_append, List.findSome?_cons]
      cases (sel f).get k <;> rfl
    simp only [List.foldl_append, List.foldl_cons, List.foldl_nil, FmpFile.merge, e]
    refine ⟨?_, ?_, ?_, ?_, ?_, ?_, ?_⟩
    · rw [HMap.get_extend _ _ hf.tables, i1]
    · rw [HMap.get_extend _ _ hf.relationships, i2]
    · rw [HMap.get_extend _ _ hf.valueLists, i3]
    · rw [HMap.get_extend _ _ hf.occurrences, i4]
    · rw [HMap.get_extend _ _ hf.scripts, i5]
    · rw [HMap.get_extend _ _ hf.layouts, i6]
    · rw [i7]; simp

/-- C61 (partial): a table is kept if no later file has a table with the same number. Missing: the others, which are
lost, see `merge_loses_tables`. -/
theorem merge_keeps_partial (before after : List FmpFile) (f : FmpFile) (hu : ∀ g ∈ before ++ f :: after, UniqueKeys g)
    (k : Nat) (t : FTable) (hk : f.tables.get k = some t) (ha : ∀ g ∈ after, g.tables.get k = none) :
    (mergeFiles (before ++ f :: after)).tables.get k = some t := by
  rw [(merge_last_wins _ hu k).1, lastWins]
  have h1 : (after.map (·.tables)).reverse.findSome? (·.get k) = none := by
    rw [List.findSome?_eq_none_iff]
    intro m hm
    rw [List.mem_reverse, List.mem_map] at hm
    obtain ⟨g, hg, rfl⟩ := hm
    exact ha g hg
  simp [List.findSome?_append, h1, hk]

/-- C61 is false for all programs: if two compiled programs that each declare a table are merged, table 1 of the first
is replaced by table 1 of the second. -/
theorem merge_loses_tables [Rt] (p : Profile) (ds ds' : List Decl) (n n' : Str) (ts ts' : List BurnTok) (s s' : Str)
    (h : ProgramToks (.table n :: ds) ts) (hs : BurnText ts s) (h' : ProgramToks (.table n' :: ds') ts') (hs' : BurnText ts' s') :
    ∃ f f', compileBurn p s = .ok f ∧ compileBurn p s' = .ok f' ∧ f.tables.get 1 = some { name := n } ∧
      (mergeFiles [f, f']).tables.get 1 = some { name := n' } := by
  refine ⟨_, _, compile_program p h hs, compile_program p h' hs', ?_, ?_⟩
  · rw [(standsFor_file _).tables 1]; rfl
  · rw [(merge_last_wins _ (by
      intro g hg
      simp only [List.mem_cons, List.not_mem_nil, or_false] at hg
      rcases hg with rfl | rfl <;> exact unique_file _) 1).1]
    simp only [lastWins, List.map_cons, List.map_nil, List.reverse_cons, List.reverse_nil, List.nil_append,
      List.cons_append, List.findSome?_cons]
    rw [(standsFor_file _).tables 1]
    rfl

/-! ### Examples -/

section Example
attribute [local instance] toyRt

/-- A small program: its declarations, … -/
def smallProgram : List Decl :=
  [.table t!"A", .relationship t!"A" t!"B", .test t!"T" ⟨t!"t", [t!""], .step ⟨.assert, 0, [t!"1"]⟩ .nil⟩]

/-- … its tokens … -/
def smallToks : List BurnTok :=
  [⟨.table, []⟩, ⟨.identifier, t!"A"⟩, ⟨.colon, []⟩, ⟨.openCurly, []⟩, ⟨.calculation, t!"f(y)"⟩, ⟨.identifier, t!"}"⟩,
   ⟨.comma, []⟩, ⟨.string, t!"note"⟩, ⟨.identifier, t!"\""⟩, ⟨.end, []⟩, ⟨.table, []⟩, ⟨.semiColon, []⟩,
   ⟨.relationship, []⟩, ⟨.colon, []⟩, ⟨.identifier, t!"A"⟩, ⟨.colon, []⟩, ⟨.identifier, t!"B"⟩, ⟨.comma, []⟩,
   ⟨.identifier, t!"i"⟩, ⟨.eComparison, []⟩, ⟨.identifier, t!"j"⟩, ⟨.end, []⟩, ⟨.relationship, []⟩, ⟨.semiColon, []⟩,
   ⟨.test, []⟩, ⟨.identifier, t!"T"⟩, ⟨.colon, []⟩, ⟨.script, []⟩, ⟨.colon, []⟩, ⟨.openSquare, []⟩,
   ⟨.script, t!"define t() { assert(1); }"⟩, ⟨.closeSquare, []⟩, ⟨.comma, []⟩, ⟨.end, []⟩, ⟨.test, []⟩, ⟨.semiColon, []⟩]

/-- … and its text. -/
def smallText : Str := t!"table A:\n {f(y)},\n \"note\"\nend table;\nrelationship:\n A:B, i == j\nend relationship;\ntest T:\n script: [ define t() { assert(1); }],\nend test;\n"

theorem smallToks_ok : ProgramToks smallProgram smallToks := by
  have hb : BlockToks [⟨t!"t", [t!""], .step ⟨.assert, 0, [t!"1"]⟩ .nil⟩] [⟨.colon, []⟩, ⟨.openSquare, []⟩,
      ⟨.script, t!"define t() { assert(1); }"⟩, ⟨.closeSquare, []⟩] := by
    refine .block (ts := [tDefine, tName t!"t", tArg t!"", tOpen, tName t!"assert", tArg t!"1", tSemi, tClose]) ?_ ?_
    · refine .keyword (w := t!"define") (ty := .define) (by decide) (by decide) (.space rfl ?_)
      refine .name (w := t!"t") (by decide) (by decide) (by decide) (by decide) (by decide) ?_
      refine .args (as := [(0, t!"")]) (by decide) ?_ (.space rfl (.open (.space rfl ?_)))
      · intro a ha
        rw [List.mem_singleton] at ha
        subst ha; exact argText_of_chars _ (by decide) (by decide) (by decide)
      refine .name (w := t!"assert") (by decide) (by decide) (by decide) (by decide) (by decide) ?_
      refine .args (as := [(0, t!"1")]) (by decide) ?_ (.semi (.space rfl (.close .nil)))
      intro a ha
      rw [List.mem_singleton] at ha
      subst ha; exact argText_of_chars _ (by decide) (by decide) (by decide)
    · exact .cons (d := ⟨t!"t", [t!""], .step ⟨.assert, 0, [t!"1"]⟩ .nil⟩) (ds := []) (ts := []) (.step (name := t!"assert") (args := [t!"1"]) rfl .nil) .nil
  refine .cons (ts := smallToks.take 12) (.table (inner := (smallToks.drop 2).take 7) (by decide) (by decide)) ?_
  refine .cons (ts := (smallToks.drop 12).take 12) (.relationship (inner := (smallToks.drop 17).take 4) (by decide)) ?_
  exact .cons (ts := smallToks.drop 24) (.test hb (.inr rfl)) .nil

theorem smallText_ok : BurnText smallToks smallText := by
  refine .keyword (w := t!"table") (ty := .table) (by decide) (by decide) (.space rfl ?_)
  refine .name (w := t!"A") (by decide) (by decide) (by decide) (by decide) (by decide) (by decide) ?_
  refine .mark (c := ':') (ty := .colon) (by decide) (.space rfl (.space rfl ?_))
  refine .calculation (q := t!"f(y)") (by decide) (by decide) ?_
  refine .mark (c := ',') (ty := .comma) (by decide) (.space rfl (.space rfl ?_))
  refine .string (q := t!"note") (by decide) (by decide) (.space rfl ?_)
  refine .keyword (w := t!"end") (ty := .end) (by decide) (by decide) (.space rfl ?_)
  refine .keyword (w := t!"table") (ty := .table) (by decide) (by decide) ?_
  refine .mark (c := ';') (ty := .semiColon) (by decide) (.space rfl ?_)
  refine .keyword (w := t!"relationship") (ty := .relationship) (by decide) (by decide) ?_
  refine .mark (c := ':') (ty := .colon) (by decide) (.space rfl (.space rfl ?_))
  refine .name (w := t!"A") (by decide) (by decide) (by decide) (by decide) (by decide) (by decide) ?_
  refine .mark (c := ':') (ty := .colon) (by decide) ?_
  refine .name (w := t!"B") (by decide) (by decide) (by decide) (by decide) (by decide) (by decide) ?_
  refine .mark (c := ',') (ty := .comma) (by decide) (.space rfl ?_)
  refine .name (w := t!"i") (by decide) (by decide) (by decide) (by decide) (by decide) (by decide) (.space rfl ?_)
  refine .equal (.space rfl ?_)
  refine .name (w := t!"j") (by decide) (by decide) (by decide) (by decide) (by decide) (by decide) (.space rfl ?_)
  refine .keyword (w := t!"end") (ty := .end) (by decide) (by decide) (.space rfl ?_)
  refine .keyword (w := t!"relationship") (ty := .relationship) (by decide) (by decide) ?_
  refine .mark (c := ';') (ty := .semiColon) (by decide) (.space rfl ?_)
  refine .keyword (w := t!"test") (ty := .test) (by decide) (by decide) (.space rfl ?_)
  refine .name (w := t!"T") (by decide) (by decide) (by decide) (by decide) (by decide) (by decide) ?_
  refine .mark (c := ':') (ty := .colon) (by decide) (.space rfl (.space rfl ?_))
  refine .keyword (w := t!"script") (ty := .script) (by decide) (by decide) ?_
  refine .mark (c := ':') (ty := .colon) (by decide) (.space rfl ?_)
  refine .block (q := t!" define t() { assert(1); }") (by decide) ?_
  refine .mark (c := ',') (ty := .comma) (by decide) (.space rfl ?_)
  refine .keyword (w := t!"end") (ty := .end) (by decide) (by decide) (.space rfl ?_)
  refine .keyword (w := t!"test") (ty := .test) (by decide) (by decide) ?_
  exact .mark (c := ';') (ty := .semiColon) (by decide) (.space rfl .nil)

/-- The hypotheses of `program_compiles`, `relationship_numbers`, `relationship_kept_partial`, `contents_ignored`,
`compiled_tables_have_no_fields`, `occurrences_refer_to_no_table`, `program_generates`, `merge_loses_tables`. -/
example : ∃ f, compileBurn .debug smallText = .ok f ∧ StandsFor smallProgram f :=
  program_compiles .debug smallProgram smallToks smallText smallToks_ok smallText_ok

example (ev : Calculator) : smallProgram.filterMap Decl.testBody? = [.step ⟨.assert, 0, [t!"1"]⟩ .nil] ∧
    Orderly ev (fun _ _ _ _ => False) true none .free (some false) (.step ⟨.assert, 0, [t!"1"]⟩ .nil) (some false) :=
  ⟨rfl, .step (by decide) (.nil (.inr rfl))⟩

/-- The hypotheses of `test_needs_one_script`: two scripts in one block. -/
example : BlockToks [⟨t!"a", [], .nil⟩, ⟨t!"b", [], .nil⟩]
    [⟨.colon, []⟩, ⟨.openSquare, []⟩, ⟨.script, t!"define a { } define b { }"⟩, ⟨.closeSquare, []⟩] := by
  refine .block (ts := [tDefine, tName t!"a", tOpen, tClose, tDefine, tName t!"b", tOpen, tClose]) ?_
    (.cons (d := ⟨t!"a", [], .nil⟩) (b := []) .nil (.cons (d := ⟨t!"b", [], .nil⟩) (b := []) .nil .nil))
  refine .keyword (w := t!"define") (ty := .define) (by decide) (by decide) (.space rfl ?_)
  refine .name (w := t!"a") (by decide) (by decide) (by decide) (by decide) (by decide) (.space rfl (.open (.space rfl (.close (.space rfl ?_)))))
  refine .keyword (w := t!"define") (ty := .define) (by decide) (by decide) (.space rfl ?_)
  exact .name (w := t!"b") (by decide) (by decide) (by decide) (by decide) (by decide) (.space rfl (.open (.space rfl (.close .nil))))

/-- C60 is false: a program with two relationships keeps one. -/
theorem two_relationships_refuted :
    ∃ f, compileBurn .debug t!"relationship: A:B end relationship; relationship: C:D end relationship;" = .ok f ∧
      f.relationships = [(1, { table1Name := t!"C", table2Name := t!"D" })] := ⟨_, rfl, by decide +kernel⟩

/-- The example in the repository, doc/example.burn. -/
def docExample : Str := t!"table Person:\n  primaryKey: Unique, Required, Text, {get(uuid)},\n  !{!isEmpty(primaryKey)},\n  \"Used as a primary key for the Person Table\",\n\n  firstName: Text,\n\n  lastName: Text,\n\n  sex: Text, foundIn[male_female],\n  age: Number,\n  jobid: Text,\nend table;\n\ntable_occurence Job:\n  table: Job,\nend table_occurence;\n\ntable_occurence Person:\n  table: Person,\nend table_occurence;\n\ntable Job:\n  PrimaryKey: Unique, Required, Text, {get(uuid)},\n  !{!isEmpty(primary)},\n  \"Used as a primary key for the Job table\",\nend table;\n\nvalue_list male_female:\n  \"male\", \"female\"\nend value_list;\n\nrelationship:\n  Person:Job,\n  jobid == PrimaryKey,\nend relationship;\n\nscript: [\n  define basic_script(x, y) {\n    set_variable(i, x);\n    loop {\n      exit_loop_if(i == y);\n      set_variable(i, i + 1);\n    }\n    exit_script(i);\n  }\n]\n\ntest BasicTest:\n  script: [\n    define test() {\n      set_variable(x, 2);\n    }\n  ],\nend test;\n\n\n\n\n"

/-- It compiles to two tables without fields, a relationship without fields, and occurrences of table 0. -/
example : (match compileBurn .debug docExample with
    | .ok f => decide (f.tables = [(1, { name := t!"Person" }), (2, { name := t!"Job" })]) &&
      decide (f.relationships = [(3, { table1Name := t!"Person", table2Name := t!"Job" })]) &&
      decide (f.tableOccurrences = [(0, { name := t!"Job", tableActualName := t!"Job" }),
        (1, { name := t!"Person", tableActualName := t!"Person" })]) &&
      decide (f.scripts.map (fun e => (e.1, e.2.name)) = [(1, t!"basic_script")]) &&
      decide (f.tests.map (·.name) = [t!"BasicTest"])
    | .error _ => false) = true := by
  decide +kernel

/-- The hypotheses of `relationship_lost`. -/
example : (∀ n, Decl.table n ∉ [Decl.valueList t!"v"]) ∧
    ∀ e ∈ [] ++ ([Decl.valueList t!"v"] ++ Decl.relationship t!"C" t!"D" :: []), e ≠ .relationship t!"A" t!"B" := by
  constructor
  · intro n h; simp at h
  · intro e he; simp at he; rcases he with rfl | rfl <;> simp

/-- The hypotheses of `merge_last_wins` and `merge_keeps_partial`. -/
example : UniqueKeys (smallProgram.foldl addDecl {}) := unique_file _

/-- A table without its end. -/
example : ∃ f, compileBurn .debug t!"table A: x: Text, table B: y: Text," = .ok f ∧ f.tables = [(1, { name := t!"A" })] :=
  ⟨_, rfl, by decide +kernel⟩

end Example

end BurnFm.Props
