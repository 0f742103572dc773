import Verif.Spec.Main
import Verif.Proofs.Segments

/-! Lemmas about the whole program. -/

namespace BurnFm
open Spec

theorem Trace.andThen_ok {α β : Type} {t : Trace α} {f : α → Trace β} {as : List Action} {b : β}
    (h : t.andThen f = (as, .ok b)) : ∃ a as₁ as₂, t = (as₁, .ok a) ∧ f a = (as₂, .ok b) ∧ as = as₁ ++ as₂ := by
  unfold Trace.andThen at h
  obtain ⟨ts, r⟩ := t
  cases r with
  | error e => simp at h
  | ok a =>
    simp only [Prod.mk.injEq] at h
    exact ⟨a, ts, (f a).1, rfl, by rw [← h.2], h.1.symm⟩

theorem Trace.andThen_of_ok {α β : Type} {a : α} {as : List Action} {f : α → Trace β} :
    Trace.andThen (as, .ok a) f = (as ++ (f a).1, (f a).2) := rfl

theorem Trace.andThen_pair {α β : Type} {t : Trace α} {a : α} {as bs : List Action} {f : α → Trace β} {r : Ev β}
    (h : t = (as, .ok a)) (hf : f a = (bs, r)) : t.andThen f = (as ++ bs, r) := by
  rw [h, Trace.andThen_of_ok, hf]

theorem Trace.andThen_of_error {α β : Type} {e : Stop} {as : List Action} {f : α → Trace β} :
    Trace.andThen (as, .error e) f = (as, .error e) := rfl

theorem Trace.andThen_assoc {α β γ : Type} (t : Trace α) (f : α → Trace β) (g : β → Trace γ) :
    (t.andThen f).andThen g = t.andThen fun a => (f a).andThen g := by
  obtain ⟨as, r⟩ := t
  cases r with
  | error e => rfl
  | ok a =>
    simp only [Trace.andThen_of_ok]
    rcases hf : f a with ⟨bs, r⟩
    cases r <;> simp [Trace.andThen]

theorem Trace.quiet_ok {α : Type} {r : Ev α} {as : List Action} {a : α} (h : Trace.quiet r = (as, .ok a)) :
    as = [] ∧ r = .ok a := by
  unfold Trace.quiet at h
  simp only [Prod.mk.injEq] at h
  exact ⟨h.1.symm, h.2⟩

theorem liftR_ok' {α : Type} {r : Res α} {a : α} (h : liftR r = .ok a) : r = .ok a := by
  cases r <;> simp [liftR] at h; rw [h]

theorem ev_bind_ok {α β : Type} {x : Ev α} {f : α → Ev β} {b : β} : (x >>= f) = .ok b ↔ ∃ a, x = .ok a ∧ f a = .ok b := by
  cases x with
  | error e => constructor <;> intro h <;> simp [bind, Except.bind] at h
  | ok a => simp [bind, Except.bind]

theorem runTests_length {ev : Calculator} {p : Profile} {scripts : HMap FScript} {n : Nat} (ts : List FTest) :
    ∀ {vm last : Vm} {vs : List Bool}, vm.runTests ev p scripts n ts = .ok (vs, last) → vs.length = ts.length := by
  induction ts with
  | nil => intro vm last vs h; simp [Vm.runTests] at h; cases h; rfl
  | cons t ts ih =>
    intro vm last vs h
    unfold Vm.runTests at h
    obtain ⟨vm', h1, h⟩ := ev_bind_ok.mp h
    obtain ⟨⟨vs', l'⟩, h2, h⟩ := ev_bind_ok.mp h
    cases h
    simp [ih h2]

theorem testFile_ok {ev : Calculator} {p : Profile} {n : Nat} {f : FmpFile} {vs : List Bool} :
    testFile ev p n f = .ok vs ↔ Verdicts ev p n f vs := by
  unfold testFile Verdicts
  constructor
  · intro h
    obtain ⟨vm, h1, h⟩ := ev_bind_ok.mp h
    obtain ⟨⟨vs', l'⟩, h2, h⟩ := ev_bind_ok.mp h
    cases h
    unfold Vm.runTestsWithCleanup at h2
    obtain ⟨⟨vs', l''⟩, h3, h2⟩ := ev_bind_ok.mp h2
    cases h2
    exact ⟨vm, l'', h1, h3⟩
  · rintro ⟨vm, last, h1, h2⟩
    rw [h1]
    change (vm.runTestsWithCleanup ev p f.scripts n f.tests >>= fun r => pure r.1) = .ok vs
    unfold Vm.runTestsWithCleanup
    rw [h2]
    rfl

theorem Verdicts.length {ev : Calculator} {p : Profile} {n : Nat} {f : FmpFile} {vs : List Bool}
    (h : Verdicts ev p n f vs) : vs.length = f.tests.length := by
  obtain ⟨vm, last, _, h2⟩ := h
  exact runTests_length _ h2

/-- The actions of testing a file. -/
def Tests (ev : Calculator) (p : Profile) (n : Nat) (noTesting : Bool) (f : FmpFile) (as : List Action) : Prop :=
  (noTesting = true ∨ f.tests = []) ∧ as = [] ∨
    (noTesting = false ∧ f.tests ≠ []) ∧ ∃ vs, Verdicts ev p n f vs ∧ as = [.tested vs]

theorem maybeTest_ok {ev : Calculator} {p : Profile} {n : Nat} {noTesting : Bool} {f : FmpFile} {as : List Action}
    (h : maybeTest ev p n noTesting f = (as, .ok ())) : Tests ev p n noTesting f as := by
  unfold maybeTest at h
  split at h
  · rename_i hc
    simp only [Bool.and_eq_true, Bool.not_eq_true', List.isEmpty_eq_false_iff] at hc
    right
    refine ⟨hc, ?_⟩
    split at h
    · rename_i vs hv
      cases h
      exact ⟨vs, testFile_ok.mp hv, rfl⟩
    · cases h
  · rename_i hc
    simp only [Bool.and_eq_true, Bool.not_eq_true', List.isEmpty_eq_false_iff] at hc
    cases h
    left
    refine ⟨?_, rfl⟩
    cases noTesting
    · right; exact Classical.not_not.mp fun h => hc ⟨rfl, h⟩
    · left; rfl

theorem stripBurn_some {name base : Str} : stripBurn name = some base ↔ name = base ++ t!".burn" := by
  unfold stripBurn
  split
  · rename_i h
    rw [List.isSuffixOf_iff_suffix] at h
    obtain ⟨b, rfl⟩ := h
    simp
  · rename_i h
    rw [List.isSuffixOf_iff_suffix] at h
    constructor
    · intro h'; cases h'
    · rintro rfl; exact absurd (List.suffix_append _ _) h

section
variable [Rt]

theorem compileInput_ok {ev : Calculator} {p : Profile} {n : Nat} {noTesting : Bool} {file file' : FmpFile} {name text : Str}
    {as : List Action} (h : compileInput ev p n noTesting file name text = (as, .ok file')) :
    ∃ g base ts b, compileBurn p text = .ok g ∧ name = base ++ t!".burn" ∧ file' = { file.merge g with name := base } ∧
      Tests ev p n noTesting file' ts ∧ assemble p file' = .ok b ∧ as = ts ++ [.wrote (base ++ t!".fmp12") b] := by
  unfold compileInput at h
  obtain ⟨f1, as1, as2, h1, h2, rfl⟩ := Trace.andThen_ok h
  obtain ⟨rfl, q1⟩ := Trace.quiet_ok h1
  obtain ⟨u, ts, as3, h3, h4, rfl⟩ := Trace.andThen_ok h2
  obtain ⟨b, as4, as5, h5, h6, rfl⟩ := Trace.andThen_ok h4
  obtain ⟨rfl, q5⟩ := Trace.quiet_ok h5
  obtain ⟨g, e1, q1⟩ := bind_ok.mp (liftR_ok' q1)
  obtain ⟨base, e2, q1⟩ := bind_ok.mp q1
  cases q1
  cases h6
  exact ⟨g, base, ts, b, e1, stripBurn_some.mp (unwrap_ok.mp e2), rfl, maybeTest_ok h3, liftR_ok' q5, rfl⟩

/-- The run of the compiler, as a relation. -/
inductive Ran (ev : Calculator) (p : Profile) (n : Nat) (noTesting : Bool) :
    List (Str × Str) → List FmpFile → List Str → FmpFile → List FmpFile → List Action → FmpFile → Prop
  | nil {f : FmpFile} : Ran ev p n noTesting [] [] [] f [] [] f
  | cons {text base : Str} {rest : List (Str × Str)} {g f f' : FmpFile} {gs snaps : List FmpFile} {bases : List Str}
      {ts as : List Action} {b : Bytes} : compileBurn p text = .ok g →
      Tests ev p n noTesting { f.merge g with name := base } ts → assemble p { f.merge g with name := base } = .ok b →
      Ran ev p n noTesting rest gs bases { f.merge g with name := base } snaps as f' →
      Ran ev p n noTesting ((base ++ t!".burn", text) :: rest) (g :: gs) (base :: bases) f
        ({ f.merge g with name := base } :: snaps) (ts ++ [.wrote (base ++ t!".fmp12") b] ++ as) f'

theorem compileInputs_ran {ev : Calculator} {p : Profile} {n : Nat} {noTesting : Bool} : ∀ {inputs : List (Str × Str)}
    {f f' : FmpFile} {as : List Action}, compileInputs ev p n noTesting inputs f = (as, .ok f') →
    ∃ gs bases snaps, Ran ev p n noTesting inputs gs bases f snaps as f'
  | [], f, f', as, h => by cases h; exact ⟨[], [], [], .nil⟩
  | (name, text) :: rest, f, f', as, h => by
    unfold compileInputs at h
    obtain ⟨f1, as1, as2, h1, h2, rfl⟩ := Trace.andThen_ok h
    obtain ⟨g, base, ts, b, c1, rfl, rfl, c4, c5, rfl⟩ := compileInput_ok h1
    obtain ⟨gs, bases, snaps, ih⟩ := compileInputs_ran h2
    exact ⟨_, _, _, .cons c1 c4 c5 ih⟩

omit [Rt] in
theorem Tests.runs {ev : Calculator} {p : Profile} {n : Nat} {noTesting : Bool} {f : FmpFile} {as : List Action}
    (h : Tests ev p n noTesting f as) :
    List.Forall₂ (Verdicts ev p n) (if noTesting then [] else [f].filter (fun f => !f.tests.isEmpty)) (runsOf as) ∧ outputsOf as = [] := by
  rcases h with ⟨h1, rfl⟩ | ⟨⟨h1, h2⟩, vs, h3, rfl⟩
  · rcases h1 with rfl | h1
    · exact ⟨.nil, rfl⟩
    · rw [List.filter_cons, h1]; simp [runsOf, outputsOf]
  · subst h1
    have : f.tests.isEmpty = false := by simpa using h2
    simp [this, runsOf, outputsOf, h3]

omit [Rt] in
theorem runsOf_append (as bs : List Action) : runsOf (as ++ bs) = runsOf as ++ runsOf bs := by simp [runsOf]
omit [Rt] in
theorem outputsOf_append (as bs : List Action) : outputsOf (as ++ bs) = outputsOf as ++ outputsOf bs := by simp [outputsOf]

theorem Ran.spec {ev : Calculator} {p : Profile} {n : Nat} {noTesting : Bool} {inputs : List (Str × Str)}
    {gs snaps : List FmpFile} {bases : List Str} {f f' : FmpFile} {as : List Action}
    (h : Ran ev p n noTesting inputs gs bases f snaps as f') :
    Compiled p (inputs.map (·.2)) gs ∧ inputs.map (·.1) = bases.map (· ++ t!".burn") ∧ bases.length = gs.length ∧
    snaps = bases.zipIdx.map (fun e => { (gs.take (e.2 + 1)).foldl FmpFile.merge f with name := e.1 }) ∧
    List.Forall₂ (Verdicts ev p n) (if noTesting then [] else snaps.filter (fun f => !f.tests.isEmpty)) (runsOf as) ∧
    List.Forall₂ (fun f (o : Str × Bytes) => o.1 = f.name ++ t!".fmp12" ∧ assemble p f = .ok o.2) snaps (outputsOf as) := by
  induction h with
  | nil =>
    refine ⟨.nil, rfl, rfl, rfl, ?_, .nil⟩
    cases noTesting <;> exact .nil
  | @cons text base rest g f f' gs snaps bases ts as b h1 h2 h3 _ ih =>
    obtain ⟨i1, i2, i3, i4, i5, i6⟩ := ih
    obtain ⟨t1, t2⟩ := h2.runs
    refine ⟨.cons h1 i1, ?_, ?_, ?_, ?_, ?_⟩
    · rw [List.map_cons, List.map_cons, i2]
    · simp [i3]
    · have hm : ∀ (l : List FmpFile) (f : FmpFile) (x : Str),
          l.foldl FmpFile.merge { f with name := x } = { l.foldl FmpFile.merge f with name := x } := by
        intro l
        induction l with
        | nil => intro f x; rfl
        | cons y l ih => intro f x; exact ih (f.merge y) x
      rw [i4, List.zipIdx_cons, List.map_cons, List.zipIdx_succ, List.map_map]
      congr 1
      apply List.map_congr_left
      rintro ⟨x, i⟩ _
      dsimp only [Function.comp]
      rw [List.take_succ_cons, List.foldl_cons, hm]
    · rw [runsOf_append, runsOf_append]
      have : runsOf [Action.wrote (base ++ t!".fmp12") b] = [] := rfl
      rw [this, List.append_nil]
      cases noTesting
      · simp only [Bool.false_eq_true, if_false] at t1 i5 ⊢
        rw [show ({ f.merge g with name := base } :: snaps) = [{ f.merge g with name := base }] ++ snaps from rfl,
          List.filter_append]
        exact List.rel_append t1 i5
      · simp only [if_true] at t1 i5 ⊢
        exact List.rel_append t1 i5
    · rw [outputsOf_append, outputsOf_append, t2]
      exact .cons ⟨rfl, h3⟩ i6

theorem givenTests_ok {p : Profile} : ∀ {texts : List Str} {f f' : FmpFile}, givenTests p texts f = .ok f' →
    ∃ gs, Compiled p texts gs ∧ f' = { f with tests := f.tests ++ gs.flatMap (·.tests) }
  | [], f, f', h => by
    cases h; exact ⟨[], .nil, by simp⟩
  | text :: rest, f, f', h => by
    unfold givenTests at h
    obtain ⟨g, h1, h⟩ := bind_ok.mp h
    obtain ⟨gs, h2, rfl⟩ := givenTests_ok h
    exact ⟨g :: gs, .cons h1 h2, by simp⟩

omit [Rt] in
/-- Merging into a file that has only tests. -/
theorem fold_merge_keep (gs : List FmpFile) (T : List FTest) :
    gs.foldl FmpFile.merge { tests := T } = { mergeFiles gs with tests := T ++ gs.flatMap (·.tests) } := by
  have key : ∀ (gs : List FmpFile) (f : FmpFile), gs.foldl FmpFile.merge { f with tests := T ++ f.tests } =
      { gs.foldl FmpFile.merge f with tests := T ++ (gs.foldl FmpFile.merge f).tests } := by
    intro gs
    induction gs with
    | nil => intro f; rfl
    | cons g gs ih =>
      intro f
      rw [List.foldl_cons, List.foldl_cons, ← ih]
      congr 1
      simp [FmpFile.merge]
  have tests : ∀ (gs : List FmpFile) (f : FmpFile), (gs.foldl FmpFile.merge f).tests = f.tests ++ gs.flatMap (·.tests) := by
    intro gs
    induction gs with
    | nil => intro f; simp
    | cons g gs ih => intro f; rw [List.foldl_cons, ih]; simp [FmpFile.merge]
  have := key gs {}
  rw [List.append_nil] at this
  rw [this, mergeFiles, tests gs {}]
  simp

omit [Rt] in
theorem fold_merge_tests (gs : List FmpFile) (T : List FTest) (base : Str) :
    { gs.foldl FmpFile.merge { tests := T } with name := base } =
      { mergeFiles gs with name := base, tests := T ++ gs.flatMap (·.tests) } := by
  rw [fold_merge_keep]

end

/-! ### The decompiler -/

theorem dispatch_tests {p : Profile} {st st' : DState} {path : DirPath} {ch : Chunk} (h : dispatch p st path ch = .ok st') :
    st'.file.tests = st.file.tests := by
  have key : Gives (fun s => s.file.tests = st.file.tests) (dispatch p st path ch) := by
    unfold dispatch
    cases hc : classify path with
    | segment d => dsimp only; unfold armSegments; gives
    | script id =>
      dsimp only
      unfold armScript
      split
      · exact .pure rfl
      · split
        · refine .bind fun d _ => .fold (fun s b hs => ?_) rfl
          gives
        · split
          · refine .bind fun d _ => .fold (fun s b hs => ?_) rfl
            gives
          · exact .pure rfl
    | other => exact .ok rfl
    | tableMeta d => dsimp only; unfold armTableMeta; gives
    | field d f => dsimp only; unfold armField; gives
    | relationship => dsimp only; unfold armRelationship; gives
    | occurrence => dsimp only; unfold armOccurrence; gives
    | join => dsimp only; unfold armJoin; gives
    | layout => dsimp only; unfold armLayout; gives
    | stepExpr => dsimp only; unfold armStepExpr; gives
    | stepName => dsimp only; unfold armStepName; gives
    | stepValue => dsimp only; unfold armStepValue; gives
    | scriptMeta => dsimp only; unfold armScriptMeta; gives
    | sourceNames => dsimp only; unfold armSourceNames; gives
    | source => dsimp only; unfold armSource; gives
  exact key st' h

theorem sectorLoop_tests {p : Profile} {buf : Bytes} {start bound : Nat} : ∀ (fuel off : Nat) (path : DirPath) (st : DState)
    {st' : DState}, sectorLoop p buf start bound fuel off path st = .ok (some st') → st'.file.tests = st.file.tests
  | 0, off, path, st, st', h => by cases h
  | fuel + 1, off, path, st, st', h => by
    unfold sectorLoop at h
    split at h
    · obtain ⟨r, h1, h⟩ := bind_ok.mp h
      split at h
      · cases h
      · obtain ⟨s1, h2, h⟩ := bind_ok.mp h
        rw [sectorLoop_tests fuel _ _ _ h, dispatch_tests h2]
    · cases h; rfl

theorem fileLoop_tests {p : Profile} {buf : Bytes} {nBlocks : Nat} : ∀ (fuel i : Nat) (st : DState)
    {st' : DState}, fileLoop p buf nBlocks fuel i st = .ok (some st') → st'.file.tests = st.file.tests
  | 0, i, st, st', h => by cases h
  | fuel + 1, i, st, st', h => by
    unfold fileLoop at h
    split at h
    · cases h; rfl
    · obtain ⟨sec, h1, h⟩ := bind_ok.mp h
      split at h
      · cases h
      · obtain ⟨r, h2, h⟩ := bind_ok.mp h
        split at h
        · cases h
        · rename_i s1
          rw [fileLoop_tests fuel _ _ h, sectorLoop_tests _ _ _ _ h2]

theorem assembleScripts_tests {st : DState} {f : FmpFile} (h : assembleScripts st = .ok f) : f.tests = st.file.tests := by
  unfold assembleScripts at h
  obtain ⟨s, h1, h⟩ := bind_ok.mp h
  cases h
  have key : Gives (fun s => s.file.tests = st.file.tests) (st.segments.foldlM (fun s e => assembleScript s e.1 e.2) st) := by
    refine .fold (fun s e hs => ?_) rfl
    unfold assembleScript
    refine .fold (fun s b hs => ?_) hs
    gives
  exact key s h1

/-- A decompiled file has no tests. -/
theorem decompile_tests {p : Profile} {buf : Bytes} {n : Nat} {f : FmpFile} (h : decompile p buf n = .ok (some f)) :
    f.tests = [] := by
  unfold decompile at h
  obtain ⟨sec, h1, h⟩ := bind_ok.mp h
  obtain ⟨r, h2, h⟩ := bind_ok.mp h
  split at h
  · cases h
  · rename_i st
    cases h3 : assembleScripts st with
    | error e => rw [h3] at h; cases h
    | ok g =>
      rw [h3] at h
      cases h
      rw [assembleScripts_tests h3, fileLoop_tests _ _ _ h2]

theorem decompileInput_ok {ev : Calculator} {p : Profile} {n : Nat} {noTesting : Bool} {file file' : FmpFile} {buf : Bytes}
    {as : List Action} (h : decompileInput ev p n noTesting file buf = (as, .ok file')) :
    ∃ g, decompile p buf n = .ok (some g) ∧ file' = file.merge g ∧ Tests ev p n noTesting file' as := by
  unfold decompileInput at h
  obtain ⟨f1, as1, as2, h1, h2, rfl⟩ := Trace.andThen_ok h
  obtain ⟨rfl, q1⟩ := Trace.quiet_ok h1
  obtain ⟨u, ts, as3, h3, h4, rfl⟩ := Trace.andThen_ok h2
  cases h4
  split at q1
  · rename_i g hg
    cases q1
    refine ⟨g, hg, rfl, ?_⟩
    simpa using maybeTest_ok h3
  · cases q1
  · cases q1

theorem decompileInputs_spec {ev : Calculator} {p : Profile} {n : Nat} {noTesting : Bool} : ∀ {bufs : List Bytes}
    {f f' : FmpFile} {as : List Action}, decompileInputs ev p n noTesting bufs f = (as, .ok f') →
    ∃ gs, Decompiled p n bufs gs ∧ outputsOf as = [] ∧
      List.Forall₂ (Verdicts ev p n) (if noTesting || f.tests.isEmpty then [] else
        (List.range gs.length).map fun i => (gs.take (i + 1)).foldl FmpFile.merge f) (runsOf as)
  | [], f, f', as, h => by
    cases h
    refine ⟨[], .nil, rfl, ?_⟩
    split <;> exact .nil
  | buf :: rest, f, f', as, h => by
    unfold decompileInputs at h
    obtain ⟨f1, as1, as2, h1, h2, rfl⟩ := Trace.andThen_ok h
    obtain ⟨g, d1, rfl, d3⟩ := decompileInput_ok h1
    obtain ⟨gs, i1, i2, i3⟩ := decompileInputs_spec h2
    obtain ⟨t1, t2⟩ := d3.runs
    have ht : (f.merge g).tests = f.tests := by simp [FmpFile.merge, decompile_tests d1]
    refine ⟨g :: gs, .cons d1 i1, by rw [outputsOf_append, t2, i2]; rfl, ?_⟩
    rw [runsOf_append]
    rw [ht] at i3
    rw [List.filter_cons, ht] at t1
    cases noTesting
    · cases hf : f.tests.isEmpty
      · rw [hf] at t1 i3
        simp only [Bool.false_eq_true, if_false, Bool.not_false, if_true, List.filter_nil, Bool.or_false, Bool.or_self] at t1 i3 ⊢
        rw [List.length_cons, List.range_succ_eq_map, List.map_cons, List.map_map]
        exact List.rel_append t1 i3
      · rw [hf] at t1 i3
        exact List.rel_append t1 i3
    · exact List.rel_append t1 i3

theorem compiled_unique [Rt] {p : Profile} {ts : List Str} {a b : List FmpFile} (ha : Compiled p ts a) : Compiled p ts b → a = b := by
  induction ha generalizing b with
  | nil => intro hb; cases hb; rfl
  | cons h1 _ ih =>
    intro hb
    cases hb with
    | cons h2 h3 => rw [h1] at h2; cases h2; rw [ih h3]

theorem main_ok [Rt] {ev : Calculator} {p : Profile} {n : Nat} {op : Operation} {test : List Str} {noTesting : Bool}
    {as : List Action} {last : FmpFile} (h : mainProgram ev p n ⟨op, test, noTesting⟩ = (as, .ok last)) :
    ∃ given, Compiled p test given ∧ (match op with
      | .compile inputs => compileInputs ev p n noTesting inputs { tests := given.flatMap (·.tests) }
      | .decompile inputs => decompileInputs ev p n noTesting inputs { tests := given.flatMap (·.tests) }) = (as, .ok last) := by
  unfold mainProgram at h
  obtain ⟨f, as1, as2, h1, h2, rfl⟩ := Trace.andThen_ok h
  obtain ⟨rfl, q1⟩ := Trace.quiet_ok h1
  obtain ⟨given, g1, rfl⟩ := givenTests_ok (liftR_ok' q1)
  exact ⟨given, g1, h2⟩

theorem snapshots_tests (given gs : List FmpFile) (bases : List Str) (hb : bases.length = gs.length) :
    (snapshots given gs bases).map (·.tests.length) =
      totals (given.flatMap (·.tests)).length (gs.map (·.tests.length)) := by
  have key : ∀ (gs : List FmpFile) (bases : List Str) (T : List FTest), bases.length = gs.length →
      bases.zipIdx.map (fun e => (T ++ (gs.take (e.2 + 1)).flatMap (·.tests)).length) =
        totals T.length (gs.map (·.tests.length)) := by
    intro gs
    induction gs with
    | nil => intro bases T hb; rw [List.length_eq_zero_iff.mp hb]; rfl
    | cons g gs ih =>
      intro bases T hb
      obtain ⟨b, bases, rfl⟩ := List.exists_cons_of_length_eq_add_one hb
      have := ih bases (T ++ g.tests) (by simpa using hb)
      rw [List.zipIdx_cons, List.map_cons, List.zipIdx_succ, List.map_map, List.map_cons, totals]
      simp only [List.length_append] at this ⊢
      rw [← this]
      congr 1
      · simp
      · apply List.map_congr_left
        rintro ⟨x, i⟩ _
        simp; omega
  rw [snapshots, List.map_map]
  exact key gs bases _ hb

theorem compileInputs_append [Rt] (ev : Calculator) (p : Profile) (n : Nat) (noTesting : Bool) (xs ys : List (Str × Str)) :
    ∀ f : FmpFile, compileInputs ev p n noTesting (xs ++ ys) f =
      (compileInputs ev p n noTesting xs f).andThen fun f => compileInputs ev p n noTesting ys f := by
  induction xs with
  | nil => intro f; simp [compileInputs, Trace.andThen_of_ok]
  | cons x xs ih =>
    intro f
    rw [List.cons_append, compileInputs, compileInputs, Trace.andThen_assoc]
    congr 1
    funext f
    exact ih f

theorem main_append [Rt] (ev : Calculator) (p : Profile) (n : Nat) (test : List Str) (noTesting : Bool)
    (xs ys : List (Str × Str)) :
    mainProgram ev p n ⟨.compile (xs ++ ys), test, noTesting⟩ =
      (mainProgram ev p n ⟨.compile xs, test, noTesting⟩).andThen fun f => compileInputs ev p n noTesting ys f := by
  unfold mainProgram
  rw [Trace.andThen_assoc]
  congr 1
  funext f
  exact compileInputs_append ev p n noTesting xs ys f


theorem maybeTest_outputs (ev : Calculator) (p : Profile) (n : Nat) (noTesting : Bool) (f : FmpFile) :
    outputsOf (maybeTest ev p n noTesting f).1 = [] := by
  unfold maybeTest
  split
  · split <;> rfl
  · rfl

theorem compileInput_fails [Rt] {ev : Calculator} {p : Profile} {n : Nat} {noTesting : Bool} {f : FmpFile} {name text : Str}
    {e : Stop} (h : (compileInput ev p n noTesting f name text).2 = .error e) :
    outputsOf (compileInput ev p n noTesting f name text).1 = [] := by
  unfold compileInput Trace.quiet at h ⊢
  generalize (liftR (compileBurn p text >>= fun tmp => unwrap (stripBurn name) >>= fun base =>
    pure { f.merge tmp with name := base }) : Ev FmpFile) = r at h ⊢
  cases r with
  | error e => rfl
  | ok f1 =>
    rw [Trace.andThen_of_ok] at h ⊢
    have ht := maybeTest_outputs ev p n noTesting f1
    rcases hm : maybeTest ev p n noTesting f1 with ⟨ts, r⟩
    rw [hm] at ht
    cases r with
    | error e => rw [hm] at h; exact ht
    | ok u =>
      rw [hm, Trace.andThen_of_ok] at h
      rw [Trace.andThen_of_ok]
      cases ha : (liftR (assemble p f1) : Ev Bytes) with
      | error e => simpa [outputsOf_append, Trace.andThen_of_error] using ht
      | ok b => rw [ha] at h; cases h

theorem maybeTest_off (ev : Calculator) (p : Profile) (n : Nat) (f : FmpFile) : maybeTest ev p n true f = ([], .ok ()) := rfl

theorem andThen_runs {α β : Type} {t : Trace α} {f : α → Trace β} (h : runsOf t.1 = []) (hf : ∀ a, runsOf (f a).1 = []) :
    runsOf (t.andThen f).1 = [] := by
  unfold Trace.andThen
  split
  · rw [runsOf_append, h, hf]; rfl
  · exact h

theorem compileInputs_off [Rt] (ev : Calculator) (p : Profile) (n : Nat) (inputs : List (Str × Str)) :
    ∀ f, runsOf (compileInputs ev p n true inputs f).1 = [] := by
  induction inputs with
  | nil => intro f; rfl
  | cons x xs ih =>
    intro f
    refine andThen_runs ?_ ih
    refine andThen_runs rfl fun f => andThen_runs rfl fun _ => andThen_runs rfl fun _ => rfl

theorem decompileInputs_off (ev : Calculator) (p : Profile) (n : Nat) (inputs : List Bytes) :
    ∀ f, runsOf (decompileInputs ev p n true inputs f).1 = [] := by
  induction inputs with
  | nil => intro f; rfl
  | cons x xs ih =>
    intro f
    refine andThen_runs ?_ ih
    refine andThen_runs rfl fun f => andThen_runs rfl fun _ => rfl

theorem compileInput_of [Rt] {ev : Calculator} {p : Profile} {n : Nat} {noTesting : Bool} {f g f' : FmpFile} {base text : Str}
    {ts : List Action} {b : Bytes} (h1 : compileBurn p text = .ok g) (hf : f' = { f.merge g with name := base })
    (h2 : maybeTest ev p n noTesting f' = (ts, .ok ())) (h3 : assemble p f' = .ok b) :
    compileInput ev p n noTesting f (base ++ t!".burn") text = (ts ++ [.wrote (base ++ t!".fmp12") b], .ok f') := by
  subst hf
  unfold compileInput
  rw [h1, ok_bind, stripBurn_some.mpr rfl]
  dsimp only [unwrap, liftR, Trace.quiet, pure, Except.pure, bind, Except.bind]
  rw [Trace.andThen_of_ok, h2, Trace.andThen_of_ok, h3]
  rfl

theorem main_compile [Rt] (ev : Calculator) (p : Profile) (n : Nat) (inputs : List (Str × Str)) (noTesting : Bool) :
    mainProgram ev p n ⟨.compile inputs, [], noTesting⟩ = compileInputs ev p n noTesting inputs {} := rfl

theorem compileInput_name [Rt] {ev : Calculator} {p : Profile} {n : Nat} {noTesting : Bool} {f g : FmpFile} {name text : Str}
    (h1 : compileBurn p text = .ok g) (hn : stripBurn name = none) :
    compileInput ev p n noTesting f name text = ([], .error (.panic .unwrap)) := by
  unfold compileInput
  rw [h1, ok_bind, hn]
  rfl

theorem compileInputs_quiet [Rt] {ev : Calculator} {p : Profile} {n : Nat} : ∀ {inputs : List (Str × Str)} {f last : FmpFile}
    {as : List Action}, compileInputs ev p n false inputs f = (as, .ok last) →
    ∃ as', compileInputs ev p n true inputs f = (as', .ok last) ∧ outputsOf as' = outputsOf as
  | [], f, last, as, h => by cases h; exact ⟨[], rfl, rfl⟩
  | (name, text) :: rest, f, last, as, h => by
    unfold compileInputs at h ⊢
    obtain ⟨f1, as1, as2, h1, h2, rfl⟩ := Trace.andThen_ok h
    obtain ⟨g, base, ts, b, c1, rfl, rfl, c4, c5, rfl⟩ := compileInput_ok h1
    obtain ⟨as', i1, i2⟩ := compileInputs_quiet h2
    have e : compileInput ev p n true f (base ++ t!".burn") text =
        ([.wrote (base ++ t!".fmp12") b], .ok { f.merge g with name := base }) :=
      compileInput_of c1 rfl (maybeTest_off ..) c5
    refine ⟨_, by rw [e, Trace.andThen_of_ok, i1], ?_⟩
    rw [outputsOf_append, outputsOf_append, outputsOf_append, i2, c4.runs.2]
    rfl

theorem decompileInputs_quiet {ev : Calculator} {p : Profile} {n : Nat} : ∀ {inputs : List Bytes} {f last : FmpFile}
    {as : List Action}, decompileInputs ev p n false inputs f = (as, .ok last) →
    ∃ as', decompileInputs ev p n true inputs f = (as', .ok last) ∧ outputsOf as' = outputsOf as
  | [], f, last, as, h => by cases h; exact ⟨[], rfl, rfl⟩
  | buf :: rest, f, last, as, h => by
    unfold decompileInputs at h ⊢
    obtain ⟨f1, as1, as2, h1, h2, rfl⟩ := Trace.andThen_ok h
    obtain ⟨g, d1, rfl, d3⟩ := decompileInput_ok h1
    obtain ⟨as', i1, i2⟩ := decompileInputs_quiet h2
    have e : decompileInput ev p n true f buf = ([], .ok (f.merge g)) := by
      unfold decompileInput
      rw [d1]
      rfl
    refine ⟨_, by rw [e, Trace.andThen_of_ok, i1], ?_⟩
    rw [outputsOf_append, outputsOf_append, i2, d3.runs.2]
    rfl

theorem extend_fresh {α : Type} (m : HMap α) : ∀ acc : HMap α, (acc.map (·.1) ++ m.map (·.1)).Nodup → acc.extend m = acc ++ m := by
  unfold HMap.extend
  induction m with
  | nil => intro acc _; simp
  | cons e m ih =>
    intro acc h
    have hc : acc.contains e.1 = false := by
      unfold HMap.contains
      rw [List.any_eq_false]
      intro x hx hb
      have h1 := (List.nodup_append.mp h).2.2 x.1 (List.mem_map.mpr ⟨x, hx, rfl⟩) e.1 (by simp)
      exact h1 (by simpa using hb)
    have hi : acc.insert e.1 e.2 = acc ++ [e] := by rw [HMap.insert, hc]; rfl
    rw [List.foldl_cons, hi, ih]
    · simp
    · simpa using h

theorem extend_nil {α : Type} (m : HMap α) (h : (m.map (·.1)).Nodup) : HMap.extend [] m = m := by
  rw [extend_fresh m [] (by simpa using h)]; rfl

end BurnFm
