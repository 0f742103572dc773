import Verif.Proofs.Inspect
import Verif.Props.Main
import Verif.Props.FileContents

/-! Properties C115 to C119: the JSON files and `header.log`. -/

namespace BurnFm.Props
open Spec

/-! ### C115 -/

/-- C115: whatever a file contains, the text written for it is JSON, can be read in one way only, and reading it gives the whole file. -/
theorem json_shows_file (f : FmpFile) : Shows (inspectText f) f :=
  inspectText_shows ⟨rfl, .refl _, .refl _, .refl _, .refl _, .refl _, .refl _, .refl _, rfl⟩

/-- C115: so different files never have the same text. -/
theorem json_tells_apart (f g : FmpFile) (h : inspectText f = inspectText g) : SameContents f g := by
  have := inspectText_shows (f := f) (g := f) ⟨rfl, .refl _, .refl _, .refl _, .refl _, .refl _, .refl _, .refl _, rfl⟩
  obtain ⟨v, hv, _⟩ := this
  have e1 := inspectText_read f hv
  rw [h] at hv
  have e2 := inspectText_read g hv
  rw [e1] at e2
  have e := Option.some.inj e2
  have p1 : ∃ ts, f.tables.Perm ts ∧ List.Forall₂ SameFields ts g.tables := by
    refine ⟨f.tables, .refl _, ?_⟩
    have a := sorted_sameFields f.tables
    have b := sorted_sameFields g.tables
    have ht := congrArg FmpFile.tables e
    dsimp only at ht
    rw [ht] at a
    clear e e1 e2 hv h ht
    generalize g.tables.map (fun e => (e.1, { e.2 with fields := sortByKey e.2.fields })) = l at a b
    generalize g.tables = r at b
    generalize f.tables = q at a
    induction a generalizing r with
    | nil => cases b; exact .nil
    | cons x _ ih =>
      cases b with
      | cons y b =>
        exact .cons ⟨x.number.trans y.number.symm, x.name.trans y.name.symm, x.init.trans y.init.symm, x.fields.trans y.fields.symm⟩ (ih _ b)
  have q : ∀ {α : Type} (c : FmpFile → α), c { f with tables := f.tables.map fun e => (e.1, { e.2 with fields := sortByKey e.2.fields }) } =
      c { g with tables := g.tables.map fun e => (e.1, { e.2 with fields := sortByKey e.2.fields }) } := fun c => congrArg c e
  exact ⟨q (·.name), p1, .of_eq (q (·.relationships)), .of_eq (q (·.layouts)), .of_eq (q (·.valueLists)), .of_eq (q (·.scripts)),
    .of_eq (q (·.tableOccurrences)), .of_eq (q (·.dataSources)), q (·.tests)⟩

/-- C115: after each input file of the compiler, also if a later step fails, the JSON file shows the components of this input file and
those before it, with all tests. -/
theorem compile_json [Rt] (ev : Calculator) (p : Profile) (n : Nat) (s : Surroundings) (hs : s.inspectDir = true) (hf : Fair s)
    (inputs : List (Str × Str)) (test : List Str) (noTesting printHeader : Bool) (given : List FmpFile) (hg : Compiled p test given) :
    ∃ gs bases, gs.length ≤ inputs.length ∧ Compiled p ((inputs.take gs.length).map (·.2)) gs ∧
      (inputs.take gs.length).map (·.1) = bases.map (· ++ t!".burn") ∧
      List.Forall₂ (fun f (e : Str × Str) => e.1 = t!"inspect_output/test_compile" ∧ Shows e.2 f) (snapshots given gs bases)
        (inspectedOf (wholeProgram ev p n s ⟨.compile inputs, test, noTesting⟩ printHeader).1) ∧
      ((∃ last, (wholeProgram ev p n s ⟨.compile inputs, test, noTesting⟩ printHeader).2 = .ok last) → gs.length = inputs.length) := by
  have hgt : givenTests p test {} = .ok { tests := given.flatMap (·.tests) } := givenTests_compiled hg
  obtain ⟨gs, bases, snaps, h1, h2, h3⟩ := compileFiles_written (ev := ev) (p := p) (n := n) hs noTesting inputs
    { tests := given.flatMap (·.tests) }
  obtain ⟨c1, c2, c3, c4⟩ := h1.spec
  have : snaps = snapshots given gs bases := by
    rw [c4, snapshots]
    apply List.map_congr_left
    rintro ⟨x, i⟩ _
    exact fold_merge_tests _ _ _
  subst this
  refine ⟨gs, bases, c1, c2, c3, ?_⟩
  unfold wholeProgram
  rw [hgt]
  dsimp only [liftR]
  rw [Log.quiet_andThen_ok]
  exact ⟨h2.shows hf, fun ⟨last, hl⟩ => h3 last hl⟩

/-- C115: after each input file of the decompiler, the JSON file shows what was found in this input file. -/
theorem decompile_json [Rt] (ev : Calculator) (p : Profile) (n : Nat) (s : Surroundings) (hs : s.inspectDir = true) (hf : Fair s)
    (inputs : List Bytes) (test : List Str) (noTesting printHeader : Bool) (given : List FmpFile) (hg : Compiled p test given) :
    ∃ gs, gs.length ≤ inputs.length ∧ Decompiled p n (inputs.take gs.length) gs ∧
      List.Forall₂ (fun f (e : Str × Str) => e.1 = t!"inspect_output/test_decompile" ∧ Shows e.2 f) gs
        (inspectedOf (wholeProgram ev p n s ⟨.decompile inputs, test, noTesting⟩ printHeader).1) ∧
      ((∃ last, (wholeProgram ev p n s ⟨.decompile inputs, test, noTesting⟩ printHeader).2 = .ok last) → gs.length = inputs.length) := by
  have hgt : givenTests p test {} = .ok { tests := given.flatMap (·.tests) } := givenTests_compiled hg
  obtain ⟨gs, h0, h1, h2, h3⟩ := decompileFiles_written (ev := ev) (p := p) (n := n) hs noTesting printHeader inputs
    { tests := given.flatMap (·.tests) }
  refine ⟨gs, h0, h1, ?_⟩
  unfold wholeProgram
  rw [hgt]
  dsimp only [liftR]
  rw [Log.quiet_andThen_ok]
  exact ⟨h2.shows hf, fun ⟨last, hl⟩ => h3 last hl⟩

/-- C115: the JSON file of an input file that compiles is written whatever happens afterwards: even if its tests panic or never end, or it
does not fit. -/
theorem compile_json_first [Rt] (ev : Calculator) (p : Profile) (n : Nat) (s : Surroundings) (hs : s.inspectDir = true)
    (xs ys : List (Str × Str)) (base text : Str) (test : List Str) (noTesting printHeader : Bool) (last g : FmpFile)
    (hx : (wholeProgram ev p n s ⟨.compile xs, test, noTesting⟩ printHeader).2 = .ok last) (hg : compileBurn p text = .ok g) :
    xs.length < (inspectedOf (wholeProgram ev p n s ⟨.compile (xs ++ (base ++ t!".burn", text) :: ys), test, noTesting⟩ printHeader).1).length := by
  unfold wholeProgram at hx ⊢
  cases hgt : givenTests p test {} with
  | error e => rw [hgt] at hx; cases hx
  | ok f =>
    rw [hgt] at hx
    dsimp only [liftR] at hx ⊢
    rw [Log.quiet_andThen_ok] at hx ⊢
    rw [compileFiles_append]
    have hl : (compileFiles ev p n (laterOrder s ((base ++ t!".burn", text) :: ys).length) noTesting xs f).2 = .ok last := by
      rw [(compileFiles_agrees (s := laterOrder s _) hs noTesting xs f).2, ← (compileFiles_agrees hs noTesting xs f).2]
      exact hx
    obtain ⟨gs, bases, snaps, h1, h2, h3⟩ := compileFiles_written (ev := ev) (p := p) (n := n) (s := laterOrder s ((base ++ t!".burn", text) :: ys).length)
      hs noTesting xs f
    have e1 : (inspectedOf (compileFiles ev p n (laterOrder s ((base ++ t!".burn", text) :: ys).length) noTesting xs f).1).length = xs.length := by
      rw [← h2.length_eq, h1.length, h3 last hl]
    rw [andThen_fst_ok hl, inspectedOf_append, List.length_append, e1]
    unfold compileFiles
    obtain ⟨rest, hr⟩ := first_events (compileFile ev p n s ys.length noTesting last (base ++ t!".burn") text)
      (fun file => compileFiles ev p n s noTesting ys file)
    rw [hr, inspectedOf_append, compileFile_written hs _ _ _ _ _ _ hg]
    simp

/-- C115: and so is that of an input file that decompiles. -/
theorem decompile_json_first [Rt] (ev : Calculator) (p : Profile) (n : Nat) (s : Surroundings) (hs : s.inspectDir = true)
    (xs ys : List Bytes) (buf : Bytes) (test : List Str) (noTesting printHeader : Bool) (last g : FmpFile)
    (hx : (wholeProgram ev p n s ⟨.decompile xs, test, noTesting⟩ printHeader).2 = .ok last) (hg : decompile p buf n = .ok (some g)) :
    xs.length < (inspectedOf (wholeProgram ev p n s ⟨.decompile (xs ++ buf :: ys), test, noTesting⟩ printHeader).1).length := by
  unfold wholeProgram at hx ⊢
  cases hgt : givenTests p test {} with
  | error e => rw [hgt] at hx; cases hx
  | ok f =>
    rw [hgt] at hx
    dsimp only [liftR] at hx ⊢
    rw [Log.quiet_andThen_ok] at hx ⊢
    rw [decompileFiles_append]
    have hl : (decompileFiles ev p n (laterOrder s (buf :: ys).length) noTesting printHeader xs f).2 = .ok last := by
      rw [(decompileFiles_agrees (s := laterOrder s _) hs noTesting printHeader xs f).2, ← (decompileFiles_agrees hs noTesting printHeader xs f).2]
      exact hx
    obtain ⟨gs, _, _, h2, h3⟩ := decompileFiles_written (ev := ev) (p := p) (n := n) (s := laterOrder s (buf :: ys).length) hs noTesting printHeader xs f
    have e1 : (inspectedOf (decompileFiles ev p n (laterOrder s (buf :: ys).length) noTesting printHeader xs f).1).length = xs.length := by
      rw [← h2.length_eq, h3 last hl]
    rw [andThen_fst_ok hl, inspectedOf_append, List.length_append, e1]
    unfold decompileFiles
    obtain ⟨rest, hr⟩ := first_events (decompileFile ev p n s ys.length noTesting printHeader last buf)
      (fun file => decompileFiles ev p n s noTesting printHeader ys file)
    rw [hr, inspectedOf_append, decompileFile_written hs _ _ _ _ hg]
    simp

/-- C115: writing them changes nothing else: the verdicts and the database files, and whether the program stops, are as in `mainProgram`,
which all other properties are about. -/
theorem json_changes_nothing [Rt] (ev : Calculator) (p : Profile) (n : Nat) (s : Surroundings) (hs : s.inspectDir = true) (args : Args)
    (printHeader : Bool) : actionsOf (wholeProgram ev p n s args printHeader).1 = (mainProgram ev p n args).1 ∧
      (wholeProgram ev p n s args printHeader).2 = (mainProgram ev p n args).2 := by
  unfold wholeProgram mainProgram
  refine (Agrees.quiet _).andThen fun f => ?_
  cases args.op with
  | compile inputs => exact compileFiles_agrees hs _ inputs f
  | decompile inputs => exact decompileFiles_agrees hs _ _ inputs f

/-! ### C116 -/

/-- C116 (partial): two runs on the same input, in surroundings that differ only in the order of the maps, write JSON files that show the
same files. Missing: that they are the same texts, which is false, see `json_same_text_refuted`. -/
theorem json_same_contents_partial [Rt] (ev : Calculator) (p : Profile) (n : Nat) (s s' : Surroundings)
    (hs : s.inspectDir = s'.inspectDir) (hf : Fair s) (hf' : Fair s') (args : Args) (printHeader : Bool) :
    List.Forall₂ (fun e e' => e.1 = e'.1 ∧ ∃ f, Shows e.2 f ∧ Shows e'.2 f)
      (inspectedOf (wholeProgram ev p n s args printHeader).1) (inspectedOf (wholeProgram ev p n s' args printHeader).1) := by
  unfold wholeProgram
  cases givenTests p args.test {} with
  | error e => exact .nil
  | ok f =>
    dsimp only [liftR]
    simp only [Log.quiet_andThen_ok]
    cases args.op with
    | compile inputs => exact inspected_shows hf hf' (compileFiles_same ev p n hs args.noTesting inputs f).1
    | decompile inputs => exact inspected_shows hf hf' (decompileFiles_same ev p n hs args.noTesting printHeader inputs f).1

/-! ### C117 -/

/-- C117 (refuted): where there is no directory `inspect_output`, the program writes and tests nothing and ends with a panic, whatever its
input files are. The directory is not part of the repository, and the program does not create it. -/
theorem needs_directory [Rt] (ev : Calculator) (p : Profile) (n : Nat) (s : Surroundings) (hs : s.inspectDir = false)
    (args : Args) (printHeader : Bool)
    (hi : match args.op with | .compile inputs => inputs ≠ [] | .decompile inputs => inputs ≠ []) :
    (∃ e, (wholeProgram ev p n s args printHeader).2 = .error e) ∧ actionsOf (wholeProgram ev p n s args printHeader).1 = [] ∧
      inspectedOf (wholeProgram ev p n s args printHeader).1 = [] := by
  unfold wholeProgram
  cases givenTests p args.test {} with
  | error e => exact ⟨⟨_, rfl⟩, rfl, rfl⟩
  | ok f =>
    dsimp only [liftR]
    rw [Log.quiet_andThen_ok]
    cases hop : args.op with
    | compile inputs =>
      rw [hop] at hi
      obtain ⟨e, he⟩ := compileFiles_stuck (ev := ev) (p := p) (n := n) hs args.noTesting hi f
      dsimp only
      rw [he]
      exact ⟨⟨e, rfl⟩, rfl, rfl⟩
    | decompile inputs =>
      rw [hop] at hi
      obtain ⟨e, h1, h2, h3⟩ := decompileFiles_stuck (ev := ev) (p := p) (n := n) hs args.noTesting printHeader hi f
      exact ⟨⟨e, h1⟩, h2, h3⟩

/-! ### C118 -/

/-- C118: with `--print-header` exactly the same is done as without it, besides writing `header.log`. -/
theorem header_changes_nothing [Rt] (ev : Calculator) (p : Profile) (n : Nat) (s : Surroundings) (args : Args) :
    withoutHeaders (wholeProgram ev p n s args true).1 = (wholeProgram ev p n s args false).1 ∧
      (wholeProgram ev p n s args true).2 = (wholeProgram ev p n s args false).2 ∧
      headersOf (wholeProgram ev p n s args false).1 = [] := by
  unfold wholeProgram
  cases givenTests p args.test {} with
  | error e => exact ⟨rfl, rfl, rfl⟩
  | ok f =>
    dsimp only [liftR]
    simp only [Log.quiet_andThen_ok]
    cases args.op with
    | compile inputs =>
      obtain ⟨h1, h2⟩ := (compileFiles_noHeader ev p n s args.noTesting inputs f).without
      exact ⟨h1, rfl, h2⟩
    | decompile inputs =>
      obtain ⟨h1, h2, _, _, h5⟩ := decompileFiles_header ev p n s args.noTesting inputs f
      exact ⟨h1, h2, h5⟩

/-- C118: and the bytes of the input files of the decompiler, unchanged, are written to it, one after the other. -/
theorem header_is_input [Rt] (ev : Calculator) (p : Profile) (n : Nat) (s : Surroundings) (inputs : List Bytes) (test : List Str)
    (noTesting : Bool) : headersOf (wholeProgram ev p n s ⟨.decompile inputs, test, noTesting⟩ true).1 <+: inputs ∧
      ((∃ last, (wholeProgram ev p n s ⟨.decompile inputs, test, noTesting⟩ true).2 = .ok last) →
        headersOf (wholeProgram ev p n s ⟨.decompile inputs, test, noTesting⟩ true).1 = inputs) := by
  unfold wholeProgram
  cases givenTests p test {} with
  | error e => exact ⟨List.nil_prefix, fun ⟨_, h⟩ => by cases h⟩
  | ok f =>
    dsimp only [liftR]
    simp only [Log.quiet_andThen_ok]
    obtain ⟨_, _, h3, h4, _⟩ := decompileFiles_header ev p n s noTesting inputs f
    exact ⟨h3, h4⟩

/-- C118: the copy of an input file is made before it is looked at, whatever it contains. -/
theorem header_first [Rt] (ev : Calculator) (p : Profile) (n : Nat) (s : Surroundings) (xs ys : List Bytes) (buf : Bytes)
    (test : List Str) (noTesting : Bool) (last : FmpFile)
    (hx : (wholeProgram ev p n s ⟨.decompile xs, test, noTesting⟩ true).2 = .ok last) :
    xs ++ [buf] <+: headersOf (wholeProgram ev p n s ⟨.decompile (xs ++ buf :: ys), test, noTesting⟩ true).1 := by
  unfold wholeProgram at hx ⊢
  cases hgt : givenTests p test {} with
  | error e => rw [hgt] at hx; cases hx
  | ok f =>
    rw [hgt] at hx
    dsimp only [liftR] at hx ⊢
    rw [Log.quiet_andThen_ok] at hx ⊢
    rw [decompileFiles_append]
    have hl : (decompileFiles ev p n (laterOrder s (buf :: ys).length) noTesting true xs f).2 = .ok last := by
      rw [(decompileFiles_same ev p n (s := laterOrder s _) (s' := s) rfl noTesting true xs f).2]
      exact hx
    have e1 := (decompileFiles_header ev p n (laterOrder s (buf :: ys).length) noTesting xs f).2.2.2.1 ⟨last, hl⟩
    rw [andThen_fst_ok hl, headersOf_append, e1]
    unfold decompileFiles
    obtain ⟨rest, hr⟩ := first_events (decompileFile ev p n s ys.length noTesting true last buf)
      (fun file => decompileFiles ev p n s noTesting true ys file)
    rw [hr, decompileFile_rest]
    exact ⟨headersOf ((decompileRest ev p n s ys.length noTesting last buf).1 ++ rest), by
      rw [List.append_assoc]; congr 1⟩

/-! ### C119 -/

/-- C119 (partial): after the decompiler has ended, the JSON file shows what was found in the last input file. Missing: the input files
before it; what was shown of them is overwritten, see `each_input_shown_refuted`. -/
theorem last_input_shown_partial [Rt] (ev : Calculator) (p : Profile) (n : Nat) (s : Surroundings) (hs : s.inspectDir = true) (hf : Fair s)
    (inputs : List Bytes) (buf : Bytes) (test : List Str) (noTesting printHeader : Bool) (es : List Event) (last : FmpFile)
    (h : wholeProgram ev p n s ⟨.decompile (inputs ++ [buf]), test, noTesting⟩ printHeader = (es, .ok last)) :
    ∃ text f, remaining t!"inspect_output/test_decompile" es = some text ∧ decompile p buf n = .ok (some f) ∧ Shows text f := by
  have hm := json_changes_nothing ev p n s hs ⟨.decompile (inputs ++ [buf]), test, noTesting⟩ printHeader
  rw [h] at hm
  obtain ⟨given, hg, _⟩ := main_ok (Prod.ext hm.1.symm hm.2.symm)
  obtain ⟨gs, h1, h2, h3, h4⟩ := decompile_json ev p n s hs hf (inputs ++ [buf]) test noTesting printHeader given hg
  rw [h] at h3 h4
  have hl := h4 ⟨last, rfl⟩
  rw [hl, List.take_length] at h2
  obtain ⟨as, g, rfl, a1, a2⟩ : ∃ as g, gs = as ++ [g] ∧ as.length = inputs.length ∧ decompile p buf n = .ok (some g) := by
    clear h1 h3 h4 hl h hm
    unfold Decompiled at h2
    generalize inputs = l at h2
    induction l generalizing gs with
    | nil => cases h2 with | cons a b => cases b; exact ⟨[], _, rfl, rfl, a⟩
    | cons x l ih =>
      cases h2 with
      | cons a b =>
        obtain ⟨as, g, rfl, c1, c2⟩ := ih _ b
        exact ⟨_ :: as, g, rfl, by simp [c1], c2⟩
  have key : ∀ {as : List FmpFile} {ws : List (Str × Str)},
      List.Forall₂ (fun f (e : Str × Str) => e.1 = t!"inspect_output/test_decompile" ∧ Shows e.2 f) (as ++ [g]) ws →
      ∃ vs text, ws = vs ++ [(t!"inspect_output/test_decompile", text)] ∧ Shows text g := by
    intro as
    induction as with
    | nil =>
      intro ws hw
      cases hw with
      | cons a b => cases b; exact ⟨[], _, by rw [← a.1]; rfl, a.2⟩
    | cons x as ih =>
      intro ws hw
      cases hw with
      | cons a b =>
        obtain ⟨vs, text, rfl, c⟩ := ih b
        exact ⟨_ :: vs, text, rfl, c⟩
  obtain ⟨vs, text, hv, ht⟩ := key h3
  refine ⟨text, g, ?_, a2, ht⟩
  unfold remaining
  dsimp only at hv
  rw [hv]
  simp

/-! ### Examples -/

section Example
attribute [local instance] toyRt

/-- Visiting everything in the order of the model, or the tables in the opposite order. -/
def plainOrder : Surroundings := ⟨true, fun _ f => f⟩

def otherOrder : Surroundings := ⟨true, fun _ f => { f with tables := f.tables.reverse }⟩

theorem plainOrder_fair : Fair plainOrder := fun _ _ => ⟨rfl, .refl _, .refl _, .refl _, .refl _, .refl _, .refl _, .refl _, rfl⟩

theorem otherOrder_fair : Fair otherOrder := fun _ f =>
  ⟨rfl, (List.reverse_perm f.tables).symm, .refl _, .refl _, .refl _, .refl _, .refl _, .refl _, rfl⟩

/-- A file and its text. -/
example : inspectText { name := t!"a\"b\n", layouts := [(2, { name := t!"L\x1f", tableOccurrence := 17 })] } =
    t!"{\n  \"name\": \"a\\\"b\\n\",\n  \"tables\": {},\n  \"relationships\": {},\n  \"layouts\": {\n    \"2\": {\n      \"layout_name\": \"L\\u001f\",\n      \"table_occurrence\": 17,\n      \"created_by_account\": \"\",\n      \"create_by_user\": \"\"\n    }\n  },\n  \"value_lists\": {},\n  \"scripts\": {},\n  \"table_occurrences\": {},\n  \"data_sources\": {},\n  \"tests\": []\n}" := by
  decide +kernel

/-- A program with two tables. -/
def twoTableText : Str := t!"table A:\nend table;\ntable B:\nend table;\n"

theorem twoTableText_compiles (p : Profile) : compileBurn p twoTableText = .ok { tables := [(1, { name := t!"A" }), (2, { name := t!"B" })] } := by
  cases p <;> decide +kernel

/-- C116 is false: the same program, compiled twice, gives different JSON files. -/
theorem json_same_text_refuted (ev : Calculator) (p : Profile) (n : Nat) : ∃ s s' args, s.inspectDir = true ∧ s'.inspectDir = true ∧
    Fair s ∧ Fair s' ∧ inspectedOf (wholeProgram ev p n s args false).1 ≠ inspectedOf (wholeProgram ev p n s' args false).1 := by
  refine ⟨plainOrder, otherOrder, ⟨.compile [(t!"a.burn", twoTableText)], [], true⟩, rfl, rfl, plainOrder_fair, otherOrder_fair, ?_⟩
  have one : ∀ s : Surroundings, s.inspectDir = true → inspectedOf (wholeProgram ev p n s ⟨.compile [(t!"a.burn", twoTableText)], [], true⟩ false).1 =
      [(t!"inspect_output/test_compile", inspectText (s.order 0 { name := t!"a", tables := [(1, { name := t!"A" }), (2, { name := t!"B" })] }))] := by
    intro s hs
    have e : inspectedOf (wholeProgram ev p n s ⟨.compile [(t!"a.burn", twoTableText)], [], true⟩ false).1 =
        inspectedOf (compileFile ev p n s 0 true {} t!"a.burn" twoTableText).1 := by
      have g : givenTests p [] {} = .ok {} := rfl
      unfold wholeProgram
      dsimp only
      rw [g]
      dsimp only [liftR]
      rw [Log.quiet_andThen_ok]
      unfold compileFiles
      exact Log.andThen_inspected fun _ => rfl
    have hF : ({ FmpFile.merge {} { tables := [(1, { name := t!"A" }), (2, { name := t!"B" })] } with name := t!"a" } : FmpFile) =
        { name := t!"a", tables := [(1, { name := t!"A" }), (2, { name := t!"B" })] } := by decide
    rw [e, ← hF]
    exact compileFile_written hs 0 true {} _ t!"a" twoTableText (twoTableText_compiles p)
  rw [one _ rfl, one _ rfl]
  intro h
  have ht : inspectText (plainOrder.order 0 { name := t!"a", tables := [(1, { name := t!"A" }), (2, { name := t!"B" })] }) =
      inspectText (otherOrder.order 0 { name := t!"a", tables := [(1, { name := t!"A" }), (2, { name := t!"B" })] }) :=
    (Prod.mk.inj (List.cons.inj h).1).2
  have r1 := inspectText_read _ (pretty_text 0 (plainOrder.order 0 { name := t!"a", tables := [(1, { name := t!"A" }), (2, { name := t!"B" })] }).json)
  have r2 := inspectText_read (otherOrder.order 0 { name := t!"a", tables := [(1, { name := t!"A" }), (2, { name := t!"B" })] }) (by
    rw [← ht]; exact pretty_text 0 _)
  rw [r1] at r2
  have := congrArg (fun f => f.tables.map (·.1)) (Option.some.inj r2)
  exact absurd this (by decide)

/-- The run of `example_run`: with the directory both outputs are written, without it none. -/
example (ev : Calculator) (p : Profile) : ∃ args last,
    (wholeProgram ev p 5 plainOrder args false).2 = .ok last ∧ (outputsOf (actionsOf (wholeProgram ev p 5 plainOrder args false).1)).length = 2 ∧
    (∃ e, (wholeProgram ev p 5 { plainOrder with inspectDir := false } args false).2 = .error e) ∧
    actionsOf (wholeProgram ev p 5 { plainOrder with inspectDir := false } args false).1 = [] := by
  obtain ⟨b₁, b₂, last, h⟩ := example_run ev p
  refine ⟨⟨.compile [(t!"a.burn", testText), (t!"b.burn", testText)], [], false⟩, last, ?_, ?_, ?_⟩
  · rw [(json_changes_nothing ev p 5 plainOrder rfl _ false).2, h]
  · rw [(json_changes_nothing ev p 5 plainOrder rfl _ false).1, h]; rfl
  · have := needs_directory ev p 5 { plainOrder with inspectDir := false } rfl
      ⟨.compile [(t!"a.burn", testText), (t!"b.burn", testText)], [], false⟩ false (by simp)
    exact ⟨this.1, this.2.1⟩

theorem shows_tables {text : Str} {f g : FmpFile} (hf : Shows text f) (hg : Shows text g) : f.tables.length = g.tables.length := by
  obtain ⟨v, h1, _, a, h3, h4⟩ := hf
  obtain ⟨w, g1, g2, b, g3, g4⟩ := hg
  cases g2 v h1
  rw [h3] at g3
  cases g3
  obtain ⟨ts, p1, p2⟩ := h4.tables
  obtain ⟨us, q1, q2⟩ := g4.tables
  rw [p1.length_eq, p2.length_eq, q1.length_eq, q2.length_eq]

attribute [local irreducible] assemble

/-- A run of the decompiler with two input files. -/
theorem example_two_files (ev : Calculator) (p : Profile) : ∃ n buf last es,
    wholeProgram ev p n plainOrder ⟨.decompile ([itemFile exampleItems] ++ [buf]), [], false⟩ true = (es, .ok last) ∧
      decompile p (itemFile exampleItems) n = .ok (some exampleFile.file) ∧ decompile p buf n = .ok (some {}) := by
  obtain ⟨buf, h1⟩ := testsOnly_assemble p [] t!"a" (by decide)
  obtain ⟨n, h2⟩ := assembled_schema_lost p p _ buf (by constructor <;> simp) h1
  obtain ⟨m, h3⟩ := file_recovered_partial p _ _ _ exampleFile_ok.1 exampleFile_ok.2.1 exampleFile_ok.2.2
  have d1 := h3 (n + m) (by omega)
  have d2 := h2 (n + m) (by omega)
  have hr : ∃ last, (wholeProgram ev p (n + m) plainOrder ⟨.decompile ([itemFile exampleItems] ++ [buf]), [], false⟩ true).2 = .ok last := by
    rw [(json_changes_nothing ev p (n + m) plainOrder rfl _ true).2]
    have e1 : ∀ f : FmpFile, f.tests = [] → decompileInput ev p (n + m) false f (itemFile exampleItems) = ([], .ok (f.merge exampleFile.file)) := by
      intro f hf
      unfold decompileInput
      rw [d1]
      have : (f.merge exampleFile.file).tests = [] := by simp [FmpFile.merge, hf, decompile_tests d1]
      refine Trace.andThen_pair (as := []) rfl (Trace.andThen_pair (a := ()) (as := []) (bs := []) ?_ rfl)
      simp [maybeTest, this]
    have e2 : ∀ f : FmpFile, f.tests = [] → decompileInput ev p (n + m) false f buf = ([], .ok (f.merge {})) := by
      intro f hf
      unfold decompileInput
      rw [d2]
      refine Trace.andThen_pair (as := []) rfl (Trace.andThen_pair (a := ()) (as := []) (bs := []) ?_ rfl)
      simp [maybeTest, FmpFile.merge, hf]
    refine ⟨(FmpFile.merge {} exampleFile.file).merge {}, ?_⟩
    have : (FmpFile.merge {} exampleFile.file).tests = [] := by simp [FmpFile.merge, decompile_tests d1]
    have g : givenTests p [] {} = .ok {} := rfl
    have hm : mainProgram ev p (n + m) ⟨.decompile ([itemFile exampleItems] ++ [buf]), [], false⟩ =
        decompileInputs ev p (n + m) false ([itemFile exampleItems] ++ [buf]) {} := by
      unfold mainProgram
      dsimp only
      rw [g]
      dsimp only [liftR, Trace.quiet]
      rw [Trace.andThen_of_ok, List.nil_append]
    rw [hm, List.singleton_append]
    unfold decompileInputs
    rw [e1 {} rfl, Trace.andThen_of_ok]
    unfold decompileInputs
    rw [e2 _ this, Trace.andThen_of_ok]
    rfl
  obtain ⟨last, hr⟩ := hr
  rcases hw : wholeProgram ev p (n + m) plainOrder ⟨.decompile ([itemFile exampleItems] ++ [buf]), [], false⟩ true with ⟨es, r⟩
  rw [hw] at hr
  dsimp only at hr
  subst hr
  exact ⟨n + m, buf, last, es, hw, d1, d2⟩

/-- C119 is false: of two input files only the second one is shown at the end. -/
theorem each_input_shown_refuted (ev : Calculator) (p : Profile) : ∃ n s inputs es last, s.inspectDir = true ∧ Fair s ∧
    wholeProgram ev p n s ⟨.decompile inputs, [], false⟩ true = (es, .ok last) ∧
    ∃ buf ∈ inputs, ∃ f, decompile p buf n = .ok (some f) ∧ ∀ path text, remaining path es = some text → ¬Shows text f := by
  obtain ⟨n, buf, last, es, h, d1, d2⟩ := example_two_files ev p
  have hl : exampleFile.file.tables.length = 1 := by decide +kernel
  generalize exampleFile.file = ef at d1 hl
  generalize itemFile exampleItems = first at h d1
  refine ⟨n, plainOrder, _, es, last, rfl, plainOrder_fair, h, first, List.mem_append_left _ (List.mem_singleton.mpr rfl), ef, d1, ?_⟩
  obtain ⟨t, g, h1, h2, h3⟩ := last_input_shown_partial ev p n plainOrder rfl plainOrder_fair _ _ _ _ _ _ _ h
  rw [d2] at h2
  cases h2
  intro path text ht hs
  by_cases hp : path = t!"inspect_output/test_decompile"
  · subst hp
    rw [h1] at ht
    cases ht
    have := shows_tables h3 hs
    rw [hl] at this
    cases this
  · obtain ⟨gs, _, _, c3, _⟩ := decompile_json ev p n plainOrder rfl plainOrder_fair ([first] ++ [buf]) [] false true [] .nil
    rw [h] at c3
    dsimp only at c3
    have all : ∀ e ∈ inspectedOf es, e.1 = t!"inspect_output/test_decompile" := by
      intro e he
      obtain ⟨i, hi, rfl⟩ := List.mem_iff_getElem.mp he
      have := List.forall₂_iff_get.mp c3
      exact (this.2 i (by omega) hi).1
    have : (inspectedOf es).filter (fun e => e.1 == path) = [] := by
      rw [List.filter_eq_nil_iff]
      intro e he
      rw [all e he]
      simpa using fun h => hp h.symm
    unfold remaining at ht
    rw [this] at ht
    cases ht

end Example

end BurnFm.Props
