import Verif.Spec.Inspect
import Verif.Proofs.JsonRead
import Verif.Proofs.Main

/-! Lemmas about the whole program with everything it writes. -/

namespace BurnFm
open Spec

/-! ### Texts -/

theorem inspectText_read (f : FmpFile) {v : Json} (h : JsonText v (inspectText f)) :
    readFile v = some { f with tables := f.tables.map fun e => (e.1, { e.2 with fields := sortByKey e.2.fields }) } := by
  rw [json_unambiguous h (pretty_text 0 f.json)]
  exact readFile_json f

theorem sorted_sameFields : ∀ l : HMap FTable,
    List.Forall₂ SameFields l (l.map fun e => (e.1, { e.2 with fields := sortByKey e.2.fields }))
  | [] => .nil
  | e :: l => .cons ⟨rfl, rfl, rfl, (List.mergeSort_perm _ _).symm⟩ (sorted_sameFields l)

theorem inspectText_shows {f g : FmpFile} (h : Reordered f g) : Shows (inspectText g) f :=
  ⟨g.json, pretty_text 0 g.json, fun _ hv => json_unambiguous hv (pretty_text 0 g.json), _, readFile_json g,
    ⟨h.name, ⟨g.tables, h.tables, sorted_sameFields _⟩, h.relationships, h.layouts, h.valueLists, h.scripts, h.tableOccurrences,
      h.dataSources, h.tests⟩⟩

/-! ### Logs -/

theorem actionsOf_append (a b : List Event) : actionsOf (a ++ b) = actionsOf a ++ actionsOf b := by simp [actionsOf, List.filterMap_append]

theorem inspectedOf_append (a b : List Event) : inspectedOf (a ++ b) = inspectedOf a ++ inspectedOf b := by
  simp [inspectedOf, List.filterMap_append]

theorem headersOf_append (a b : List Event) : headersOf (a ++ b) = headersOf a ++ headersOf b := by simp [headersOf, List.filterMap_append]

theorem actionsOf_acted (as : List Action) : actionsOf (as.map .acted) = as := by
  induction as with
  | nil => rfl
  | cons a as ih => simp only [actionsOf, List.map_cons, List.filterMap_cons] at ih ⊢; rw [ih]

theorem inspectedOf_acted (as : List Action) : inspectedOf (as.map .acted) = [] := by
  induction as with
  | nil => rfl
  | cons a as ih => simp only [inspectedOf, List.map_cons, List.filterMap_cons] at ih ⊢; rw [ih]

theorem headersOf_acted (as : List Action) : headersOf (as.map .acted) = [] := by
  induction as with
  | nil => rfl
  | cons a as ih => simp only [headersOf, List.map_cons, List.filterMap_cons] at ih ⊢; rw [ih]

theorem Log.andThen_of_ok {α β : Type} {a : α} {es : List Event} {f : α → Log β} :
    Log.andThen (es, .ok a) f = (es ++ (f a).1, (f a).2) := rfl

theorem Log.andThen_of_error {α β : Type} {e : Stop} {es : List Event} {f : α → Log β} :
    Log.andThen (es, .error e) f = (es, .error e) := rfl

theorem Log.quiet_andThen_ok {α β : Type} {a : α} {f : α → Log β} : (Log.quiet (.ok a)).andThen f = f a := by
  simp [Log.quiet, Log.andThen]

theorem Log.quiet_andThen_error {α β : Type} {e : Stop} {f : α → Log β} : (Log.quiet (.error e)).andThen f = ([], .error e) := rfl

/-! ### The actions are those of the program without the JSON files -/

/-- The same actions and the same end. -/
def Agrees {α : Type} (l : Log α) (t : Trace α) : Prop := actionsOf l.1 = t.1 ∧ l.2 = t.2

theorem Agrees.andThen {α β : Type} {l : Log α} {t : Trace α} {f : α → Log β} {g : α → Trace β} (h : Agrees l t)
    (hf : ∀ a, Agrees (f a) (g a)) : Agrees (l.andThen f) (t.andThen g) := by
  obtain ⟨es, r⟩ := l
  obtain ⟨as, r'⟩ := t
  obtain ⟨h1, h2⟩ := h
  dsimp only at h1 h2
  subst h2
  cases r with
  | error e => exact ⟨h1, rfl⟩
  | ok a =>
    rw [Log.andThen_of_ok, Trace.andThen_of_ok]
    exact ⟨by rw [actionsOf_append, h1, (hf a).1], (hf a).2⟩

theorem Agrees.skip {α β : Type} {es : List Event} {a : α} {f : α → Log β} {t : Trace β} (h : actionsOf es = []) (hf : Agrees (f a) t) :
    Agrees (Log.andThen (es, .ok a) f) t := by
  rw [Log.andThen_of_ok]
  exact ⟨by rw [actionsOf_append, h, hf.1]; rfl, hf.2⟩

theorem Agrees.quiet {α : Type} (r : Ev α) : Agrees (Log.quiet r) (Trace.quiet r) := ⟨rfl, rfl⟩

theorem Agrees.of {α : Type} (t : Trace α) : Agrees (Log.of t) t := ⟨actionsOf_acted _, rfl⟩

theorem writeInspect_on {s : Surroundings} (hs : s.inspectDir = true) (i : Nat) (path : Str) (f : FmpFile) :
    writeInspect s i path f = ([.inspected path (inspectText (s.order i f))], .ok ()) := by
  simp [writeInspect, hs]

theorem writeInspect_off {s : Surroundings} (hs : s.inspectDir = false) (i : Nat) (path : Str) (f : FmpFile) :
    writeInspect s i path f = ([], .error (.panic .unwrap)) := by
  simp [writeInspect, hs]

theorem compileFile_agrees [Rt] {ev : Calculator} {p : Profile} {n : Nat} {s : Surroundings} (hs : s.inspectDir = true) (i : Nat)
    (noTesting : Bool) (file : FmpFile) (name text : Str) :
    Agrees (compileFile ev p n s i noTesting file name text) (compileInput ev p n noTesting file name text) := by
  unfold compileFile compileInput
  refine (Agrees.quiet _).andThen fun f => ?_
  rw [writeInspect_on hs]
  refine .skip rfl ?_
  exact (Agrees.of _).andThen fun _ => (Agrees.quiet _).andThen fun _ => ⟨rfl, rfl⟩

theorem compileFiles_agrees [Rt] {ev : Calculator} {p : Profile} {n : Nat} {s : Surroundings} (hs : s.inspectDir = true)
    (noTesting : Bool) : ∀ (inputs : List (Str × Str)) (file : FmpFile),
    Agrees (compileFiles ev p n s noTesting inputs file) (compileInputs ev p n noTesting inputs file)
  | [], _ => ⟨rfl, rfl⟩
  | (_, _) :: rest, _ => (compileFile_agrees hs ..).andThen fun f => compileFiles_agrees hs noTesting rest f

theorem decompileFile_agrees {ev : Calculator} {p : Profile} {n : Nat} {s : Surroundings} (hs : s.inspectDir = true) (i : Nat)
    (noTesting printHeader : Bool) (file : FmpFile) (buf : Bytes) :
    Agrees (decompileFile ev p n s i noTesting printHeader file buf) (decompileInput ev p n noTesting file buf) := by
  unfold decompileFile decompileInput writeHeader
  refine .skip (by cases printHeader <;> rfl) ?_
  rcases decompile p buf n with e | _ | tmp
  · exact ⟨rfl, rfl⟩
  · exact ⟨rfl, rfl⟩
  · dsimp only
    rw [Log.quiet_andThen_ok, writeInspect_on hs]
    refine .skip rfl ?_
    show Agrees _ (Trace.andThen ([], .ok _) _)
    rw [Trace.andThen_of_ok]
    exact (Agrees.of (maybeTest ev p n noTesting (file.merge tmp))).andThen fun _ => ⟨rfl, rfl⟩

theorem decompileFiles_agrees {ev : Calculator} {p : Profile} {n : Nat} {s : Surroundings} (hs : s.inspectDir = true)
    (noTesting printHeader : Bool) : ∀ (inputs : List Bytes) (file : FmpFile),
    Agrees (decompileFiles ev p n s noTesting printHeader inputs file) (decompileInputs ev p n noTesting inputs file)
  | [], _ => ⟨rfl, rfl⟩
  | _ :: rest, _ => (decompileFile_agrees hs ..).andThen fun f => decompileFiles_agrees hs noTesting printHeader rest f

/-! ### The JSON files -/

/-- What is shown while compiling: after each input file, the components so far. -/
inductive Chain [Rt] (p : Profile) : List (Str × Str) → FmpFile → List FmpFile → List Str → List FmpFile → Prop
  | nil {inputs : List (Str × Str)} {f : FmpFile} : Chain p inputs f [] [] []
  | cons {text base : Str} {rest : List (Str × Str)} {g f : FmpFile} {gs snaps : List FmpFile} {bases : List Str} :
      compileBurn p text = .ok g → Chain p rest { f.merge g with name := base } gs bases snaps →
      Chain p ((base ++ t!".burn", text) :: rest) f (g :: gs) (base :: bases) ({ f.merge g with name := base } :: snaps)

theorem Chain.spec [Rt] {p : Profile} {inputs : List (Str × Str)} {gs snaps : List FmpFile} {bases : List Str} {f : FmpFile}
    (h : Chain p inputs f gs bases snaps) :
    gs.length ≤ inputs.length ∧ Compiled p ((inputs.take gs.length).map (·.2)) gs ∧
    (inputs.take gs.length).map (·.1) = bases.map (· ++ t!".burn") ∧
    snaps = bases.zipIdx.map (fun e => { (gs.take (e.2 + 1)).foldl FmpFile.merge f with name := e.1 }) := by
  induction h with
  | nil => exact ⟨Nat.zero_le _, by simpa using .nil, by simp, rfl⟩
  | @cons text base rest g f gs snaps bases h1 _ ih =>
    obtain ⟨i1, i2, i3, i4⟩ := ih
    refine ⟨by simpa using i1, .cons h1 i2, by simpa using i3, ?_⟩
    have hm : ∀ (l : List FmpFile) (f : FmpFile) (x : Str),
        l.foldl FmpFile.merge { f with name := x } = { l.foldl FmpFile.merge f with name := x } := by
      intro l
      induction l with
      | nil => intro f x; rfl
      | cons y l ih => intro f x; exact ih (f.merge y) x
    rw [i4, List.zipIdx_cons, List.map_cons, List.zipIdx_succ, List.map_map]
    congr 1
    apply List.map_congr_left
    rintro ⟨x, i⟩ _
    dsimp only [Function.comp]
    rw [List.take_succ_cons, List.foldl_cons, hm]

/-- The JSON files of these files. -/
def Written (s : Surroundings) (path : Str) (fs : List FmpFile) (es : List (Str × Str)) : Prop :=
  List.Forall₂ (fun f (e : Str × Str) => e.1 = path ∧ ∃ i, e.2 = inspectText (s.order i f)) fs es

theorem Log.andThen_inspected {α β : Type} {l : Log α} {f : α → Log β} (h : ∀ a, inspectedOf (f a).1 = []) :
    inspectedOf (l.andThen f).1 = inspectedOf l.1 := by
  obtain ⟨es, r⟩ := l
  cases r with
  | error e => rfl
  | ok a => rw [Log.andThen_of_ok]; simp [inspectedOf_append, h]

theorem maybeTest_inspected (ev : Calculator) (p : Profile) (n : Nat) (noTesting : Bool) (f : FmpFile) :
    inspectedOf (Log.of (maybeTest ev p n noTesting f)).1 = [] := inspectedOf_acted _

theorem Log.andThen_value {α β : Type} {l : Log α} {f : α → Log β} {b c : β} (h : ∀ a r, (f a).2 = .ok r → r = c)
    (hb : (l.andThen f).2 = .ok b) : b = c := by
  obtain ⟨es, r⟩ := l
  cases r with
  | error e => cases hb
  | ok a => exact h a b hb

theorem compileFile_cases [Rt] {ev : Calculator} {p : Profile} {n : Nat} {s : Surroundings} (hs : s.inspectDir = true) (i : Nat)
    (noTesting : Bool) (file : FmpFile) (name text : Str) :
    (∃ e, compileFile ev p n s i noTesting file name text = ([], .error e)) ∨
    ∃ g base, compileBurn p text = .ok g ∧ name = base ++ t!".burn" ∧
      inspectedOf (compileFile ev p n s i noTesting file name text).1 =
        [(t!"inspect_output/test_compile", inspectText (s.order i { file.merge g with name := base }))] ∧
      ∀ f', (compileFile ev p n s i noTesting file name text).2 = .ok f' → f' = { file.merge g with name := base } := by
  unfold compileFile
  cases h1 : compileBurn p text with
  | error e => exact .inl ⟨.panic e, rfl⟩
  | ok g =>
    cases h2 : stripBurn name with
    | none => exact .inl ⟨.panic .unwrap, rfl⟩
    | some base =>
      right
      refine ⟨g, base, rfl, stripBurn_some.mp h2, ?_⟩
      rw [ok_bind]
      dsimp only [unwrap, liftR, pure, Except.pure, bind, Except.bind]
      rw [Log.quiet_andThen_ok, writeInspect_on hs, Log.andThen_of_ok]
      refine ⟨?_, ?_⟩
      · rw [inspectedOf_append, Log.andThen_inspected, maybeTest_inspected]
        · rfl
        · intro _
          rw [Log.andThen_inspected]
          · rfl
          · intro _; rfl
      · intro f' hf
        refine Log.andThen_value (fun _ r hr => Log.andThen_value (fun _ r hr => ?_) hr) hf
        cases hr; rfl

theorem compileFile_written [Rt] {ev : Calculator} {p : Profile} {n : Nat} {s : Surroundings} (hs : s.inspectDir = true) (i : Nat)
    (noTesting : Bool) (file g : FmpFile) (base text : Str) (hg : compileBurn p text = .ok g) :
    inspectedOf (compileFile ev p n s i noTesting file (base ++ t!".burn") text).1 =
      [(t!"inspect_output/test_compile", inspectText (s.order i { file.merge g with name := base }))] := by
  unfold compileFile
  rw [hg, stripBurn_some.mpr rfl, ok_bind]
  dsimp only [unwrap, liftR, pure, Except.pure, bind, Except.bind]
  rw [Log.quiet_andThen_ok, writeInspect_on hs, Log.andThen_of_ok, inspectedOf_append, Log.andThen_inspected, maybeTest_inspected]
  · rfl
  · intro _
    rw [Log.andThen_inspected]
    · rfl
    · intro _; rfl

theorem compileFiles_written [Rt] {ev : Calculator} {p : Profile} {n : Nat} {s : Surroundings} (hs : s.inspectDir = true)
    (noTesting : Bool) : ∀ (inputs : List (Str × Str)) (file : FmpFile), ∃ gs bases snaps, Chain p inputs file gs bases snaps ∧
    Written s t!"inspect_output/test_compile" snaps (inspectedOf (compileFiles ev p n s noTesting inputs file).1) ∧
    ∀ last, (compileFiles ev p n s noTesting inputs file).2 = .ok last → gs.length = inputs.length
  | [], file => ⟨[], [], [], .nil, .nil, fun _ _ => rfl⟩
  | (name, text) :: rest, file => by
    unfold compileFiles
    rcases compileFile_cases (ev := ev) (p := p) (n := n) hs rest.length noTesting file name text with ⟨e, h⟩ | ⟨g, base, h1, rfl, h3, h4⟩
    · rw [h]
      exact ⟨[], [], [], .nil, .nil, fun _ hl => by cases hl⟩
    · rcases hc : compileFile ev p n s rest.length noTesting file (base ++ t!".burn") text with ⟨es, r⟩
      rw [hc] at h3 h4
      cases r with
      | error e =>
        refine ⟨[g], [base], [{ file.merge g with name := base }], .cons h1 .nil, ?_, fun _ hl => by cases hl⟩
        rw [Log.andThen_of_error]
        dsimp only at h3 ⊢
        rw [h3]
        exact .cons ⟨rfl, _, rfl⟩ .nil
      | ok f' =>
        cases h4 f' rfl
        obtain ⟨gs, bases, snaps, i1, i2, i3⟩ := compileFiles_written (ev := ev) (p := p) (n := n) hs noTesting rest
          { file.merge g with name := base }
        refine ⟨g :: gs, base :: bases, _ :: snaps, .cons h1 i1, ?_, ?_⟩
        · rw [Log.andThen_of_ok, inspectedOf_append]
          dsimp only at h3 ⊢
          rw [h3]
          exact .cons ⟨rfl, _, rfl⟩ i2
        · intro last hl
          simp [i3 last hl]

theorem decompileFile_cases {ev : Calculator} {p : Profile} {n : Nat} {s : Surroundings} (hs : s.inspectDir = true) (i : Nat)
    (noTesting printHeader : Bool) (file : FmpFile) (buf : Bytes) :
    (inspectedOf (decompileFile ev p n s i noTesting printHeader file buf).1 = [] ∧
      ∃ e, (decompileFile ev p n s i noTesting printHeader file buf).2 = .error e) ∨
    ∃ g, decompile p buf n = .ok (some g) ∧
      inspectedOf (decompileFile ev p n s i noTesting printHeader file buf).1 =
        [(t!"inspect_output/test_decompile", inspectText (s.order i g))] := by
  have hh : inspectedOf (if printHeader then [Event.header buf] else []) = [] := by cases printHeader <;> rfl
  unfold decompileFile writeHeader
  rw [Log.andThen_of_ok]
  dsimp only
  rw [inspectedOf_append, hh, List.nil_append]
  rcases hd : decompile p buf n with e | _ | tmp
  · exact .inl ⟨rfl, _, rfl⟩
  · exact .inl ⟨rfl, _, rfl⟩
  · right
    refine ⟨tmp, rfl, ?_⟩
    dsimp only
    rw [Log.quiet_andThen_ok, writeInspect_on hs, Log.andThen_of_ok, inspectedOf_append, Log.andThen_inspected, maybeTest_inspected]
    · rfl
    · intro _; rfl

theorem decompileFile_written {ev : Calculator} {p : Profile} {n : Nat} {s : Surroundings} (hs : s.inspectDir = true) (i : Nat)
    (noTesting printHeader : Bool) (file : FmpFile) {buf : Bytes} {g : FmpFile} (hg : decompile p buf n = .ok (some g)) :
    inspectedOf (decompileFile ev p n s i noTesting printHeader file buf).1 =
      [(t!"inspect_output/test_decompile", inspectText (s.order i g))] := by
  have hh : inspectedOf (if printHeader then [Event.header buf] else []) = [] := by cases printHeader <;> rfl
  unfold decompileFile writeHeader
  rw [Log.andThen_of_ok]
  dsimp only
  rw [inspectedOf_append, hh, List.nil_append, hg]
  dsimp only
  rw [Log.quiet_andThen_ok, writeInspect_on hs, Log.andThen_of_ok, inspectedOf_append, Log.andThen_inspected, maybeTest_inspected]
  · rfl
  · intro _; rfl

theorem decompileFiles_written {ev : Calculator} {p : Profile} {n : Nat} {s : Surroundings} (hs : s.inspectDir = true)
    (noTesting printHeader : Bool) : ∀ (inputs : List Bytes) (file : FmpFile), ∃ gs, gs.length ≤ inputs.length ∧
    Decompiled p n (inputs.take gs.length) gs ∧
    Written s t!"inspect_output/test_decompile" gs (inspectedOf (decompileFiles ev p n s noTesting printHeader inputs file).1) ∧
    ∀ last, (decompileFiles ev p n s noTesting printHeader inputs file).2 = .ok last → gs.length = inputs.length
  | [], file => ⟨[], Nat.zero_le _, .nil, .nil, fun _ _ => rfl⟩
  | buf :: rest, file => by
    unfold decompileFiles
    rcases decompileFile_cases (ev := ev) (p := p) (n := n) hs rest.length noTesting printHeader file buf with ⟨h, e, he⟩ | ⟨g, h1, h3⟩
    · rcases hc : decompileFile ev p n s rest.length noTesting printHeader file buf with ⟨es, r⟩
      rw [hc] at h he
      dsimp only at h he
      subst he
      refine ⟨[], Nat.zero_le _, .nil, ?_, fun _ hl => by cases hl⟩
      rw [Log.andThen_of_error]
      dsimp only
      rw [h]
      exact .nil
    · rcases hc : decompileFile ev p n s rest.length noTesting printHeader file buf with ⟨es, r⟩
      rw [hc] at h3
      cases r with
      | error e =>
        refine ⟨[g], by simp, .cons h1 .nil, ?_, fun _ hl => by cases hl⟩
        rw [Log.andThen_of_error]
        dsimp only at h3 ⊢
        rw [h3]
        exact .cons ⟨rfl, _, rfl⟩ .nil
      | ok f' =>
        obtain ⟨gs, i0, i1, i2, i3⟩ := decompileFiles_written (ev := ev) (p := p) (n := n) hs noTesting printHeader rest f'
        refine ⟨g :: gs, by simpa using i0, .cons h1 i1, ?_, ?_⟩
        · rw [Log.andThen_of_ok, inspectedOf_append]
          dsimp only at h3 ⊢
          rw [h3]
          exact .cons ⟨rfl, _, rfl⟩ i2
        · intro last hl
          simp [i3 last hl]

theorem Written.shows {s : Surroundings} (hs : Fair s) {path : Str} {fs : List FmpFile} {es : List (Str × Str)} (h : Written s path fs es) :
    List.Forall₂ (fun f (e : Str × Str) => e.1 = path ∧ Shows e.2 f) fs es := by
  refine List.Forall₂.imp ?_ h
  rintro f ⟨q, t⟩ ⟨h1, i, h2⟩
  dsimp only at h1 h2
  subst h1 h2
  exact ⟨rfl, inspectText_shows (hs i f)⟩

/-! ### `header.log` -/

theorem withoutHeaders_append (a b : List Event) : withoutHeaders (a ++ b) = withoutHeaders a ++ withoutHeaders b := by
  simp [withoutHeaders]

/-- What follows the header when a file is decompiled. -/
def decompileRest (ev : Calculator) (p : Profile) (n : Nat) (s : Surroundings) (i : Nat) (noTesting : Bool) (file : FmpFile) (buf : Bytes) :
    Log FmpFile :=
  (Log.quiet (match decompile p buf n with
    | .ok (some tmp) => .ok tmp
    | .ok none => .error .fuel
    | .error e => .error (.panic e))).andThen fun tmp =>
  (writeInspect s i t!"inspect_output/test_decompile" tmp).andThen fun _ =>
  (Log.of (maybeTest ev p n noTesting (file.merge tmp))).andThen fun _ => ([], .ok (file.merge tmp))

theorem decompileFile_rest (ev : Calculator) (p : Profile) (n : Nat) (s : Surroundings) (i : Nat) (noTesting printHeader : Bool)
    (file : FmpFile) (buf : Bytes) : decompileFile ev p n s i noTesting printHeader file buf =
      ((if printHeader then [Event.header buf] else []) ++ (decompileRest ev p n s i noTesting file buf).1,
        (decompileRest ev p n s i noTesting file buf).2) := rfl

/-- No event is one for `header.log`. -/
def NoHeader (es : List Event) : Prop := ∀ e ∈ es, ∀ b, e ≠ .header b

theorem NoHeader.append {a b : List Event} (ha : NoHeader a) (hb : NoHeader b) : NoHeader (a ++ b) := fun e he =>
  (List.mem_append.mp he).elim (ha e) (hb e)

theorem NoHeader.andThen {α β : Type} {l : Log α} {f : α → Log β} (hl : NoHeader l.1) (hf : ∀ a, NoHeader (f a).1) :
    NoHeader (l.andThen f).1 := by
  obtain ⟨es, r⟩ := l
  cases r with
  | error e => exact hl
  | ok a => exact hl.append (hf a)

theorem NoHeader.nil : NoHeader [] := fun _ he => by cases he

theorem NoHeader.of {α : Type} (t : Trace α) : NoHeader (Log.of t).1 := by
  intro e he b
  obtain ⟨a, _, rfl⟩ := List.mem_map.mp he
  exact nofun

theorem writeInspect_noHeader (s : Surroundings) (i : Nat) (path : Str) (f : FmpFile) : NoHeader (writeInspect s i path f).1 := by
  unfold writeInspect
  split
  · intro e he b; rw [List.mem_singleton.mp he]; exact nofun
  · exact .nil

theorem NoHeader.without {es : List Event} (h : NoHeader es) : withoutHeaders es = es ∧ headersOf es = [] := by
  induction es with
  | nil => exact ⟨rfl, rfl⟩
  | cons e es ih =>
    obtain ⟨i1, i2⟩ := ih fun x hx => h x (List.mem_cons_of_mem _ hx)
    have := h e (by simp)
    unfold withoutHeaders headersOf at *
    cases e with
    | acted a => simp [i1, i2]
    | inspected q t => simp [i1, i2]
    | header b => exact absurd rfl (this b)

theorem decompileRest_noHeader (ev : Calculator) (p : Profile) (n : Nat) (s : Surroundings) (i : Nat) (noTesting : Bool)
    (file : FmpFile) (buf : Bytes) : NoHeader (decompileRest ev p n s i noTesting file buf).1 :=
  .andThen .nil fun _ => .andThen (writeInspect_noHeader _ _ _ _) fun _ => .andThen (.of _) fun _ => .nil

theorem compileFiles_noHeader [Rt] (ev : Calculator) (p : Profile) (n : Nat) (s : Surroundings) (noTesting : Bool) :
    ∀ (inputs : List (Str × Str)) (file : FmpFile), NoHeader (compileFiles ev p n s noTesting inputs file).1
  | [], _ => .nil
  | (name, text) :: rest, file => .andThen
      (.andThen .nil fun _ => .andThen (writeInspect_noHeader _ _ _ _) fun _ => .andThen (.of _) fun _ => .andThen .nil fun _ => by
        intro e he b; rw [List.mem_singleton.mp he]; exact nofun)
      fun f => compileFiles_noHeader ev p n s noTesting rest f

theorem decompileFiles_header (ev : Calculator) (p : Profile) (n : Nat) (s : Surroundings) (noTesting : Bool) :
    ∀ (inputs : List Bytes) (file : FmpFile),
    withoutHeaders (decompileFiles ev p n s noTesting true inputs file).1 = (decompileFiles ev p n s noTesting false inputs file).1 ∧
    (decompileFiles ev p n s noTesting true inputs file).2 = (decompileFiles ev p n s noTesting false inputs file).2 ∧
    headersOf (decompileFiles ev p n s noTesting true inputs file).1 <+: inputs ∧
    ((∃ last, (decompileFiles ev p n s noTesting true inputs file).2 = .ok last) →
      headersOf (decompileFiles ev p n s noTesting true inputs file).1 = inputs) ∧
    headersOf (decompileFiles ev p n s noTesting false inputs file).1 = []
  | [], _ => ⟨rfl, rfl, List.prefix_rfl, fun _ => rfl, rfl⟩
  | buf :: rest, file => by
    have hn := decompileRest_noHeader ev p n s rest.length noTesting file buf
    unfold decompileFiles
    rw [decompileFile_rest, decompileFile_rest]
    rcases hr : decompileRest ev p n s rest.length noTesting file buf with ⟨es, r⟩
    rw [hr] at hn
    obtain ⟨w1, w2⟩ := hn.without
    dsimp only at w1 w2 ⊢
    have e1 : withoutHeaders ([Event.header buf] ++ es) = es := by
      rw [withoutHeaders_append, w1]; rfl
    have e2 : headersOf ([Event.header buf] ++ es) = [buf] := by
      rw [headersOf_append, w2]; rfl
    simp only [if_true, Bool.false_eq_true, if_false, List.nil_append]
    cases r with
    | error e =>
      simp only [Log.andThen_of_error]
      rw [e1, e2]
      exact ⟨rfl, trivial, ⟨rest, rfl⟩, fun ⟨_, h⟩ => (by cases h), w2⟩
    | ok f =>
      obtain ⟨i1, i2, i3, i4, i5⟩ := decompileFiles_header ev p n s noTesting rest f
      simp only [Log.andThen_of_ok]
      rw [withoutHeaders_append, e1, headersOf_append, e2, headersOf_append, w2]
      refine ⟨by rw [i1], i2, ?_, fun h => by rw [i4 h]; rfl, by rw [i5]; rfl⟩
      exact (List.cons_prefix_cons.mpr ⟨rfl, i3⟩)

/-! ### Without the directory -/

theorem compileFiles_stuck [Rt] {ev : Calculator} {p : Profile} {n : Nat} {s : Surroundings} (hs : s.inspectDir = false)
    (noTesting : Bool) {inputs : List (Str × Str)} (hi : inputs ≠ []) (file : FmpFile) :
    ∃ e, compileFiles ev p n s noTesting inputs file = ([], .error e) := by
  cases inputs with
  | nil => exact absurd rfl hi
  | cons x rest =>
    obtain ⟨name, text⟩ := x
    unfold compileFiles compileFile
    simp only [writeInspect_off hs, Log.andThen_of_error]
    generalize (liftR (do
      let tmp ← compileBurn p text
      let base ← unwrap (stripBurn name)
      pure { file.merge tmp with name := base })) = r
    cases r with
    | error e => exact ⟨e, rfl⟩
    | ok f => exact ⟨_, rfl⟩

theorem decompileFiles_stuck {ev : Calculator} {p : Profile} {n : Nat} {s : Surroundings} (hs : s.inspectDir = false)
    (noTesting printHeader : Bool) {inputs : List Bytes} (hi : inputs ≠ []) (file : FmpFile) :
    ∃ e, (decompileFiles ev p n s noTesting printHeader inputs file).2 = .error e ∧
      actionsOf (decompileFiles ev p n s noTesting printHeader inputs file).1 = [] ∧
      inspectedOf (decompileFiles ev p n s noTesting printHeader inputs file).1 = [] := by
  cases inputs with
  | nil => exact absurd rfl hi
  | cons buf rest =>
    unfold decompileFiles
    rw [decompileFile_rest]
    have : ∃ e, decompileRest ev p n s rest.length noTesting file buf = ([], .error e) := by
      unfold decompileRest
      simp only [writeInspect_off hs, Log.andThen_of_error]
      rcases decompile p buf n with e | _ | tmp <;> exact ⟨_, rfl⟩
    obtain ⟨e, he⟩ := this
    rw [he]
    refine ⟨e, rfl, ?_, ?_⟩ <;> cases printHeader <;> rfl

theorem givenTests_compiled [Rt] {p : Profile} : ∀ {texts : List Str} {gs : List FmpFile} {f : FmpFile}, Compiled p texts gs →
    givenTests p texts f = .ok { f with tests := f.tests ++ gs.flatMap (·.tests) }
  | _, _, f, .nil => by simp [givenTests, pure, Except.pure]
  | _, _, f, .cons (b := g) h1 h2 => by
    unfold givenTests
    rw [h1, ok_bind, givenTests_compiled h2]
    simp

/-! ### Two runs with different orders -/

/-- Events that differ at most in the order of the maps. -/
inductive SameEvent (s s' : Surroundings) : Event → Event → Prop
  | acted (a : Action) : SameEvent s s' (.acted a) (.acted a)
  | header (b : Bytes) : SameEvent s s' (.header b) (.header b)
  | inspected (path : Str) (i : Nat) (f : FmpFile) :
      SameEvent s s' (.inspected path (inspectText (s.order i f))) (.inspected path (inspectText (s'.order i f)))

/-- Logs that differ at most in the order of the maps. -/
def SameLog {α : Type} (s s' : Surroundings) (l l' : Log α) : Prop := List.Forall₂ (SameEvent s s') l.1 l'.1 ∧ l.2 = l'.2

theorem SameLog.andThen {α β : Type} {s s' : Surroundings} {l l' : Log α} {f g : α → Log β} (h : SameLog s s' l l')
    (hf : ∀ a, SameLog s s' (f a) (g a)) : SameLog s s' (l.andThen f) (l'.andThen g) := by
  obtain ⟨es, r⟩ := l
  obtain ⟨es', r'⟩ := l'
  obtain ⟨h1, h2⟩ := h
  dsimp only at h1 h2
  subst h2
  cases r with
  | error e => exact ⟨h1, rfl⟩
  | ok a => exact ⟨List.rel_append h1 (hf a).1, (hf a).2⟩

theorem SameLog.quiet {α : Type} {s s' : Surroundings} (r : Ev α) : SameLog s s' (Log.quiet r) (Log.quiet r) := ⟨.nil, rfl⟩

theorem SameLog.of {α : Type} {s s' : Surroundings} (t : Trace α) : SameLog s s' (Log.of t) (Log.of t) := by
  refine ⟨?_, rfl⟩
  unfold Log.of
  dsimp only
  induction t.1 with
  | nil => exact .nil
  | cons a as ih => exact .cons (.acted a) ih

theorem SameLog.writeInspect {s s' : Surroundings} (hs : s.inspectDir = s'.inspectDir) (i : Nat) (path : Str) (f : FmpFile) :
    SameLog s s' (writeInspect s i path f) (writeInspect s' i path f) := by
  cases h : s.inspectDir with
  | true => rw [writeInspect_on h, writeInspect_on (hs ▸ h)]; exact ⟨.cons (.inspected path i f) .nil, rfl⟩
  | false => rw [writeInspect_off h, writeInspect_off (hs ▸ h)]; exact ⟨.nil, rfl⟩

theorem compileFiles_same [Rt] (ev : Calculator) (p : Profile) (n : Nat) {s s' : Surroundings} (hs : s.inspectDir = s'.inspectDir)
    (noTesting : Bool) : ∀ (inputs : List (Str × Str)) (file : FmpFile),
    SameLog s s' (compileFiles ev p n s noTesting inputs file) (compileFiles ev p n s' noTesting inputs file)
  | [], _ => ⟨.nil, rfl⟩
  | (_, _) :: rest, _ => .andThen
      (.andThen (.quiet _) fun _ => .andThen (.writeInspect hs _ _ _) fun _ => .andThen (.of _) fun _ => .andThen (.quiet _) fun _ =>
        ⟨.cons (.acted _) .nil, rfl⟩)
      fun f => compileFiles_same ev p n hs noTesting rest f

theorem decompileFiles_same (ev : Calculator) (p : Profile) (n : Nat) {s s' : Surroundings} (hs : s.inspectDir = s'.inspectDir)
    (noTesting printHeader : Bool) : ∀ (inputs : List Bytes) (file : FmpFile),
    SameLog s s' (decompileFiles ev p n s noTesting printHeader inputs file) (decompileFiles ev p n s' noTesting printHeader inputs file)
  | [], _ => ⟨.nil, rfl⟩
  | buf :: rest, file => .andThen
      (.andThen (l := writeHeader printHeader buf) ⟨by cases printHeader; exact .nil; exact .cons (.header buf) .nil, rfl⟩ fun _ =>
        .andThen (.quiet _) fun _ => .andThen (.writeInspect hs _ _ _) fun _ => .andThen (.of _) fun _ => ⟨.nil, rfl⟩)
      fun f => decompileFiles_same ev p n hs noTesting printHeader rest f

theorem inspected_shows {s s' : Surroundings} (hf : Fair s) (hf' : Fair s') {es es' : List Event} (h : List.Forall₂ (SameEvent s s') es es') :
    List.Forall₂ (fun e e' => e.1 = e'.1 ∧ ∃ f, Shows e.2 f ∧ Shows e'.2 f) (inspectedOf es) (inspectedOf es') := by
  induction h with
  | nil => exact .nil
  | @cons e e' es es' h _ ih =>
    generalize hx : inspectedOf es = xs at ih
    generalize hx' : inspectedOf es' = xs' at ih
    have key : ∀ (e : Event) (es : List Event), inspectedOf (e :: es) = inspectedOf [e] ++ inspectedOf es := fun e es => inspectedOf_append [e] es
    rw [key, key e', hx, hx']
    cases h with
    | acted a => exact ih
    | header b => exact ih
    | inspected path i f => exact .cons ⟨rfl, f, inspectText_shows (hf i f), inspectText_shows (hf' i f)⟩ ih

/-! ### More input files -/

/-- With the indices of a longer list. -/
def laterOrder (s : Surroundings) (k : Nat) : Surroundings := ⟨s.inspectDir, fun i f => s.order (i + k) f⟩

theorem Log.andThen_assoc {α β γ : Type} (t : Log α) (f : α → Log β) (g : β → Log γ) :
    (t.andThen f).andThen g = t.andThen fun a => (f a).andThen g := by
  obtain ⟨as, r⟩ := t
  cases r with
  | error e => rfl
  | ok a =>
    simp only [Log.andThen_of_ok]
    rcases hf : f a with ⟨bs, r⟩
    cases r <;> simp [Log.andThen]

theorem compileFiles_append [Rt] (ev : Calculator) (p : Profile) (n : Nat) (s : Surroundings) (noTesting : Bool) (ys : List (Str × Str)) :
    ∀ (xs : List (Str × Str)) (file : FmpFile), compileFiles ev p n s noTesting (xs ++ ys) file =
      (compileFiles ev p n (laterOrder s ys.length) noTesting xs file).andThen (compileFiles ev p n s noTesting ys)
  | [], file => by rw [compileFiles, Log.andThen_of_ok]; rfl
  | (name, text) :: xs, file => by
    show (compileFile ev p n s (xs ++ ys).length noTesting file name text).andThen _ =
      ((compileFile ev p n (laterOrder s ys.length) xs.length noTesting file name text).andThen _).andThen _
    rw [Log.andThen_assoc, List.length_append]
    congr 1
    funext f
    exact compileFiles_append ev p n s noTesting ys xs f

theorem decompileFiles_append (ev : Calculator) (p : Profile) (n : Nat) (s : Surroundings) (noTesting printHeader : Bool) (ys : List Bytes) :
    ∀ (xs : List Bytes) (file : FmpFile), decompileFiles ev p n s noTesting printHeader (xs ++ ys) file =
      (decompileFiles ev p n (laterOrder s ys.length) noTesting printHeader xs file).andThen (decompileFiles ev p n s noTesting printHeader ys)
  | [], file => by rw [decompileFiles, Log.andThen_of_ok]; rfl
  | buf :: xs, file => by
    show (decompileFile ev p n s (xs ++ ys).length noTesting printHeader file buf).andThen _ =
      ((decompileFile ev p n (laterOrder s ys.length) xs.length noTesting printHeader file buf).andThen _).andThen _
    rw [Log.andThen_assoc, List.length_append]
    congr 1
    funext f
    exact decompileFiles_append ev p n s noTesting printHeader ys xs f

theorem Log.ok_of_andThen {α β : Type} {l : Log α} {f : α → Log β} {b : β} (h : (l.andThen f).2 = .ok b) : ∃ a, l.2 = .ok a ∧ (f a).2 = .ok b := by
  obtain ⟨es, r⟩ := l
  cases r with
  | error e => cases h
  | ok a => exact ⟨a, rfl, h⟩

theorem Chain.length [Rt] {p : Profile} {inputs : List (Str × Str)} {gs snaps : List FmpFile} {bases : List Str} {f : FmpFile}
    (h : Chain p inputs f gs bases snaps) : snaps.length = gs.length := by
  induction h with
  | nil => rfl
  | cons _ _ ih => simp [ih]

theorem andThen_fst_ok {α β : Type} {l : Log α} {f : α → Log β} {a : α} (h : l.2 = .ok a) : (l.andThen f).1 = l.1 ++ (f a).1 := by
  obtain ⟨es, r⟩ := l
  cases h
  rfl

theorem first_events {α β : Type} (l : Log α) (f : α → Log β) : ∃ rest, (l.andThen f).1 = l.1 ++ rest := by
  obtain ⟨es, r⟩ := l
  cases r with
  | error e => exact ⟨[], by simp [Log.andThen]⟩
  | ok a => exact ⟨_, rfl⟩

end BurnFm
