import Verif.Spec.Screen
import Verif.Props.Console
import Verif.Proofs.ScriptWarnings
import Verif.Proofs.Inspect

/-! Lemmas about the whole program with everything it shows. -/

namespace BurnFm
open Spec

theorem Screen.andThen_of_ok {α β : Type} {a : α} {es : List Output} {f : α → Screen β} :
    Screen.andThen (es, .ok a) f = (es ++ (f a).1, (f a).2) := rfl

theorem Screen.andThen_of_error {α β : Type} {e : Stop} {es : List Output} {f : α → Screen β} :
    Screen.andThen (es, .error e) f = (es, .error e) := rfl

theorem Screen.quiet_andThen_ok {α β : Type} {a : α} {f : α → Screen β} : (Screen.quiet (.ok a)).andThen f = f a := by
  simp [Screen.quiet, Screen.andThen]

theorem Screen.quiet_andThen_error {α β : Type} {e : Stop} {f : α → Screen β} : (Screen.quiet (.error e)).andThen f = ([], .error e) := rfl

theorem savedOf_append (a b : List Output) : savedOf (a ++ b) = savedOf a ++ savedOf b := by simp [savedOf]
theorem savedEvents_append (a b : List Event) : savedEvents (a ++ b) = savedEvents a ++ savedEvents b := by
  simp [savedEvents, List.filterMap_append]
theorem verdictsShown_append (a b : List Output) : verdictsShown (a ++ b) = verdictsShown a ++ verdictsShown b := by
  simp [verdictsShown, List.filterMap_append]

theorem savedOf_warned (ws : List Warning) : savedOf (ws.map .warned) = [] := by
  induction ws with
  | nil => rfl
  | cons w ws ih => simpa [savedOf] using ih

theorem savedOf_lines (ls : List Line) : savedOf (ls.map .line) = [] := by
  induction ls with
  | nil => rfl
  | cons w ws ih => simpa [savedOf] using ih

theorem verdictsShown_warned (ws : List Warning) : verdictsShown (ws.map .warned) = [] := by
  induction ws with
  | nil => rfl
  | cons w ws ih => simpa [verdictsShown] using ih

theorem verdictsShown_lines (ls : List Line) : verdictsShown (ls.map .line) = verdictsShown ((ls.filter isHeadline).map .line) := by
  induction ls with
  | nil => rfl
  | cons l ls ih =>
    have e : ∀ (x : Line) (xs : List Line), verdictsShown ((x :: xs).map .line) = verdictsShown [.line x] ++ verdictsShown (xs.map .line) :=
      fun x xs => by rw [← verdictsShown_append]; rfl
    cases hl : isHeadline l with
    | true => rw [List.filter_cons_of_pos hl, e, e, ih]
    | false =>
      rw [List.filter_cons_of_neg (by simp [hl]), e, ih]
      cases l <;> first | rfl | cases hl

theorem verdictsShown_report : ∀ (ts : List FTest) (vs : List Bool), vs.length = ts.length →
    verdictsShown ((report ts vs).map .line) = vs
  | [], [], _ => rfl
  | _ :: ts, v :: vs, h => by
    have := verdictsShown_report ts vs (by simpa using h)
    simp only [report, List.map_cons]
    exact congrArg (v :: ·) this

/-! ### What is shown agrees with the model without it -/

/-- The same end, the same files, and the same verdicts unless the program stops. -/
structure Matches {α : Type} (sc : Screen α) (l : Log α) : Prop where
  result : sc.2 = l.2
  saved : savedOf sc.1 = savedEvents l.1
  some : (runsOf (actionsOf l.1)).flatten <+: verdictsShown sc.1
  all : ∀ a, sc.2 = .ok a → verdictsShown sc.1 = (runsOf (actionsOf l.1)).flatten

theorem Matches.andThen {α β : Type} {sc : Screen α} {l : Log α} {f : α → Screen β} {g : α → Log β} (h : Matches sc l)
    (hf : ∀ a, Matches (f a) (g a)) : Matches (sc.andThen f) (l.andThen g) := by
  obtain ⟨es, r⟩ := sc
  obtain ⟨ls, r'⟩ := l
  obtain ⟨h1, h2, h3, h4⟩ := h
  dsimp only at h1 h2 h3 h4
  subst h1
  cases r with
  | error e => exact ⟨rfl, h2, h3, fun a ha => by cases ha⟩
  | ok a =>
    rw [Screen.andThen_of_ok, Log.andThen_of_ok]
    obtain ⟨k1, k2, k3, k4⟩ := hf a
    have h4 := h4 a rfl
    refine ⟨k1, ?_, ?_, ?_⟩
    · simp only [savedOf_append, savedEvents_append, h2, k2]
    · simp only [actionsOf_append, runsOf_append, List.flatten_append, verdictsShown_append, h4]
      exact List.prefix_append_right_inj _ |>.mpr k3
    · intro b hb
      simp only [actionsOf_append, runsOf_append, List.flatten_append, verdictsShown_append, h4, k4 b hb]

theorem Matches.quiet {α : Type} (r : Ev α) : Matches (Screen.quiet r) (Log.quiet r) :=
  ⟨rfl, rfl, List.prefix_refl _, fun _ _ => rfl⟩

theorem Matches.warned {α : Type} {r : Warned (Res α)} {x : Res α} (h : r.2 = x) : Matches (Screen.warned r) (Log.quiet (liftR x)) := by
  subst h
  refine ⟨rfl, savedOf_warned _, ?_, fun _ _ => verdictsShown_warned _⟩
  exact List.nil_prefix

theorem Matches.writeInspect (s : Surroundings) (i : Nat) (path : Str) (f : FmpFile) :
    Matches (writeInspectShown s i path f) (writeInspect s i path f) := by
  unfold writeInspectShown BurnFm.writeInspect
  split
  · exact ⟨rfl, rfl, List.nil_prefix, fun _ _ => rfl⟩
  · exact ⟨rfl, rfl, List.nil_prefix, fun _ _ => rfl⟩

/-- The outcomes of testing. -/
theorem maybeTestShown_cases (ev : Calculator) (p : Profile) (n : Nat) (noTesting : Bool) (f : FmpFile) :
    (∃ ls, maybeTestShown ev p n noTesting f = (ls.map .line, .ok ()) ∧ AllTested ev p n noTesting f ls) ∨
    (∃ e, maybeTestShown ev p n noTesting f = ([], .error e) ∧ noTesting = false ∧ f.tests ≠ [] ∧ Vm.generate f = .error e) ∨
    (∃ e ls, maybeTestShown ev p n noTesting f = (ls.map .line, .error e) ∧ TestCrash ev p n noTesting f e ls) := by
  unfold maybeTestShown
  by_cases hc : (!noTesting && !f.tests.isEmpty) = true
  · rw [if_pos hc]
    simp only [Bool.and_eq_true, Bool.not_eq_true', List.isEmpty_eq_false_iff] at hc
    obtain ⟨hc, ht⟩ := hc
    cases hg : Vm.generate f with
    | error e => exact .inr (.inl ⟨e, rfl, hc, ht, rfl⟩)
    | ok vm =>
      rw [Screen.quiet_andThen_ok]
      dsimp only
      have hr := runTestsShown_run (ev := ev) (p := p) (scripts := f.scripts) n f.tests [] vm
      rcases Props.crash_located ev p f.scripts n f.tests [] vm with ⟨vs, last, h1, h2⟩ | ⟨e, ended, t, rest, vs, last, h1, h2, h3, h4, h5⟩
      · rw [h1] at hr
        left
        exact ⟨_, by rw [hr]; rfl, .inr ⟨hc, vs, ⟨vm, last, hg, h1⟩, h2⟩⟩
      · rw [h1] at hr
        right; right
        exact ⟨e, _, by rw [hr]; rfl, hc, ended, t, rest, vs, vm, last, h2, hg, h3, h4, h5⟩
  · rw [if_neg hc]
    left
    refine ⟨[], rfl, .inl ⟨?_, rfl⟩⟩
    simp only [Bool.and_eq_true, Bool.not_eq_true', List.isEmpty_eq_false_iff] at hc
    cases noTesting
    · right; exact Classical.not_not.mp fun h => hc ⟨rfl, h⟩
    · left; rfl

theorem maybeTestShown_snd (ev : Calculator) (p : Profile) (n : Nat) (noTesting : Bool) (f : FmpFile) :
    (maybeTestShown ev p n noTesting f).2 = (maybeTest ev p n noTesting f).2 := by
  unfold maybeTestShown maybeTest testFile
  split
  · cases Vm.generate f with
    | error e => rfl
    | ok vm =>
      rw [Screen.quiet_andThen_ok, ev_ok_bind]
      unfold Vm.runTestsWithCleanup
      dsimp only
      rw [runTestsShown_run]
      cases vm.runTests ev p f.scripts n f.tests <;> rfl
  · rfl

theorem Matches.tests (ev : Calculator) (p : Profile) (n : Nat) (noTesting : Bool) (f : FmpFile) :
    Matches (maybeTestShown ev p n noTesting f) (Log.of (maybeTest ev p n noTesting f)) := by
  have hr := maybeTestShown_snd ev p n noTesting f
  have hsaved : savedOf (maybeTestShown ev p n noTesting f).1 = [] := by
    rcases maybeTestShown_cases ev p n noTesting f with ⟨ls, h, -⟩ | ⟨e, h, -⟩ | ⟨e, ls, h, -⟩ <;> rw [h]
    · exact savedOf_lines ls
    · rfl
    · exact savedOf_lines ls
  have hsaved' : ∀ as : List Action, outputsOf as = [] → savedEvents (as.map .acted) = [] := by
    intro as
    induction as with
    | nil => intro _; rfl
    | cons a as ih =>
      intro h
      cases a with
      | tested vs => exact ih h
      | wrote f b => cases h
  cases ht : (maybeTest ev p n noTesting f).2 with
  | error e =>
    have h1 : (maybeTest ev p n noTesting f).1 = [] := by
      unfold maybeTest at ht ⊢
      split
      · rename_i hc
        rw [if_pos hc] at ht
        split at ht
        · cases ht
        · rfl
      · rfl
    refine ⟨hr, ?_, ?_, ?_⟩
    · rw [hsaved]; dsimp only [Log.of]; rw [h1]; rfl
    · dsimp only [Log.of]; rw [h1]; exact List.nil_prefix
    · intro a ha; rw [hr, ht] at ha; cases ha
  | ok u =>
    have hm : maybeTest ev p n noTesting f = ((maybeTest ev p n noTesting f).1, .ok ()) := by rw [← ht]
    have hT := maybeTest_ok hm
    have hv : verdictsShown (maybeTestShown ev p n noTesting f).1 = (runsOf (maybeTest ev p n noTesting f).1).flatten := by
      rcases maybeTestShown_cases ev p n noTesting f with ⟨ls, h, h2⟩ | ⟨e, h, -⟩ | ⟨e, ls, h, -⟩
      · rw [h]
        dsimp only
        rw [verdictsShown_lines]
        rcases hT with ⟨h3, h4⟩ | ⟨⟨h3, h3'⟩, vs, h5, h4⟩
        · rw [h4]
          rcases h2 with ⟨-, rfl⟩ | ⟨h6, vs, h7, h8⟩
          · rfl
          · rcases h3 with h3 | h3
            · rw [h3] at h6; cases h6
            · rw [h8, h3]; rfl
        · rw [h4]
          rcases h2 with ⟨h6 | h6, rfl⟩ | ⟨-, vs', h7, h8⟩
          · rw [h3] at h6; cases h6
          · exact absurd h6 h3'
          · have : vs' = vs := by
              obtain ⟨vm, last, a1, a2⟩ := h5
              obtain ⟨vm', last', b1, b2⟩ := id h7
              rw [a1] at b1
              cases b1
              rw [a2] at b2
              cases b2
              rfl
            subst this
            rw [h8, verdictsShown_report _ _ (Verdicts.length h7)]
            simp [runsOf]
      · rw [h, ht] at hr; cases hr
      · rw [h, ht] at hr; cases hr
    refine ⟨hr, ?_, ?_, ?_⟩
    · rw [hsaved]
      dsimp only [Log.of]
      rw [hsaved' _ hT.runs.2]
    · dsimp only [Log.of]; rw [actionsOf_acted, hv]
      exact List.prefix_refl _
    · intro _ _
      dsimp only [Log.of]; rw [actionsOf_acted, hv]

theorem Log.quiet_bind {α β : Type} (r : Ev α) (f : α → Ev β) : Log.quiet (r >>= f) = (Log.quiet r).andThen fun a => Log.quiet (f a) := by
  cases r <;> rfl

theorem liftR_bind {α β : Type} (r : Res α) (f : α → Res β) : liftR (r >>= f) = liftR r >>= fun a => liftR (f a) := by
  cases r <;> rfl

theorem compileShown_matches [Rt] (ev : Calculator) (p : Profile) (n : Nat) (s : Surroundings) (i : Nat)
    (noTesting : Bool) (file : FmpFile) (name text : Str) :
    Matches (compileShown ev p n s i noTesting file name text) (compileFile ev p n s i noTesting file name text) := by
  unfold compileShown compileFile
  rw [liftR_bind, Log.quiet_bind, Log.andThen_assoc]
  refine (Matches.warned (compileBurnW_snd p text)).andThen fun tmp => ?_
  rw [liftR_bind, Log.quiet_bind, Log.andThen_assoc]
  refine (Matches.quiet _).andThen fun base => ?_
  show Matches _ ((Log.quiet (.ok _)).andThen _)
  rw [Log.quiet_andThen_ok]
  refine (Matches.writeInspect ..).andThen fun _ => (Matches.tests ..).andThen fun _ => (Matches.quiet _).andThen fun c => ?_
  exact ⟨rfl, rfl, List.nil_prefix, fun _ _ => rfl⟩

theorem compileAllShown_matches [Rt] (ev : Calculator) (p : Profile) (n : Nat) (s : Surroundings) (noTesting : Bool) :
    ∀ (inputs : List (Str × Str)) (file : FmpFile),
    Matches (compileAllShown ev p n s noTesting inputs file) (compileFiles ev p n s noTesting inputs file)
  | [], _ => ⟨rfl, rfl, List.nil_prefix, fun _ _ => rfl⟩
  | (_, _) :: rest, _ => (compileShown_matches ..).andThen fun f => compileAllShown_matches ev p n s noTesting rest f

theorem decompileShown_matches (ev : Calculator) (p : Profile) (n : Nat) (s : Surroundings) (i : Nat) (noTesting printHeader : Bool)
    (file : FmpFile) (buf : Bytes) :
    Matches (decompileShown ev p n s i noTesting printHeader file buf) (decompileFile ev p n s i noTesting printHeader file buf) := by
  unfold decompileShown decompileFile writeHeader
  refine Matches.andThen ?_ fun _ => (Matches.quiet _).andThen fun tmp => (Matches.writeInspect ..).andThen fun _ =>
    (Matches.tests ..).andThen fun _ => ⟨rfl, rfl, List.nil_prefix, fun _ _ => rfl⟩
  cases printHeader <;> exact ⟨rfl, rfl, List.nil_prefix, fun _ _ => rfl⟩

theorem decompileAllShown_matches (ev : Calculator) (p : Profile) (n : Nat) (s : Surroundings) (noTesting printHeader : Bool) :
    ∀ (inputs : List Bytes) (file : FmpFile),
    Matches (decompileAllShown ev p n s noTesting printHeader inputs file) (decompileFiles ev p n s noTesting printHeader inputs file)
  | [], _ => ⟨rfl, rfl, List.nil_prefix, fun _ _ => rfl⟩
  | _ :: rest, _ => (decompileShown_matches ..).andThen fun f => decompileAllShown_matches ev p n s noTesting printHeader rest f

theorem givenTestsShown_matches [Rt] (p : Profile) : ∀ (texts : List Str) (file : FmpFile),
    Matches (givenTestsShown p texts file) (Log.quiet (liftR (givenTests p texts file)))
  | [], _ => Matches.quiet _
  | text :: rest, file => by
    unfold givenTestsShown givenTests
    rw [liftR_bind, Log.quiet_bind]
    exact (Matches.warned (compileBurnW_snd p text)).andThen fun tmp => givenTestsShown_matches p rest _

theorem programShown_matches [Rt] (ev : Calculator) (p : Profile) (n : Nat) (s : Surroundings) (args : Args) (printHeader : Bool) :
    Matches (programShown ev p n s args printHeader) (wholeProgram ev p n s args printHeader) := by
  unfold programShown wholeProgram
  refine (givenTestsShown_matches ..).andThen fun f => ?_
  cases args.op with
  | compile inputs => exact compileAllShown_matches ..
  | decompile inputs => exact decompileAllShown_matches ..

/-! ### Input files of the compiler -/

theorem screen_warned_ok {α : Type} {r : Warned (Res α)} {a : α} (h : r.2 = .ok a) : Screen.warned r = (r.1.map .warned, .ok a) := by
  unfold Screen.warned; rw [h]; rfl

theorem screen_warned_error {α : Type} {r : Warned (Res α)} {e : Panic} (h : r.2 = .error e) :
    Screen.warned r = (r.1.map .warned, .error (.panic e)) := by
  unfold Screen.warned; rw [h]; rfl

/-- What is seen of one input file. -/
theorem compileShown_cases [Rt] (ev : Calculator) (p : Profile) (n : Nat) {s : Surroundings} (hf : Fair s) (i : Nat)
    (noTesting : Bool) (file : FmpFile) (name text : Str) :
    (∃ g base es, compileBurn p text = .ok g ∧ name = base ++ t!".burn" ∧
      compileShown ev p n s i noTesting file name text = (es, .ok { file.merge g with name := base }) ∧
      SeenWhole ev p n noTesting text { file.merge g with name := base } es) ∨
    (∃ e es, compileShown ev p n s i noTesting file name text = (es, .error e) ∧
      SeenUpTo ev p n s.inspectDir noTesting name text (fun g base => { file.merge g with name := base }) e es) := by
  unfold compileShown
  cases h1 : compileBurn p text with
  | error r =>
    right
    rw [screen_warned_error ((compileBurnW_snd p text).trans h1), Screen.andThen_of_error]
    exact ⟨_, _, rfl, .compiling h1 rfl⟩
  | ok g =>
    rw [screen_warned_ok ((compileBurnW_snd p text).trans h1), Screen.andThen_of_ok]
    cases h2 : stripBurn name with
    | none =>
      right
      refine ⟨_, _, rfl, ?_⟩
      show SeenUpTo ev p n s.inspectDir noTesting name text _ _ (warningsOf p text ++ [])
      rw [List.append_nil]
      refine .naming h1 fun base hb => ?_
      rw [stripBurn_some.mpr hb] at h2
      cases h2
    | some base =>
      have hb := stripBurn_some.mp h2
      dsimp only [unwrap, liftR, pure, Except.pure]
      rw [Screen.quiet_andThen_ok]
      unfold writeInspectShown
      cases hs : s.inspectDir with
      | false =>
        rw [if_neg (by simp), Screen.andThen_of_error]
        right
        refine ⟨_, _, rfl, ?_⟩
        show SeenUpTo ev p n false noTesting name text _ _ (warningsOf p text ++ [])
        rw [List.append_nil]
        exact .saving h1 hb rfl
      | true =>
        rw [if_pos rfl, Screen.andThen_of_ok]
        have hshow := inspectText_shows (hf i { file.merge g with name := base })
        rcases maybeTestShown_cases ev p n noTesting { file.merge g with name := base } with ⟨ls, h3, h4⟩ | ⟨e, h3, h4, h5, h6⟩ | ⟨e, ls, h3, h4⟩
        · rw [h3, Screen.andThen_of_ok]
          cases h5 : assemble p { file.merge g with name := base } with
          | error r =>
            right
            refine ⟨_, _, rfl, ?_⟩
            show SeenUpTo ev p n true noTesting name text _ _ (warningsOf p text ++ (_ :: (ls.map .line ++ [])))
            rw [List.append_nil]
            exact .assembling h1 hb hshow h4 h5 rfl
          | ok content =>
            left
            refine ⟨g, base, _, rfl, hb, rfl, _, ls, content, hshow, h4, h5, ?_⟩
            simp [warningsOf, Screen.quiet, Screen.andThen]
        · rw [h3, Screen.andThen_of_error]
          right
          exact ⟨_, _, rfl, .generating h1 hb hshow h4 h5 h6⟩
        · rw [h3, Screen.andThen_of_error]
          right
          exact ⟨_, _, rfl, .testing h1 hb hshow h4⟩

theorem compileShown_of [Rt] {ev : Calculator} {p : Profile} {n : Nat} {s : Surroundings} {i : Nat} {noTesting : Bool} {file g f : FmpFile}
    {name text base : Str} {ws : List Warning} {es : List Output} {c : Bytes} (hw : compileBurnW p text = (ws, .ok g))
    (hs : stripBurn name = some base) (hd : s.inspectDir = true) (hf : { file.merge g with name := base } = f)
    (ht : maybeTestShown ev p n noTesting f = (es, .ok ())) (ha : assemble p f = .ok c) :
    compileShown ev p n s i noTesting file name text =
      (ws.map .warned ++ .inspected t!"inspect_output/test_compile" (inspectText (s.order i f)) :: es ++ [.wrote (f.name ++ t!".fmp12") c],
        .ok f) := by
  unfold compileShown
  rw [hw, screen_warned_ok rfl, Screen.andThen_of_ok, hs]
  dsimp only [unwrap, liftR, pure, Except.pure]
  rw [Screen.quiet_andThen_ok, hf, writeInspectShown, if_pos hd, Screen.andThen_of_ok, ht, Screen.andThen_of_ok, ha]
  dsimp only
  rw [Screen.quiet_andThen_ok]
  have hn : f.name = base := by rw [← hf]
  simp [hn]

theorem compileShown_name [Rt] {ev : Calculator} {p : Profile} {n : Nat} {s : Surroundings} {i : Nat} {noTesting : Bool} {file g : FmpFile}
    {name text : Str} {ws : List Warning} (hw : compileBurnW p text = (ws, .ok g)) (hs : stripBurn name = none) :
    compileShown ev p n s i noTesting file name text = (ws.map .warned, .error (.panic .unwrap)) := by
  unfold compileShown
  rw [hw, screen_warned_ok rfl, Screen.andThen_of_ok, hs]
  simp [unwrap, liftR, Screen.quiet, Screen.andThen]

/-- Two input files, where the program stops at the second. -/
theorem programShown_two [Rt] {ev : Calculator} {p : Profile} {n : Nat} {s : Surroundings} {noTesting printHeader : Bool} {f : FmpFile}
    {a b : Str × Str} {es es' : List Output} {e : Stop} (h1 : compileShown ev p n s 1 noTesting {} a.1 a.2 = (es, .ok f))
    (h2 : compileShown ev p n s 0 noTesting f b.1 b.2 = (es', .error e)) :
    programShown ev p n s ⟨.compile [a, b], [], noTesting⟩ printHeader = (es ++ es', .error e) := by
  unfold programShown givenTestsShown
  rw [Screen.andThen_of_ok, List.nil_append]
  dsimp only
  rw [compileAllShown, List.length_singleton, h1, Screen.andThen_of_ok, compileAllShown, List.length_nil, h2, Screen.andThen_of_error]

/-- What is seen of the input files. -/
theorem compileAllShown_seen [Rt] (ev : Calculator) (p : Profile) (n : Nat) {s : Surroundings} (hf : Fair s) (noTesting : Bool) :
    ∀ (inputs : List (Str × Str)) (file : FmpFile), ∃ done rest gs bases snaps parts tail,
      inputs = done ++ rest ∧ Chain p done file gs bases snaps ∧ gs.length = done.length ∧
      List.Forall₂ (fun (x : Str × FmpFile) => SeenWhole ev p n noTesting x.1 x.2) ((done.map (·.2)).zip snaps) parts ∧
      (compileAllShown ev p n s noTesting inputs file).1 = parts.flatten ++ tail ∧
      ((rest = [] ∧ tail = [] ∧ ∃ last, (compileAllShown ev p n s noTesting inputs file).2 = .ok last) ∨
       ∃ name text rest' e, rest = (name, text) :: rest' ∧ (compileAllShown ev p n s noTesting inputs file).2 = .error e ∧
        SeenUpTo ev p n s.inspectDir noTesting name text
          (fun g base => { (gs.foldl FmpFile.merge file).merge g with name := base }) e tail)
  | [], file => ⟨[], [], [], [], [], [], [], rfl, .nil, rfl, .nil, rfl, .inl ⟨rfl, rfl, file, rfl⟩⟩
  | (name, text) :: inputs, file => by
    have hm : ∀ (l : List FmpFile) (f : FmpFile) (x : Str),
        l.foldl FmpFile.merge { f with name := x } = { l.foldl FmpFile.merge f with name := x } := by
      intro l
      induction l with
      | nil => intro f x; rfl
      | cons y l ih => intro f x; exact ih (f.merge y) x
    unfold compileAllShown
    rcases compileShown_cases ev p n hf inputs.length noTesting file name text with ⟨g, base, es, h1, rfl, h3, h4⟩ | ⟨e, es, h1, h2⟩
    · rw [h3, Screen.andThen_of_ok]
      obtain ⟨done, rest, gs, bases, snaps, parts, tail, i1, i2, i3, i4, i5, i6⟩ :=
        compileAllShown_seen ev p n hf noTesting inputs { file.merge g with name := base }
      refine ⟨(base ++ t!".burn", text) :: done, rest, g :: gs, base :: bases, _ :: snaps, es :: parts, tail, by rw [i1]; rfl,
        .cons h1 i2, by simp [i3], .cons h4 i4, by dsimp only; rw [i5]; simp, ?_⟩
      rcases i6 with i6 | ⟨name', text', rest', e, j1, j2, j3⟩
      · exact .inl i6
      · right
        refine ⟨name', text', rest', e, j1, j2, ?_⟩
        rw [hm gs (file.merge g) base] at j3
        exact j3
    · rw [h1, Screen.andThen_of_error]
      exact ⟨[], (name, text) :: inputs, [], [], [], [], es, rfl, .nil, rfl, .nil, rfl, .inr ⟨name, text, inputs, e, rfl, rfl, h2⟩⟩

/-- What is seen of the files given with `-t`. -/
theorem givenTestsShown_compiled [Rt] {p : Profile} : ∀ {test : List Str} {given : List FmpFile} (_ : Compiled p test given) (f : FmpFile),
    givenTestsShown p test f = (test.flatMap (warningsOf p), .ok { f with tests := f.tests ++ given.flatMap (·.tests) })
  | _, _, .nil, f => by simp [givenTestsShown]
  | _, _, .cons (a := text) h1 h2, f => by
    unfold givenTestsShown
    rw [screen_warned_ok ((compileBurnW_snd p text).trans h1), Screen.andThen_of_ok, givenTestsShown_compiled h2]
    simp [warningsOf]

/-! ### Input files of the decompiler -/

theorem decompileShown_cases (ev : Calculator) (p : Profile) (n : Nat) {s : Surroundings} (hf : Fair s) (i : Nat)
    (noTesting printHeader : Bool) (file : FmpFile) (buf : Bytes) :
    (∃ g es, decompile p buf n = .ok (some g) ∧
      decompileShown ev p n s i noTesting printHeader file buf = (es, .ok (file.merge g)) ∧
      SeenFile ev p n noTesting printHeader buf g (file.merge g) es) ∨
    (∃ e es, decompileShown ev p n s i noTesting printHeader file buf = (es, .error e) ∧
      SeenFileUpTo ev p n s.inspectDir noTesting printHeader buf file.merge e es) := by
  unfold decompileShown
  rw [Screen.andThen_of_ok]
  have hh : (if printHeader then [Output.header buf] else []) = headerSeen printHeader buf := rfl
  rw [hh]
  rcases hd : decompile p buf n with e | _ | g
  · right
    refine ⟨.panic e, _, rfl, ?_⟩
    show SeenFileUpTo ev p n s.inspectDir noTesting printHeader buf _ _ (headerSeen printHeader buf ++ [])
    rw [List.append_nil]
    exact .reading fun g h => by rw [hd] at h; cases h
  · right
    refine ⟨.fuel, _, rfl, ?_⟩
    show SeenFileUpTo ev p n s.inspectDir noTesting printHeader buf _ _ (headerSeen printHeader buf ++ [])
    rw [List.append_nil]
    exact .reading fun g h => by rw [hd] at h; cases h
  · dsimp only
    rw [Screen.quiet_andThen_ok]
    unfold writeInspectShown
    cases hs : s.inspectDir with
    | false =>
      rw [if_neg (by simp), Screen.andThen_of_error]
      right
      refine ⟨_, _, rfl, ?_⟩
      show SeenFileUpTo ev p n false noTesting printHeader buf _ _ (headerSeen printHeader buf ++ [])
      rw [List.append_nil]
      exact .saving hd rfl
    | true =>
      rw [if_pos rfl, Screen.andThen_of_ok]
      have hshow := inspectText_shows (hf i g)
      rcases maybeTestShown_cases ev p n noTesting (file.merge g) with ⟨ls, h3, h4⟩ | ⟨e, h3, h4, h5, h6⟩ | ⟨e, ls, h3, h4⟩
      · rw [h3, Screen.andThen_of_ok]
        left
        exact ⟨g, _, rfl, rfl, _, ls, hshow, h4, by simp⟩
      · rw [h3, Screen.andThen_of_error]
        right
        exact ⟨_, _, rfl, .generating hd hshow h4 h5 h6⟩
      · rw [h3, Screen.andThen_of_error]
        right
        exact ⟨_, _, rfl, .testing hd hshow h4⟩

/-- What is seen of the input files: each of `done` is followed by what it contains and what it is tested with. -/
theorem decompileAllShown_seen (ev : Calculator) (p : Profile) (n : Nat) {s : Surroundings} (hf : Fair s) (noTesting printHeader : Bool) :
    ∀ (inputs : List Bytes) (file : FmpFile), ∃ done rest gs parts tail,
      inputs = done ++ rest ∧ Decompiled p n done gs ∧
      List.Forall₂ (fun (x : Bytes × FmpFile × FmpFile) => SeenFile ev p n noTesting printHeader x.1 x.2.1 x.2.2)
        (done.zip (gs.zip ((List.range gs.length).map fun i => (gs.take (i + 1)).foldl FmpFile.merge file))) parts ∧
      (decompileAllShown ev p n s noTesting printHeader inputs file).1 = parts.flatten ++ tail ∧
      ((rest = [] ∧ tail = [] ∧ ∃ last, (decompileAllShown ev p n s noTesting printHeader inputs file).2 = .ok last) ∨
       ∃ buf rest' e, rest = buf :: rest' ∧ (decompileAllShown ev p n s noTesting printHeader inputs file).2 = .error e ∧
        SeenFileUpTo ev p n s.inspectDir noTesting printHeader buf (gs.foldl FmpFile.merge file).merge e tail)
  | [], file => ⟨[], [], [], [], [], rfl, .nil, .nil, rfl, .inl ⟨rfl, rfl, file, rfl⟩⟩
  | buf :: inputs, file => by
    unfold decompileAllShown
    rcases decompileShown_cases ev p n hf inputs.length noTesting printHeader file buf with ⟨g, es, h1, h3, h4⟩ | ⟨e, es, h1, h2⟩
    · rw [h3, Screen.andThen_of_ok]
      obtain ⟨done, rest, gs, parts, tail, i1, i2, i4, i5, i6⟩ :=
        decompileAllShown_seen ev p n hf noTesting printHeader inputs (file.merge g)
      refine ⟨buf :: done, rest, g :: gs, es :: parts, tail, by rw [i1]; rfl, .cons h1 i2, ?_, by dsimp only; rw [i5]; simp, i6⟩
      rw [List.length_cons, List.range_succ_eq_map, List.map_cons, List.map_map]
      exact .cons h4 i4
    · rw [h1, Screen.andThen_of_error]
      exact ⟨[], buf :: inputs, [], [], es, rfl, .nil, .nil, rfl, .inr ⟨buf, inputs, e, rfl, rfl, h2⟩⟩

end BurnFm
