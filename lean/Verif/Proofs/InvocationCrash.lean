import Verif.Spec.InvocationCrash
import Verif.Proofs.Invocation
import Verif.Props.Crashes

/-! Invocations of the program that crash. -/

namespace BurnFm
open Spec

theorem andThen_error {α β : Type} {t : Trace α} {f : α → Trace β} {as : List Action} {e : Stop}
    (h : t.andThen f = (as, .error e)) :
    t = (as, .error e) ∨ ∃ a as1 as2, t = (as1, .ok a) ∧ f a = (as2, .error e) ∧ as = as1 ++ as2 := by
  obtain ⟨as1, r⟩ := t
  unfold Trace.andThen at h
  cases r with
  | error e' => left; cases h; rfl
  | ok a =>
    right
    dsimp only at h
    injection h with h1 h2
    exact ⟨a, as1, (f a).1, rfl, Prod.ext rfl h2, h1.symm⟩

variable [Rt] {p : Profile} {noTesting : Bool}

theorem testing_crash_true {file : FmpFile} {as : List Action} {fuel n : Nat} {c : Panic}
    (h : maybeTest (fun env => evalCalc env fuel) p n noTesting file = (as, .error (.panic c))) :
    TestingCrashes p noTesting file ∧ as = [] := by
  unfold maybeTest at h
  split at h
  · rename_i hc
    simp only [Bool.and_eq_true, Bool.not_eq_true', List.isEmpty_eq_false_iff] at hc
    split at h
    · cases h
    · rename_i e he
      cases h
      exact ⟨⟨hc.1, hc.2, (Props.file_crash_exact p file).mp ⟨fuel, n, c, he⟩⟩, rfl⟩
  · cases h

theorem testing_crash_found {file : FmpFile} (h : TestingCrashes p noTesting file) :
    ∃ N, ∀ fuel n, N ≤ fuel → N ≤ n →
      ∃ c, maybeTest (fun env => evalCalc env fuel) p n noTesting file = ([], .error (.panic c)) := by
  obtain ⟨h1, h2, h3⟩ := h
  obtain ⟨f, m, c, hm⟩ := (Props.file_crash_exact p file).mpr h3
  refine ⟨max f m, fun fuel n hf hn => ⟨c, ?_⟩⟩
  have e := LeF.eq (testFile_leF (evalCalc_mono (show f ≤ fuel by omega)) p (show m ≤ n by omega) file) (by rw [hm]; simp)
  unfold maybeTest
  rw [if_pos (by simp [h1, h2]), ← e, hm]

theorem maybeTest_tested {file : FmpFile} {as : List Action} {fuel n : Nat}
    (h : maybeTest (fun env => evalCalc env fuel) p n noTesting file = (as, .ok ())) : FileTested p noTesting file as := by
  unfold maybeTest at h
  split at h
  · rename_i hc
    simp only [Bool.and_eq_true, Bool.not_eq_true', List.isEmpty_eq_false_iff] at hc
    split at h
    · rename_i vs he
      cases h
      obtain ⟨start, v, hs, hv⟩ := (Props.file_verdicts_exact p file vs).mp ⟨fuel, n, he⟩
      exact .inr ⟨hc.1, hc.2, start, v, vs, hs, hv, rfl⟩
    · cases h
  · rename_i hc
    cases h
    left
    refine ⟨?_, rfl⟩
    cases noTesting
    · simp at hc; exact .inr hc
    · exact .inl rfl

theorem compile_crash_true {inputs : List (Str × Str)} {fuel n : Nat} {c : Panic} : ∀ {file : FmpFile} {as : List Action},
    compileInputs (fun env => evalCalc env fuel) p n noTesting inputs file = (as, .error (.panic c)) →
    CompilingCrashes p noTesting file inputs as := by
  induction inputs with
  | nil => intro file as h; cases h
  | cons x rest ih =>
    intro file as h
    obtain ⟨name, text⟩ := x
    unfold compileInputs at h
    cases hg : compileBurn p text with
    | error e =>
      have : as = [] := by
        unfold compileInput at h
        rw [hg] at h
        cases h; rfl
      subst this
      exact .text fun tmp ht => by rw [hg] at ht; cases ht
    | ok tmp =>
      cases hb : stripBurn name with
      | none =>
        have : as = [] := by
          unfold compileInput at h
          rw [hg, ok_bind, hb] at h
          cases h; rfl
        subst this
        refine .name fun base e => ?_
        rw [stripBurn_some.mpr e] at hb; cases hb
      | some base =>
        obtain rfl := stripBurn_some.mp hb
        rcases andThen_error h with h | ⟨f, as1, as2, h1, h2, rfl⟩
        · unfold compileInput at h
          rw [hg, ok_bind, hb] at h
          rw [show (Trace.quiet (liftR (do let base ← unwrap (some base); pure { file.merge tmp with name := base })) : Trace FmpFile) =
            ([], .ok { file.merge tmp with name := base }) from rfl] at h
          rw [Trace.andThen_of_ok] at h
          injection h with h1 h2
          rw [List.nil_append] at h1
          clear hb
          rcases andThen_error (Prod.ext h1 h2) with h | ⟨_, as1, as2, h3, h4, rfl⟩
          · obtain ⟨ht, rfl⟩ := testing_crash_true h
            exact .testing hg rfl ht
          · rcases andThen_error h4 with h | ⟨b, as3, as4, h5, h6, rfl⟩
            · have hs : as2 = [] := (congrArg Prod.fst h).symm
              subst hs
              rw [List.append_nil]
              refine .assembling hg rfl (maybeTest_tested h3) fun content hc => ?_
              rw [hc] at h; cases h
            · cases h6
        · obtain ⟨g, base', ts, b, hg', hn, hf, ht, hb', rfl⟩ := compileInput_ok h1
          obtain rfl : base = base' := by simpa using hn
          rw [List.append_assoc]
          exact .later hg' hf (tested_true ht) hb' (ih h2)

theorem compile_crash_found {inputs : List (Str × Str)} {file : FmpFile} {as : List Action}
    (h : CompilingCrashes p noTesting file inputs as) : ∃ N, ∀ fuel n, N ≤ fuel → N ≤ n →
      ∃ c, compileInputs (fun env => evalCalc env fuel) p n noTesting inputs file = (as, .error (.panic c)) := by
  induction h with
  | @text file name text rest h =>
    refine ⟨0, fun fuel n _ _ => ?_⟩
    cases hg : compileBurn p text with
    | ok tmp => exact absurd hg (h tmp)
    | error e =>
      refine ⟨e, ?_⟩
      rw [compileInputs]
      unfold compileInput
      rw [hg]; rfl
  | @name file name text rest h =>
    refine ⟨0, fun fuel n _ _ => ?_⟩
    rw [compileInputs]
    unfold compileInput
    cases hg : compileBurn p text with
    | error e => exact ⟨e, rfl⟩
    | ok tmp =>
      cases hb : stripBurn name with
      | some base => exact absurd (stripBurn_some.mp hb) (h base)
      | none => exact ⟨.unwrap, rfl⟩
  | @testing file tmp file' base text rest hg hf ht =>
    obtain ⟨N, hN⟩ := testing_crash_found ht
    refine ⟨N, fun fuel n h1 h2 => ?_⟩
    obtain ⟨c, hc⟩ := hN fuel n h1 h2
    refine ⟨c, ?_⟩
    subst hf
    rw [compileInputs]
    unfold compileInput
    rw [hg, ok_bind, stripBurn_some.mpr rfl]
    dsimp only [unwrap, liftR, Trace.quiet, pure, Except.pure, bind, Except.bind]
    rw [Trace.andThen_of_ok, hc]
    rfl
  | @assembling file tmp file' base text rest shown hg hf ht ha =>
    obtain ⟨N, hN⟩ := tested_found ht
    refine ⟨N, fun fuel n h1 h2 => ?_⟩
    have hc := hN fuel n h1 h2
    cases hb : assemble p file' with
    | ok b => exact absurd hb (ha b)
    | error e =>
      refine ⟨e, ?_⟩
      subst hf
      rw [compileInputs]
      unfold compileInput
      rw [hg, ok_bind, stripBurn_some.mpr rfl]
      dsimp only [unwrap, liftR, Trace.quiet, pure, Except.pure, bind, Except.bind]
      rw [Trace.andThen_of_ok, hc, Trace.andThen_of_ok, hb]
      simp [Trace.andThen]
  | @later file tmp file' base text rest shown as content hg hf ht hb _ ih =>
    obtain ⟨a, ha⟩ := tested_found ht
    obtain ⟨b, hb'⟩ := ih
    refine ⟨max a b, fun fuel n hfu hn => ?_⟩
    obtain ⟨c, hc⟩ := hb' fuel n (by omega) (by omega)
    refine ⟨c, ?_⟩
    have h1 := compileInput_of (f := file) (base := base) hg hf (ha fuel n (by omega) (by omega)) hb
    rw [compileInputs]
    have := Trace.andThen_pair h1 hc
    rw [List.append_assoc] at this
    exact this

theorem decompile_crash_true {inputs : List Bytes} {fuel n : Nat} {c : Panic} : ∀ {file : FmpFile} {as : List Action},
    decompileInputs (fun env => evalCalc env fuel) p n noTesting inputs file = (as, .error (.panic c)) →
    DecompilingCrashes p noTesting file inputs as := by
  induction inputs with
  | nil => intro file as h; cases h
  | cons buf rest ih =>
    intro file as h
    unfold decompileInputs at h
    rcases andThen_error h with h | ⟨f, as1, as2, h1, h2, rfl⟩
    · unfold decompileInput at h
      rcases andThen_error h with h | ⟨g, as1, as2, h1, h2, rfl⟩
      · injection h with h1 h2
        subst h1
        split at h2
        · cases h2
        · cases h2
        · rename_i e he
          exact .bytes ⟨n, e, he⟩
      · injection h1 with e1 e2
        subst e1
        split at e2
        · rename_i tmp he
          cases e2
          rcases andThen_error h2 with h | ⟨_, as3, as4, h3, h4, rfl⟩
          · obtain ⟨ht, rfl⟩ := testing_crash_true h
            exact .testing ⟨n, he⟩ ht
          · cases h4
        · cases e2
        · cases e2
    · obtain ⟨g, hg, rfl, ht⟩ := decompileInput_ok h1
      exact .later ⟨n, hg⟩ (tested_true ht) (ih h2)

theorem decompile_crash_found {inputs : List Bytes} {file : FmpFile} {as : List Action}
    (h : DecompilingCrashes p noTesting file inputs as) : ∃ N, ∀ fuel n, N ≤ fuel → N ≤ n →
      ∃ c, decompileInputs (fun env => evalCalc env fuel) p n noTesting inputs file = (as, .error (.panic c)) := by
  induction h with
  | bytes hg =>
    obtain ⟨k, c, hk⟩ := hg
    refine ⟨k, fun fuel n _ hn => ⟨c, ?_⟩⟩
    rw [decompileInputs]
    unfold decompileInput
    rw [decompile_mono hk (by simp) n hn]
    rfl
  | @testing file tmp buf rest hg ht =>
    obtain ⟨k, hk⟩ := hg
    obtain ⟨a, ha⟩ := testing_crash_found ht
    refine ⟨max k a, fun fuel n hfu hn => ?_⟩
    obtain ⟨c, hc⟩ := ha fuel n (by omega) (by omega)
    refine ⟨c, ?_⟩
    rw [decompileInputs]
    unfold decompileInput
    rw [decompile_mono hk (by simp) n (by omega)]
    dsimp only [Trace.quiet]
    rw [Trace.andThen_of_ok, hc]
    rfl
  | @later file tmp buf rest shown as hg ht _ ih =>
    obtain ⟨k, hk⟩ := hg
    obtain ⟨a, ha⟩ := tested_found ht
    obtain ⟨b, hb⟩ := ih
    refine ⟨max k (max a b), fun fuel n hfu hn => ?_⟩
    obtain ⟨c, hc⟩ := hb fuel n (by omega) (by omega)
    refine ⟨c, ?_⟩
    have h1 : decompileInput (fun env => evalCalc env fuel) p n noTesting file buf = (shown, .ok (file.merge tmp)) := by
      unfold decompileInput
      rw [decompile_mono hk (by simp) n (by omega)]
      have := Trace.andThen_pair (f := fun _ => (([], .ok (file.merge tmp)) : Trace FmpFile)) (ha fuel n (by omega) (by omega)) rfl
      rw [List.append_nil] at this
      exact Trace.andThen_pair (as := []) rfl this
    rw [decompileInputs]
    exact Trace.andThen_pair h1 hc

theorem main_not_given {test : List Str} (h : ∀ given, ¬Compiled p test given) (ev : Calculator) (n : Nat) {op : Operation} :
    ∃ c, mainProgram ev p n ⟨op, test, noTesting⟩ = ([], .error (.panic c)) := by
  cases hg : givenTests p test {} with
  | ok f =>
    obtain ⟨gs, hgs, -⟩ := givenTests_ok hg
    exact absurd hgs (h gs)
  | error c =>
    refine ⟨c, ?_⟩
    unfold mainProgram
    dsimp only
    rw [hg]
    rfl

theorem testing_hang_found {file : FmpFile} (h : TestingHangs p noTesting file) (fuel n : Nat) :
    maybeTest (fun env => evalCalc env fuel) p n noTesting file = ([], .error .fuel) := by
  obtain ⟨h1, h2, h3⟩ := h
  unfold maybeTest
  rw [if_pos (by simp [h1, h2]), (Props.file_endless_exact p file).mpr h3 fuel n]

theorem testing_three (p : Profile) (noTesting : Bool) (file : FmpFile) :
    (∃ shown, FileTested p noTesting file shown) ∨ TestingCrashes p noTesting file ∨ TestingHangs p noTesting file := by
  cases noTesting with
  | true => exact .inl ⟨[], .inl ⟨.inl rfl, rfl⟩⟩
  | false =>
    by_cases ht : file.tests = []
    · exact .inl ⟨[], .inl ⟨.inr ht, rfl⟩⟩
    · by_cases hh : ∀ fuel n, testFile (fun env => evalCalc env fuel) p n file = .error .fuel
      · exact .inr (.inr ⟨rfl, ht, (Props.file_endless_exact p file).mp hh⟩)
      · simp only [not_forall] at hh
        obtain ⟨fuel, n, hh⟩ := hh
        cases hr : testFile (fun env => evalCalc env fuel) p n file with
        | ok vs =>
          obtain ⟨start, v, hs, hv⟩ := (Props.file_verdicts_exact p file vs).mp ⟨fuel, n, hr⟩
          exact .inl ⟨[.tested vs], .inr ⟨rfl, ht, start, v, vs, hs, hv, rfl⟩⟩
        | error e =>
          cases e with
          | fuel => exact absurd hr hh
          | panic c => exact .inr (.inl ⟨rfl, ht, (Props.file_crash_exact p file).mp ⟨fuel, n, c, hr⟩⟩)

theorem compile_three (p : Profile) (noTesting : Bool) : ∀ (inputs : List (Str × Str)) (file : FmpFile),
    (∃ as last, CompilesTo p noTesting file inputs as last) ∨ (∃ as, CompilingCrashes p noTesting file inputs as) ∨
      ∃ as, CompilingHangs p noTesting file inputs as
  | [], file => .inl ⟨[], file, .nil⟩
  | (name, text) :: rest, file => by
    by_cases hg : ∃ tmp, compileBurn p text = .ok tmp
    · obtain ⟨tmp, hg⟩ := hg
      by_cases hn : ∃ base, name = base ++ t!".burn"
      · obtain ⟨base, rfl⟩ := hn
        rcases testing_three p noTesting { file.merge tmp with name := base } with ⟨shown, ht⟩ | ht | ht
        · by_cases hb : ∃ b, assemble p { file.merge tmp with name := base } = .ok b
          · obtain ⟨b, hb⟩ := hb
            rcases compile_three p noTesting rest { file.merge tmp with name := base } with ⟨as, last, h⟩ | ⟨as, h⟩ | ⟨as, h⟩
            · exact .inl ⟨_, last, .input hg rfl ht hb h⟩
            · exact .inr (.inl ⟨_, .later hg rfl ht hb h⟩)
            · exact .inr (.inr ⟨_, .later hg rfl ht hb h⟩)
          · exact .inr (.inl ⟨_, .assembling hg rfl ht fun b h => hb ⟨b, h⟩⟩)
        · exact .inr (.inl ⟨_, .testing hg rfl ht⟩)
        · exact .inr (.inr ⟨_, .testing hg rfl ht⟩)
      · exact .inr (.inl ⟨_, .name fun base h => hn ⟨base, h⟩⟩)
    · exact .inr (.inl ⟨_, .text fun tmp h => hg ⟨tmp, h⟩⟩)

theorem decompile_three (p : Profile) (noTesting : Bool) : ∀ (inputs : List Bytes) (file : FmpFile),
    (∃ as last, DecompilesTo p noTesting file inputs as last) ∨ (∃ as, DecompilingCrashes p noTesting file inputs as) ∨
      ∃ as, DecompilingHangs p noTesting file inputs as
  | [], file => .inl ⟨[], file, .nil⟩
  | buf :: rest, file => by
    by_cases hh : ∀ n, decompile p buf n = .ok none
    · exact .inr (.inr ⟨_, .bytes hh⟩)
    · simp only [not_forall] at hh
      obtain ⟨n, hh⟩ := hh
      cases hd : decompile p buf n with
      | error c => exact .inr (.inl ⟨_, .bytes ⟨n, c, hd⟩⟩)
      | ok o =>
        cases o with
        | none => exact absurd hd hh
        | some tmp =>
          rcases testing_three p noTesting (file.merge tmp) with ⟨shown, ht⟩ | ht | ht
          · rcases decompile_three p noTesting rest (file.merge tmp) with ⟨as, last, h⟩ | ⟨as, h⟩ | ⟨as, h⟩
            · exact .inl ⟨_, last, .input ⟨n, hd⟩ rfl ht h⟩
            · exact .inr (.inl ⟨_, .later ⟨n, hd⟩ ht h⟩)
            · exact .inr (.inr ⟨_, .later ⟨n, hd⟩ ht h⟩)
          · exact .inr (.inl ⟨_, .testing ⟨n, hd⟩ ht⟩)
          · exact .inr (.inr ⟨_, .testing ⟨n, hd⟩ ht⟩)

theorem compile_hang_found {inputs : List (Str × Str)} {file : FmpFile} {as : List Action}
    (h : CompilingHangs p noTesting file inputs as) : ∃ N, ∀ fuel n, N ≤ fuel → N ≤ n →
      compileInputs (fun env => evalCalc env fuel) p n noTesting inputs file = (as, .error .fuel) := by
  induction h with
  | @testing file tmp file' base text rest hg hf ht =>
    refine ⟨0, fun fuel n _ _ => ?_⟩
    have hc := testing_hang_found ht fuel n
    subst hf
    rw [compileInputs]
    unfold compileInput
    rw [hg, ok_bind, stripBurn_some.mpr rfl]
    dsimp only [unwrap, liftR, Trace.quiet, pure, Except.pure, bind, Except.bind]
    rw [Trace.andThen_of_ok, hc]
    rfl
  | @later file tmp file' base text rest shown as content hg hf ht hb _ ih =>
    obtain ⟨a, ha⟩ := tested_found ht
    obtain ⟨b, hb'⟩ := ih
    refine ⟨max a b, fun fuel n hfu hn => ?_⟩
    have h1 := compileInput_of (f := file) (base := base) hg hf (ha fuel n (by omega) (by omega)) hb
    rw [compileInputs]
    have := Trace.andThen_pair h1 (hb' fuel n (by omega) (by omega))
    rw [List.append_assoc] at this
    exact this

theorem decompile_hang_found {inputs : List Bytes} {file : FmpFile} {as : List Action}
    (h : DecompilingHangs p noTesting file inputs as) : ∃ N, ∀ fuel n, N ≤ fuel → N ≤ n →
      decompileInputs (fun env => evalCalc env fuel) p n noTesting inputs file = (as, .error .fuel) := by
  induction h with
  | bytes hg =>
    refine ⟨0, fun fuel n _ hn => ?_⟩
    rw [decompileInputs]
    unfold decompileInput
    rw [hg n]
    rfl
  | @testing file tmp buf rest hg ht =>
    obtain ⟨k, hk⟩ := hg
    refine ⟨k, fun fuel n hfu hn => ?_⟩
    rw [decompileInputs]
    unfold decompileInput
    rw [decompile_mono hk (by simp) n (by omega)]
    dsimp only [Trace.quiet]
    rw [Trace.andThen_of_ok, testing_hang_found ht fuel n]
    rfl
  | @later file tmp buf rest shown as hg ht _ ih =>
    obtain ⟨k, hk⟩ := hg
    obtain ⟨a, ha⟩ := tested_found ht
    obtain ⟨b, hb⟩ := ih
    refine ⟨max k (max a b), fun fuel n hfu hn => ?_⟩
    have h1 : decompileInput (fun env => evalCalc env fuel) p n noTesting file buf = (shown, .ok (file.merge tmp)) := by
      unfold decompileInput
      rw [decompile_mono hk (by simp) n (by omega)]
      have := Trace.andThen_pair (f := fun _ => (([], .ok (file.merge tmp)) : Trace FmpFile)) (ha fuel n (by omega) (by omega)) rfl
      rw [List.append_nil] at this
      exact Trace.andThen_pair (as := []) rfl this
    rw [decompileInputs]
    exact Trace.andThen_pair h1 (hb fuel n (by omega) (by omega))

end BurnFm
