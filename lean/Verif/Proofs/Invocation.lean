import Verif.Spec.Invocation
import Verif.Props.Verdicts
import Verif.Proofs.Main
import Verif.Proofs.Decompiler

/-! Invocations of the program with enough time. -/

namespace BurnFm
open Spec
variable [Rt] {p : Profile} {noTesting : Bool}

theorem tested_true {file : FmpFile} {as : List Action} {fuel n : Nat}
    (h : Tests (fun env => evalCalc env fuel) p n noTesting file as) : FileTested p noTesting file as := by
  rcases h with h | ⟨⟨h1, h2⟩, vs, h3, h4⟩
  · exact .inl h
  · obtain ⟨start, v, hs, hv⟩ := (Props.file_verdicts_exact p file vs).mp ⟨fuel, n, testFile_ok.mpr h3⟩
    exact .inr ⟨h1, h2, start, v, vs, hs, hv, h4⟩

theorem tested_found {file : FmpFile} {as : List Action} (h : FileTested p noTesting file as) :
    ∃ N, ∀ fuel n, N ≤ fuel → N ≤ n → maybeTest (fun env => evalCalc env fuel) p n noTesting file = (as, .ok ()) := by
  rcases h with ⟨h, rfl⟩ | ⟨h1, h2, start, v, vs, hs, hv, rfl⟩
  · refine ⟨0, fun fuel n _ _ => ?_⟩
    unfold maybeTest
    rw [if_neg]
    rcases h with h | h <;> simp [h]
  · obtain ⟨f, m, hm⟩ := (Props.file_verdicts_exact p file vs).mpr ⟨start, v, hs, hv⟩
    refine ⟨max f m, fun fuel n hf hn => ?_⟩
    have e := LeF.eq (testFile_leF (evalCalc_mono (show f ≤ fuel by omega)) p (show m ≤ n by omega) file) (by rw [hm]; simp)
    unfold maybeTest
    rw [if_pos (by simp [h1, h2]), ← e, hm]

theorem compiles_true {inputs : List (Str × Str)} {fuel n : Nat} : ∀ {file last : FmpFile} {as : List Action},
    compileInputs (fun env => evalCalc env fuel) p n noTesting inputs file = (as, .ok last) →
    CompilesTo p noTesting file inputs as last := by
  induction inputs with
  | nil => intro file last as h; cases h; exact .nil
  | cons x rest ih =>
    intro file last as h
    obtain ⟨name, text⟩ := x
    unfold compileInputs at h
    obtain ⟨f1, as1, as2, h1, h2, rfl⟩ := Trace.andThen_ok h
    obtain ⟨g, base, ts, b, hg, rfl, hf, ht, hb, rfl⟩ := compileInput_ok h1
    rw [List.append_assoc]
    exact .input hg hf (tested_true ht) hb (ih h2)

theorem compiles_found {inputs : List (Str × Str)} {file last : FmpFile} {as : List Action}
    (h : CompilesTo p noTesting file inputs as last) : ∃ N, ∀ fuel n, N ≤ fuel → N ≤ n →
      compileInputs (fun env => evalCalc env fuel) p n noTesting inputs file = (as, .ok last) := by
  induction h with
  | nil => exact ⟨0, fun _ _ _ _ => rfl⟩
  | @input file tmp file' last base text rest shown as content hg hf ht hb _ ih =>
    obtain ⟨a, ha⟩ := tested_found ht
    obtain ⟨b, hb'⟩ := ih
    refine ⟨max a b, fun fuel n hfu hn => ?_⟩
    have h1 := compileInput_of (f := file) (base := base) hg hf (ha fuel n (by omega) (by omega)) hb
    rw [compileInputs]
    have := Trace.andThen_pair h1 (hb' fuel n (by omega) (by omega))
    rw [List.append_assoc] at this
    exact this

theorem decompiles_true {inputs : List Bytes} {fuel n : Nat} : ∀ {file last : FmpFile} {as : List Action},
    decompileInputs (fun env => evalCalc env fuel) p n noTesting inputs file = (as, .ok last) →
    DecompilesTo p noTesting file inputs as last := by
  induction inputs with
  | nil => intro file last as h; cases h; exact .nil
  | cons buf rest ih =>
    intro file last as h
    unfold decompileInputs at h
    obtain ⟨f1, as1, as2, h1, h2, rfl⟩ := Trace.andThen_ok h
    obtain ⟨g, hg, hf, ht⟩ := decompileInput_ok h1
    exact .input ⟨n, hg⟩ hf (tested_true ht) (ih h2)

theorem decompiles_found {inputs : List Bytes} {file last : FmpFile} {as : List Action}
    (h : DecompilesTo p noTesting file inputs as last) : ∃ N, ∀ fuel n, N ≤ fuel → N ≤ n →
      decompileInputs (fun env => evalCalc env fuel) p n noTesting inputs file = (as, .ok last) := by
  induction h with
  | nil => exact ⟨0, fun _ _ _ _ => rfl⟩
  | @input file tmp file' last buf rest shown as hg hf ht _ ih =>
    obtain ⟨k, hk⟩ := hg
    obtain ⟨a, ha⟩ := tested_found ht
    obtain ⟨b, hb⟩ := ih
    refine ⟨max k (max a b), fun fuel n hfu hn => ?_⟩
    subst hf
    have h1 : decompileInput (fun env => evalCalc env fuel) p n noTesting file buf = (shown, .ok (file.merge tmp)) := by
      unfold decompileInput
      rw [decompile_mono hk (by simp) n (by omega)]
      have := Trace.andThen_pair (f := fun _ => (([], .ok (file.merge tmp)) : Trace FmpFile)) (ha fuel n (by omega) (by omega)) rfl
      rw [List.append_nil] at this
      exact Trace.andThen_pair (as := []) rfl this
    rw [decompileInputs]
    exact Trace.andThen_pair h1 (hb fuel n (by omega) (by omega))

theorem givenTests_of {texts : List Str} {gs : List FmpFile} (h : Compiled p texts gs) : ∀ f : FmpFile,
    givenTests p texts f = .ok { f with tests := f.tests ++ gs.flatMap (·.tests) } := by
  induction h with
  | nil => intro f; simp [givenTests, pure, Except.pure]
  | cons h1 _ ih =>
    intro f
    rw [givenTests, h1, ok_bind, ih]
    simp

theorem main_given {test : List Str} {given : List FmpFile} (h : Compiled p test given) (ev : Calculator) (n : Nat) {op : Operation} :
    mainProgram ev p n ⟨op, test, noTesting⟩ = (match op with
      | .compile inputs => compileInputs ev p n noTesting inputs { tests := given.flatMap (·.tests) }
      | .decompile inputs => decompileInputs ev p n noTesting inputs { tests := given.flatMap (·.tests) }) := by
  have hg : givenTests p test {} = .ok { tests := given.flatMap (·.tests) } := by simpa using givenTests_of h {}
  unfold mainProgram
  dsimp only
  rw [hg]
  cases op <;> exact Trace.andThen_pair (as := []) rfl rfl

end BurnFm
