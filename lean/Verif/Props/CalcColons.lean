import Verif.Proofs.CalcColons
import Verif.Props.CalcWords
import Verif.Props.CalcNotes
import Verif.Props.Warns

/-! Properties C129 and C137 for every text: the reports about colons, exactly. -/

namespace BurnFm.Props
open Spec

section
variable [Rt]

/-- C129, exactly: while a text is cut into words, one report is printed for each piece with a stray colon, and nothing else. -/
theorem colon_reports_exact (s : Str) (n : Nat) :
    (calcLexN .normal [] [] s).notes = List.replicate n .invalidColon ↔ ColonReports s n := colonReports_iff s n

theorem eval_notes (env : CalcEnv) (fuel : Nat) (s : Str) (ns : List Note) (hl : (calcLexN .normal [] [] s).notes = ns) :
    ∃ ms, (evalCalcN env fuel s).notes = ns ++ ms ∧ Note.invalidColon ∉ ms := by
  unfold evalCalcN
  rcases hc : calcLexN .normal [] [] s with ⟨ns', e | ts⟩
  · rw [hc] at hl; cases hl
    exact ⟨[], by rw [noted_bind, Noted.andThen]; simp, by simp⟩
  · rw [hc] at hl; cases hl
    refine ⟨_, rfl, ?_⟩
    have : AllNotes (· ≠ .invalidColon) (quiet (parseCalc fuel ts) >>= fun ast => evalNodeN env fuel ast) :=
      .bind (.quiet _) fun _ _ =>
        evalNodeN_all (fun v => operandValN_all _ env (fun _ _ _ h => nomatch h) fuel v) (fun h => nomatch h) _
    exact fun h => this _ h rfl

/-- C129, exactly: evaluating a text prints as many reports about colons as there are pieces with a stray colon. -/
theorem colon_reports_counted (env : CalcEnv) (fuel : Nat) (s : Str) (n : Nat) :
    (evalCalcN env fuel s).notes.count .invalidColon = n ↔ ColonReports s n := by
  obtain ⟨k, hk⟩ := colonReports_total s
  obtain ⟨ms, h1, h2⟩ := eval_notes env fuel s _ ((colonReports_iff s k).mpr hk)
  have hc : (evalCalcN env fuel s).notes.count .invalidColon = k := by
    rw [h1, List.count_append, List.count_replicate_self, List.count_eq_zero.mpr h2]; rfl
  rw [hc]
  constructor
  · rintro rfl; exact hk
  · intro h
    have := (colonReports_iff s n).mpr h
    rw [(colonReports_iff s k).mpr hk] at this
    simpa using congrArg List.length this

/-- C137 for every text: the warnings are those about colons, and then those of the expression the text is read as. -/
theorem text_reports_exact (env : CalcEnv) (s : Str) (ns : List Note) (v : Str) :
    (∃ fuel, evalCalcN env fuel s = ⟨ns, .ok v⟩) ↔ ∃ ts e n ms, CutInto s ts ∧ Calculation ts e ∧ Means env e v ∧
      ColonReports s n ∧ Warns env e ms ∧ ns = List.replicate n .invalidColon ++ ms := by
  obtain ⟨k, hk⟩ := colonReports_total s
  have hnotes := (colonReports_iff s k).mpr hk
  have key : ∀ fuel ts e, lexCalc s = .ok ts → parseCalc fuel ts = .ok e →
      evalCalcN env fuel s = ⟨List.replicate k .invalidColon ++ (evalNodeN env fuel e).notes, (evalNodeN env fuel e).result⟩ := by
    intro fuel ts e h1 h2
    have hl : calcLexN .normal [] [] s = ⟨List.replicate k .invalidColon, .ok ts⟩ := by
      refine noted_eq ?_ hnotes
      rw [calcLexN_snd]
      exact liftR_ok.mpr h1
    unfold evalCalcN
    rw [hl, noted_ok_bind, h2, quiet_bind]
  constructor
  · rintro ⟨n, h⟩
    have hv : evalCalc env n s = .ok v := by rw [← evalCalcN_snd, h]
    unfold evalCalc at hv
    obtain ⟨ts, h1, hv⟩ := ev_bind_ok.mp hv
    obtain ⟨e, h2, h3⟩ := ev_bind_ok.mp hv
    have h1 := liftR_ok.mp h1
    rw [key n ts e h1 h2] at h
    injection h with h4 h5
    obtain ⟨hm, hw⟩ := (warnings_exact env e _ v).mp ⟨n, noted_eq h5 rfl⟩
    exact ⟨ts, e, k, _, (lexCalc_iff s ts).mp h1, parseCalc_understood h2, hm, hk, hw, h4.symm⟩
  · rintro ⟨ts, e, n, ms, h1, h2, hm, hr, hw, rfl⟩
    have hn : n = k := by
      have := (colonReports_iff s n).mpr hr
      rw [hnotes] at this
      simpa using (congrArg List.length this).symm
    subst hn
    obtain ⟨f, hf⟩ := (warnings_exact env e ms v).mpr ⟨hm, hw⟩
    have hv : evalNode env f e = .ok v := by rw [← evalNodeN_snd, hf]
    refine ⟨max (10 * ts.length + 10) f, ?_⟩
    have e2 := (mono_le (x := fun f => evalNode env f e) (fun f => evalNode_mono env f e)
      (Nat.le_max_right (10 * ts.length + 10) f)).eq (by show evalNode env f e ≠ _; rw [hv]; nofun)
    have e2 : evalNode env f e = evalNode env (max (10 * ts.length + 10) f) e := e2
    rw [key _ ts e ((lexCalc_iff s ts).mpr h1) ((calc_reading_iff ts e _ (Nat.le_max_left _ _)).mpr h2),
      evalNodeN_warns e hw (e2.symm.trans hv)]

end

section Example
attribute [local instance] toyRt

/-- In `a:b c:` there are two stray colons; in `a:::b` there is none. -/
example : ColonReports t!"a:bc:" 2 ∧ ColonReports t!"a:::b" 0 := by
  constructor
  · refine .stray (w := t!"a:bc") (r := t!":") (.field (w := t!"a") (cs := t!":b") (a := []) (c := 'c')
      ⟨by intro c h; cases h; decide, by decide⟩ (.other (by decide)) (by simp) (by intro d h; cases h; decide))
      ⟨t!"a", t!"bc", rfl, ⟨by intro c h; cases h; decide, by decide⟩, by decide⟩ ?_
    exact .stray (w := t!":") (r := []) (.colonEnd (w := []) ⟨by simp, by simp⟩) ⟨[], [], rfl, ⟨by simp, by simp⟩, by simp⟩ .nil
  · exact .other (w := t!"a:::b") (r := []) (.field (w := t!"a") (cs := t!"::") (a := t!"b") (c := ':')
      ⟨by intro c h; cases h; decide, by decide⟩ .two (by decide +kernel) (by intro d h; cases h))
      (not_stray_pair (w := t!"a") ⟨by intro c h; cases h; decide, by decide⟩ t!":b") .nil

end Example

end BurnFm.Props
