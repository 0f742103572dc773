import Verif.Proofs.Warns
import Verif.Props.Means

/-! Property C137: the warnings of a calculation, exactly. -/

namespace BurnFm.Props
open Spec

/-- C137: evaluating an expression that has a value prints exactly the warnings of the specification, in their order. -/
theorem warnings_exact [Rt] (env : CalcEnv) (e : Node Rt.F) (ns : List Note) (v : Str) :
    (∃ fuel, evalNodeN env fuel e = ⟨ns, .ok v⟩) ↔ Means env e v ∧ Warns env e ns := by
  constructor
  · rintro ⟨n, h⟩
    have hv : evalNode env n e = .ok v := by rw [← evalNodeN_snd, h]
    obtain ⟨ms, hw⟩ := warns_total e (eval_means hv)
    have := evalNodeN_warns e hw hv
    rw [h] at this
    cases this
    exact ⟨eval_means hv, hw⟩
  · rintro ⟨hm, hw⟩
    obtain ⟨n, hn⟩ := (calculation_value_exact env e v).mpr hm
    exact ⟨n, evalNodeN_warns e hw hn⟩

/-- C137: an expression that has a value has exactly one list of warnings. -/
theorem warnings_unique [Rt] (env : CalcEnv) (e : Node Rt.F) (v : Str) (h : Means env e v) : ∃! ns, Warns env e ns := by
  obtain ⟨ns, hw⟩ := warns_total e h
  obtain ⟨n, hn⟩ := (calculation_value_exact env e v).mpr h
  refine ⟨ns, hw, fun ms hm => ?_⟩
  have h1 := evalNodeN_warns e hw hn
  rw [evalNodeN_warns e hm hn] at h1
  cases h1; rfl

/-- C137 for calculations as they are written, without colons: the value and the warnings are those of the expression the text is
read as. -/
theorem text_warnings_exact [Rt] (env : CalcEnv) (s : Str) (hs : ':' ∉ s) (ns : List Note) (v : Str) :
    (∃ fuel, evalCalcN env fuel s = ⟨ns, .ok v⟩) ↔ ∃ e, ReadAs s e ∧ Means env e v ∧ Warns env e ns := by
  have hq : (calcLexN .normal [] [] s).notes = [] := by
    have := calcLexN_all (fun _ => False) s .normal [] [] (fun h => absurd h hs)
    cases hn : (calcLexN .normal [] [] s).notes with
    | nil => rfl
    | cons a l => exact absurd (by rw [hn]; exact List.mem_cons_self) (this a)
  have key : ∀ fuel ts e, lexCalc s = .ok ts → parseCalc fuel ts = .ok e → evalCalcN env fuel s = evalNodeN env fuel e := by
    intro fuel ts e h1 h2
    have hl : calcLexN .normal [] [] s = ⟨[], .ok ts⟩ := by
      refine noted_eq ?_ hq
      rw [calcLexN_snd]
      exact liftR_ok.mpr h1
    unfold evalCalcN
    rw [hl, noted_ok_bind, h2]
    simp only [List.nil_append]
    show quiet (.ok e) >>= _ = _
    rw [quiet_bind]
  constructor
  · rintro ⟨n, h⟩
    have hv : evalCalc env n s = .ok v := by rw [← evalCalcN_snd, h]
    unfold evalCalc at hv
    obtain ⟨ts, h1, hv⟩ := ev_bind_ok.mp hv
    obtain ⟨e, h2, h3⟩ := ev_bind_ok.mp hv
    have h1 := liftR_ok.mp h1
    rw [key n ts e h1 h2] at h
    exact ⟨e, ⟨ts, n, h1, h2⟩, (warnings_exact env e ns v).mp ⟨n, h⟩⟩
  · rintro ⟨e, hr, hm, hw⟩
    obtain ⟨n, hn⟩ := (text_value_exact env s v).mpr ⟨e, hr, hm⟩
    obtain ⟨ts', f', h1', h2'⟩ := hr
    have hn' := hn
    unfold evalCalc at hn
    obtain ⟨ts, h1, hn⟩ := ev_bind_ok.mp hn
    obtain ⟨e', h2, h3⟩ := ev_bind_ok.mp hn
    have h1 := liftR_ok.mp h1
    have : ts' = ts := by rw [h1] at h1'; cases h1'; rfl
    subst this
    have e1 := (parseCalc_mono ts' (Nat.le_max_left n f')).eq (by rw [h2]; nofun)
    have e2 := (parseCalc_mono ts' (Nat.le_max_right n f')).eq (by rw [h2']; nofun)
    have : Except.ok e = (Except.ok e' : Ev (Node Rt.F)) := by rw [← h2, ← h2', e1, e2]
    cases this
    exact ⟨n, by rw [key n ts' e h1 h2]; exact evalNodeN_warns e hw h3⟩

/-- C137, and C127 exactly for names: looking up a text warns of the variable `x` exactly if it leads to `x`, and `x` is a variable
that is not set. Nothing else is printed. -/
theorem lookup_warning_iff (env : CalcEnv) (s x : Str) :
    (∃ ns, LookupWarns env s ns ∧ Note.unknownVariable x ∈ ns) ↔
      LeadsTo env s x ∧ isFloatText x = false ∧ isQuoted x = false ∧ (∀ occ f, splitCC x ≠ [occ, f]) ∧ Active env ∧
        varValue env x = none := by
  constructor
  · rintro ⟨ns, h, hx⟩
    induction h with
    | value _ => cases hx
    | unset h1 h2 h3 h4 h5 =>
      cases hx with
      | head => exact ⟨.here, h1, h2, h3, h4, h5⟩
      | tail _ h => cases h
    | next hs _ ih => obtain ⟨h, h'⟩ := ih hx; exact ⟨.next hs h, h'⟩
  · rintro ⟨h, h1, h2, h3, h4, h5⟩
    induction h with
    | here => exact ⟨_, .unset h1 h2 h3 h4 h5, List.mem_cons_self⟩
    | next hs _ ih =>
      obtain ⟨ns, hn, hx⟩ := ih h1 h2 h3 h5
      exact ⟨ns, .next hs hn, hx⟩

/-! ### A case that meets the hypotheses -/

/-- In `y + x`, where `y` is not set and `x` is 5, a warning names `y`, another one the empty text, which is the value of `y`, and a
third one says that the operands are not numbers. -/
example [Rt] : Means meansEnv (.binary (.variable t!"y") .plus (.variable t!"x")) t!"undefined" ∧
    Warns meansEnv (.binary (.variable t!"y") .plus (.variable t!"x")) [.unknownVariable t!"y", .unknownVariable [], .notNumbers] := by
  have hy : Resolves meansEnv t!"y" [] false :=
    .unset (by decide) (by decide) (by intro o f h; simp [splitCC] at h) ⟨0, _, rfl, rfl⟩ rfl
  have h0 : Resolves meansEnv [] [] false :=
    .unset (by decide) (by decide) (by intro o f h; simp [splitCC] at h) ⟨0, _, rfl, rfl⟩ rfl
  refine ⟨.undefined (by decide) (.variable hy) (.variable meansEnv_x) h0 (.number (by decide)) rfl, ?_⟩
  refine .undefined (ns := [.unknownVariable t!"y"]) (ms := []) (ns' := [.unknownVariable []]) (ms' := [])
    (.variable (.unset (by decide) (by decide) (by intro o f h; simp [splitCC] at h) ⟨0, _, rfl, rfl⟩ rfl))
    (.variable (.next (.var (by decide) (by decide) (by intro o f h; simp [splitCC] at h) rfl) (.value (.inl (by decide)))))
    (.variable hy) (.variable meansEnv_x)
    (.unset (by decide) (by decide) (by intro o f h; simp [splitCC] at h) ⟨0, _, rfl, rfl⟩ rfl)
    (.value (.inl (by decide))) ?_
  rintro ⟨⟨v, hv⟩, _⟩
  cases (resolves_unique _ _ _ _ _ _ hv h0).2

/-- The text of this expression. -/
example [Rt] : ReadAs t!"y + x" (.binary (.variable t!"y") .plus (.variable t!"x")) :=
  ⟨[⟨.identifier, t!"y"⟩, sym .plus, ⟨.identifier, t!"x"⟩], 100, rfl, calc_parses_grammar _ _ (.ofConcat (.ofExpr
    (.add (a := [⟨.identifier, t!"y"⟩]) (b := [⟨.identifier, t!"x"⟩]) (.inl rfl) (.ofTerm (.ofFactor (.variable (by decide))))
      (.ofFactor (.variable (by decide)))))) 100 (by decide)⟩

end BurnFm.Props
