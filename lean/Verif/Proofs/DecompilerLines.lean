import Verif.Proofs.DecompilerOutput
import Verif.Proofs.ScriptFold
import Verif.Proofs.Raw

/-! The lines written for a file that is described. -/

namespace BurnFm
open Spec (Event What Raw FileDef StoredScript StepDef ParamDef)

/-! Lines that depend on the keys and values in a file only -/

def chunkKv {α : Type} (sel : DirPath → Nat → Bytes → List α) (ch : Chunk) : List α :=
  match ch.refSimple, ch.data with
  | some k, some d => sel ch.path k d
  | _, _ => []

def eventKv {α : Type} (sel : DirPath → Nat → Bytes → List α) (e : Event) : List α :=
  match e.what with
  | .kv k d => sel e.path k d
  | _ => []

def rawKv {α : Type} (sel : DirPath → Nat → Bytes → List α) (r : Raw) : List α :=
  match r.event with
  | some e => eventKv sel e
  | none => []

theorem match_kv {α : Type} (sel : DirPath → Nat → Bytes → List α) (r : Raw) (ch : Chunk) (h : Match r ch) :
    chunkKv sel ch = rawKv sel r := by
  have hs := h.shape.ref
  have hd := h.shape.data
  have hm := h.meaning
  have hp := h.path
  obtain ⟨rp, rc, ro, rw'⟩ := r
  dsimp only at hm hp
  subst hp
  unfold rawKv Raw.event
  dsimp only
  rw [← hm]
  cases hk : ch.refSimple with
  | none =>
    have hx : ∀ k d, meaning ch ≠ some (.kv k d) := by
      intro k d hm
      unfold meaning at hm
      rw [hk] at hm
      split at hm <;> simp_all
    unfold chunkKv
    rw [hk]
    cases hw : meaning ch with
    | none => rfl
    | some w =>
      cases w with
      | kv k d => exact absurd hw (hx k d)
      | _ => rfl
  | some k =>
    have hc : ch.ctype = .refSimple := hs.mpr (by rw [hk]; simp)
    obtain ⟨d, hd⟩ := Option.ne_none_iff_exists'.mp (hd (.inl hc))
    unfold chunkKv meaning
    rw [hc, hk, hd]
    rfl

theorem flatMap_seen {α : Type} (sel : DirPath → Nat → Bytes → List α) (raws : List Raw) :
    raws.flatMap (rawKv sel) = (Spec.seen raws).flatMap (eventKv sel) := by
  induction raws with
  | nil => rfl
  | cons r rs ih =>
    unfold Spec.seen at ih ⊢
    rw [List.flatMap_cons, List.filterMap_cons, ih]
    unfold rawKv
    cases r.event <;> rfl

theorem flatMap_filter {α β : Type} (f : α → List β) (q : α → Bool) (h : ∀ a, q a = false → f a = []) (l : List α) :
    l.flatMap f = (l.filter q).flatMap f := by
  induction l with
  | nil => rfl
  | cons a l ih =>
    rw [List.flatMap_cons, List.filter_cons, ih]
    cases hq : q a with
    | true => rfl
    | false => rw [h a hq]; rfl

/-! The three kinds of lines -/

def selSource (path : DirPath) (k : Nat) (d : Bytes) : List Nat :=
  match classify path with
  | .occurrence => if k = 2 ∧ 6 < d.length then [(d.getD 2 0).toNat] else []
  | _ => []

def selCalc (path : DirPath) (k : Nat) (d : Bytes) : List DecLine :=
  match classify path with
  | .stepValue _ _ => if k = 5 then calcLines d else []
  | .stepExpr _ _ => if k = 5 then calcLines d else []
  | _ => []

theorem calcLines_shown (d : Bytes) : (calcLines d).filterMap Spec.DecLine.shown = [] :=
  List.filterMap_eq_nil_iff.mpr fun l hl => by rw [calcLines_intrinsic d l hl]; rfl

theorem calcLines_count (d : Bytes) : (calcLines d).count .intrinsic = (calcLines d).length :=
  List.count_eq_length.mpr fun l hl => (calcLines_intrinsic d l hl).symm

theorem dispatchLines_shown (st : DState) (ch : Chunk) :
    (dispatchLines st ch.path ch).filterMap Spec.DecLine.shown = chunkKv selSource ch := by
  unfold dispatchLines chunkKv selSource
  cases classify ch.path <;> dsimp only
  case occurrence =>
    cases hk : ch.refSimple with
    | none => simp
    | some k =>
      cases hd : ch.data with
      | none => simp
      | some d =>
        dsimp only
        by_cases h2 : k = 2
        · subst h2
          by_cases h6 : 6 < d.length
          · simp [h6, Spec.DecLine.shown]
          · simp [h6]
        · simp [h2]
  all_goals
    repeat' split
    all_goals first | rfl | exact calcLines_shown _

theorem dispatchLines_count (st : DState) (ch : Chunk) :
    (dispatchLines st ch.path ch).count .intrinsic ≤ (chunkKv selCalc ch).length := by
  unfold dispatchLines chunkKv selCalc
  cases classify ch.path <;> dsimp only
  case stepValue s k =>
    cases ch.refSimple with
    | none => simp
    | some k =>
      dsimp only [Option.getD]
      cases ch.data with
      | none => simp
      | some d =>
        dsimp only
        by_cases h : k = 5
        · rw [if_pos h, calcLines_count]; simp
        · simp [h]
  case stepExpr s k =>
    cases ch.refSimple with
    | none => simp
    | some k =>
      dsimp only [Option.getD]
      cases ch.data with
      | none =>
        dsimp only
        repeat' split
        all_goals simp_all
      | some d =>
        dsimp only
        by_cases h : k = 5
        · rw [if_pos h, if_pos h]
          repeat' split
          all_goals first | exact Nat.zero_le _ | (rw [calcLines_count]; exact Nat.le_refl _)
        · simp [h]
  all_goals
    repeat' split
    all_goals simp

theorem said_shown {p : Profile} {raws : List Raw} {chs : List Chunk} (h : Aligned raws chs) : ∀ {st st' : DState}, runChunks p st chs = .ok st' →
    (saidOf p st chs).filterMap Spec.DecLine.shown = (Spec.seen raws).flatMap (eventKv selSource) := by
  rw [← flatMap_seen]
  induction h with
  | nil => intro _ _ _; rfl
  | @cons r ch raws chs hm _ ih =>
    intro st st' hr
    rw [runChunks_cons] at hr
    obtain ⟨st₁, h1, h2⟩ := bind_ok.mp hr
    rw [saidOf, h1]
    dsimp only
    rw [List.filterMap_append, ih h2, dispatchLines_shown, match_kv selSource _ _ hm]
    rfl
  | @skip ch raws chs hp _ ih =>
    intro st st' hr
    rw [runChunks_cons] at hr
    obtain ⟨st₁, h1, h2⟩ := bind_ok.mp hr
    rw [saidOf, h1]
    dsimp only
    rw [List.filterMap_append, ih h2, hp]
    rfl

theorem said_known {p : Profile} : ∀ (chs : List Chunk) (st : DState), ∀ l ∈ saidOf p st chs, l.isUnknown = false := by
  intro chs
  induction chs with
  | nil => intro st l hl; cases hl
  | cons ch chs ih =>
    intro st l hl
    rw [saidOf] at hl
    rcases List.mem_append.mp hl with hl | hl
    · exact dispatchLines_known _ _ _ l hl
    · cases hd : dispatch p st ch.path ch with
      | error e => rw [hd] at hl; cases hl
      | ok st' => rw [hd] at hl; exact ih st' l hl

/-! What the description says -/

theorem source_about (e : Event) (h : Spec.aboutGraph e = false) : eventKv selSource e = [] := by
  obtain ⟨path, w⟩ := e
  unfold eventKv
  cases w with
  | kv k d =>
    dsimp only
    unfold selSource
    cases hc : classify path <;> first | rfl | skip
    obtain ⟨h1, h2⟩ := of_classify_occurrence hc
    dsimp only
    rw [if_neg]
    rintro ⟨rfl, _⟩
    simp [Spec.aboutGraph, h1, h2] at h
  | _ => rfl

theorem calc_about (e : Event) (h : Spec.aboutScripts e = false) : eventKv selCalc e = [] := by
  obtain ⟨path, w⟩ := e
  unfold eventKv
  cases w with
  | kv k d =>
    dsimp only
    unfold selCalc
    cases hc : classify path <;> first | rfl | skip
    · have := of_classify_stepExpr hc
      subst this
      dsimp only
      rw [if_neg]
      rintro rfl
      simp [Spec.aboutScripts, Spec.scriptPlace] at h
    · have := of_classify_stepValue hc
      subst this
      dsimp only
      rw [if_neg]
      rintro rfl
      simp [Spec.aboutScripts, Spec.scriptPlace] at h
  | _ => rfl

theorem source_graph (os : List Spec.OccurrenceDef) (cs : List Spec.CriterionDef) (hok : ∀ o ∈ os, 7 ≤ o.info.length) :
    (Spec.graphEvents fmStringEncrypt os cs).flatMap (eventKv selSource) = os.map (Spec.byteAt ·.info 2) := by
  unfold Spec.graphEvents
  rw [List.flatMap_append]
  have h2 : (cs.map Spec.criterionEvent).flatMap (eventKv selSource) = [] := by
    rw [List.flatMap_eq_nil_iff]
    intro e he
    obtain ⟨c, _, rfl⟩ := List.mem_map.mp he
    unfold eventKv Spec.criterionEvent selSource
    dsimp only
    rw [classify_join]
  rw [h2, List.append_nil]
  induction os with
  | nil => rfl
  | cons o os ih =>
    rw [List.flatMap_cons, List.flatMap_append, ih fun o' h => hok o' (by simp [h]), List.map_cons]
    have h3 : (o.links.map fun l => (⟨[3, 17, 5, 0, 251], .data l⟩ : Event)).flatMap (eventKv selSource) = [] := by
      rw [List.flatMap_eq_nil_iff]
      intro e he
      obtain ⟨c, _, rfl⟩ := List.mem_map.mp he
      rfl
    unfold Spec.occurrenceEvents
    rw [List.flatMap_append, h3, List.append_nil]
    have h7 := hok o (by simp)
    have e1 : eventKv selSource ⟨[3, 17, 5, 0], .kv 2 o.info⟩ = [Spec.byteAt o.info 2] := by
      show (if 2 = 2 ∧ 6 < o.info.length then [(o.info.getD 2 0).toNat] else []) = _
      rw [if_pos ⟨rfl, by omega⟩]
      rfl
    have e2 : eventKv selSource ⟨[3, 17, 5, 0], .kv 16 (fmStringEncrypt o.name)⟩ = [] := by
      show (if 16 = 2 ∧ 6 < (fmStringEncrypt o.name).length then [((fmStringEncrypt o.name).getD 2 0).toNat] else []) = _
      rw [if_neg (by omega)]
    rw [List.flatMap_cons, List.flatMap_cons, e1, e2]
    rfl

theorem unknownFunctions_append (a b : List Spec.CalcItem) :
    Spec.unknownFunctions (a ++ b) = Spec.unknownFunctions a + Spec.unknownFunctions b := List.countP_append

/-! The reports of unknown functions -/

theorem lines_same (st : DState) (path : DirPath) {ch ch' : Chunk} (h1 : ch.refSimple = ch'.refSimple)
    (h2 : ch.refSimple ≠ none → ch.data = ch'.data) : dispatchLines st path ch = dispatchLines st path ch' := by
  unfold dispatchLines
  cases hk : ch.refSimple with
  | none =>
    rw [← h1, hk]
    cases classify path <;> rfl
  | some k => rw [← h1, hk, h2 (by rw [hk]; simp)]

theorem lines_meaning (st : DState) {ch : Chunk} {w : What} (hs : Shape ch) (hm : meaning ch = some w) :
    dispatchLines st ch.path ch = dispatchLines st ch.path (toChunk ⟨ch.path, w⟩) := by
  cases hk : ch.refSimple with
  | none =>
    have hx : (toChunk ⟨ch.path, w⟩).refSimple = none := by
      cases w with
      | kv k d =>
        exfalso
        unfold meaning at hm
        rw [hk] at hm
        split at hm <;> simp_all
      | _ => rfl
    exact lines_same _ _ (by rw [hk, hx]) (fun h => absurd hk h)
  | some k =>
    have hc : ch.ctype = .refSimple := hs.ref.mpr (by rw [hk]; simp)
    obtain ⟨d, hd⟩ := Option.ne_none_iff_exists'.mp (hs.data (.inl hc))
    have : meaning ch = some (.kv k d) := by unfold meaning; rw [hc, hk, hd]
    rw [this] at hm
    cases hm
    exact lines_same _ _ hk (fun _ => hd)

/-- The number of reports for an event. -/
def reports (st : DState) (e : Event) : Nat := (dispatchLines st e.path (toChunk e)).count .intrinsic

theorem chunkKv_event {α : Type} (sel : DirPath → Nat → Bytes → List α) (e : Event) : chunkKv sel (toChunk e) = eventKv sel e := by
  obtain ⟨path, w⟩ := e
  cases w <;> rfl

theorem toChunk_path (e : Event) : (toChunk e).path = e.path := by
  obtain ⟨path, w⟩ := e
  cases w <;> rfl

theorem reports_none (st : DState) (e : Event) (h : eventKv selCalc e = []) : reports st e = 0 := by
  have := dispatchLines_count st (toChunk e)
  rw [chunkKv_event, h, toChunk_path] at this
  exact Nat.le_zero.mp this

/-- The number of reports in a run. -/
def runReports (p : Profile) : DState → List Event → Nat
  | _, [] => 0
  | st, e :: es => reports st e + match edispatch p st e with
    | .ok st' => runReports p st' es
    | .error _ => 0

theorem runReports_append {p : Profile} : ∀ (a b : List Event) {st st' : DState}, runEvents p st a = .ok st' →
    runReports p st (a ++ b) = runReports p st a + runReports p st' b := by
  intro a b
  induction a with
  | nil => intro st st' h; cases h; exact (Nat.zero_add _).symm
  | cons e a ih =>
    intro st st' h
    rw [runEvents_cons] at h
    obtain ⟨st₁, h1, h2⟩ := bind_ok.mp h
    rw [List.cons_append, runReports, runReports, h1]
    dsimp only
    rw [ih h2, Nat.add_assoc]

theorem runReports_none {p : Profile} : ∀ (a : List Event) (st : DState), (∀ e ∈ a, eventKv selCalc e = []) → runReports p st a = 0 := by
  intro a
  induction a with
  | nil => intro st _; rfl
  | cons e a ih =>
    intro st h
    rw [runReports, reports_none st e (h e (by simp))]
    cases edispatch p st e with
    | error x => rfl
    | ok st' => rw [Nat.zero_add]; exact ih st' fun e' he => h e' (by simp [he])

theorem runReports_single {p : Profile} {st st' : DState} {e : Event} {es : List Event} (h : edispatch p st e = .ok st') :
    runReports p st (e :: es) = reports st e + runReports p st' es := by
  rw [runReports, h]

/-- The reports in a file are those for the events about scripts. -/
theorem said_reports {p : Profile} {raws : List Raw} {chs : List Chunk} (h : Aligned raws chs) : ∀ {D T G L S st' : DState},
    runChunks p (graft D (merge T G L S)) chs = .ok st' →
    (saidOf p (graft D (merge T G L S)) chs).count .intrinsic = runReports p S ((Spec.seen raws).filter Spec.aboutScripts) := by
  induction h with
  | nil => intro _ _ _ _ _ _ _; rfl
  | @skip ch raws chs hp _ ih =>
    intro D T G L S st' hr
    rw [runChunks_cons] at hr
    obtain ⟨st₁, h1, h2⟩ := bind_ok.mp hr
    rw [saidOf, h1]
    dsimp only
    have h0 : dispatch p (graft D (merge T G L S)) ch.path ch = .ok (graft D (merge T G L S)) := by rw [hp]; rfl
    rw [h0] at h1
    cases h1
    rw [List.count_append, ih h2, hp]
    exact Nat.zero_add _
  | @cons r ch raws chs hm _ ih =>
    intro D T G L S st' hr
    rw [runChunks_cons] at hr
    obtain ⟨st₁, h1, h2⟩ := bind_ok.mp hr
    rw [saidOf, h1]
    dsimp only
    rw [List.count_append]
    have hcount := dispatchLines_count (graft D (merge T G L S)) ch
    rw [match_kv selCalc _ _ hm] at hcount
    have hpath : ch.path = r.path := hm.path
    cases hsrc : isSource (classify r.path) with
    | true =>
      have hz : rawKv selCalc r = [] := by
        unfold rawKv Raw.event eventKv
        cases r.what with
        | none => rfl
        | some w =>
          cases w with
          | kv k d =>
            dsimp only [Option.map]
            unfold selCalc
            cases hc : classify r.path <;> rw [hc] at hsrc <;> first | rfl | cases hsrc
          | _ => rfl
      have hskip : (Spec.seen (r :: raws)).filter Spec.aboutScripts = (Spec.seen raws).filter Spec.aboutScripts := by
        unfold Spec.seen
        rw [List.filterMap_cons]
        cases he : r.event with
        | none => rfl
        | some e =>
          have hep : e.path = r.path := by
            unfold Raw.event at he
            cases hw : r.what with
            | none => rw [hw] at he; cases he
            | some w => rw [hw] at he; cases he; rfl
          refine filter_skip ?_
          cases hf : Spec.aboutScripts e with
          | false => rfl
          | true =>
            have := area_scripts hf
            unfold area at this
            rw [hep] at this
            cases hc : classify r.path <;> rw [hc] at hsrc this <;> first | (cases hsrc; done) | (cases this; done)
      rw [hz] at hcount
      rw [Nat.le_zero.mp hcount, hskip, Nat.zero_add]
      rw [dispatch_note hm hsrc] at h1
      cases hn : r.note with
      | none =>
        rw [hn] at h1
        cases h1
        exact ih h2
      | some nt =>
        rw [hn] at h1
        dsimp only at h1
        rw [graft_note] at h1
        obtain ⟨D1, _, rfl⟩ := map_ok_iff.mp h1
        exact ih h2
    | false =>
      have hsrc' : isSource (classify ch.path) = false := by rw [hpath]; exact hsrc
      have hwm := hm.meaning
      cases hw : r.what with
      | none =>
        rw [hw] at hwm
        have he : r.event = none := by unfold Raw.event; rw [hw]; rfl
        have hz : rawKv selCalc r = [] := by unfold rawKv; rw [he]
        rw [hz] at hcount
        have hsame : dispatch p (graft D (merge T G L S)) ch.path ch = .ok (graft D (merge T G L S)) := by
          refine dispatch_noop hm.shape hwm hsrc' fun s k hc => ?_
          have hd := h1
          unfold dispatch at hd
          rw [hc] at hd
          dsimp only at hd
          unfold armStepValue at hd
          have hk : ch.refSimple = none := by
            cases hk : ch.refSimple with
            | none => rfl
            | some k =>
              have hct : ch.ctype = .refSimple := hm.shape.ref.mpr (by rw [hk]; simp)
              obtain ⟨d, hd'⟩ := Option.ne_none_iff_exists'.mp (hm.shape.data (.inl hct))
              unfold meaning at hwm
              rw [hct, hk, hd'] at hwm
              cases hwm
          rw [hk, if_neg (by simp)] at hd
          cases hcon : HMap.contains (graft D (merge T G L S)).file.scripts s with
          | true => rfl
          | false => rw [hcon] at hd; cases hd
        rw [hsame] at h1
        cases h1
        rw [Nat.le_zero.mp hcount, Nat.zero_add, ih h2]
        unfold Spec.seen
        rw [List.filterMap_cons_none he]
      | some w =>
        rw [hw] at hwm
        have he : r.event = some ⟨ch.path, w⟩ := by unfold Raw.event; rw [hw, hpath]; rfl
        have hl : dispatchLines (graft D (merge T G L S)) ch.path ch = dispatchLines S ch.path (toChunk ⟨ch.path, w⟩) :=
          lines_meaning (graft D (merge T G L S)) hm.shape hwm
        rw [dispatch_meaning hm.shape hwm hsrc', graft_event _ _ _ _ hsrc'] at h1
        obtain ⟨u, h3, rfl⟩ := map_ok_iff.mp h1
        obtain ⟨T', G', L', S', rfl, _, _, _, h4⟩ := run_project p [⟨ch.path, w⟩] (by
          intro e hmem
          rw [List.mem_singleton] at hmem
          subst hmem
          exact area_not_source hsrc') (T := T) (G := G) (L := L) (S := S) (st' := u) (by rw [runEvents_cons, h3]; rfl)
        rw [ih h2]
        unfold Spec.seen
        rw [List.filterMap_cons_some he, List.filter_cons]
        cases hf : Spec.aboutScripts ⟨ch.path, w⟩ with
        | false =>
          rw [List.filter_cons_of_neg (by rw [hf]; simp)] at h4
          cases h4
          rw [hl]
          have := reports_none S ⟨ch.path, w⟩ (calc_about _ hf)
          unfold reports at this
          rw [show (dispatchLines S ch.path (toChunk ⟨ch.path, w⟩)).count .intrinsic = 0 from this, Nat.zero_add]
          rfl
        | true =>
          rw [List.filter_cons_of_pos hf, List.filter_nil, runEvents_cons] at h4
          obtain ⟨u', h5, h6⟩ := bind_ok.mp h4
          cases h6
          rw [if_pos rfl, runReports_single h5, hl]
          rfl

/-! The reports for scripts -/

theorem calcLines_valid_count {c : List Spec.CalcItem} (hv : ∀ i ∈ c, i.Valid fmStringEncrypt) :
    (calcLines (Spec.calcBytes fmStringEncrypt c)).count .intrinsic = Spec.unknownFunctions c := by
  rw [calcLines_items c hv, List.count_replicate_self]

theorem param_reports {p : Profile} {ss : List StoredScript} (hd : ss.Pairwise (·.id ≠ ·.id)) {s : StoredScript} (hs : s ∈ ss) (segs : HMap (HMap Bytes))
    (inst : Nat → List ScriptStep) (a b : List ScriptStep) (x : ScriptStep) (hi : inst s.id = a ++ x :: b) (ha : ∀ y ∈ a, y.index ≠ x.index)
    (q : ParamDef) (hq : q.Ok fmStringEncrypt x.opcode) :
    runReports p (scriptState ss inst segs) (q.events fmStringEncrypt s.id x.index) = Spec.unknownFunctions q.calc := by
  have hg := get_state hd hs inst segs
  have hr := param_event (p := p) hd hs segs inst a b x hi ha q hq
  cases q with
  | variableName v =>
    refine runReports_none _ _ fun e he => ?_
    rw [ParamDef.events, List.mem_singleton] at he
    subst he
    show selCalc [17, 5, s.id, 5, x.index, 128] 1 (fmStringEncrypt v) = []
    unfold selCalc; rw [classify_stepName]
  | result c =>
    obtain ⟨hop, hc⟩ := hq
    rw [ParamDef.events, runEvents_cons] at hr
    obtain ⟨u, h1, h2⟩ := bind_ok.mp hr
    rw [ParamDef.events, runReports_single h1]
    show reports _ _ + 0 = _
    unfold reports dispatchLines
    dsimp only
    rw [classify_stepExpr]
    dsimp only
    rw [if_pos (by simp [toChunk]), hg]
    dsimp only
    rw [hi, find_mid _ _ _ _ rfl ha]
    dsimp only
    rw [if_pos hop]
    exact calcLines_valid_count hc
  | value c =>
    have hc : ∀ i ∈ c, i.Valid fmStringEncrypt := hq
    rw [ParamDef.events, runEvents_cons] at hr
    obtain ⟨u, h1, h2⟩ := bind_ok.mp hr
    rw [runEvents_cons] at h2
    obtain ⟨u', h3, h4⟩ := bind_ok.mp h2
    rw [ParamDef.events, runReports_single h1, runReports_single h3, reports_none _ _ rfl]
    show 0 + (reports _ _ + 0) = _
    unfold reports dispatchLines
    dsimp only
    rw [classify_stepValue]
    dsimp only
    rw [if_pos (by simp [toChunk]), Nat.zero_add]
    exact calcLines_valid_count hc

theorem params_reports {p : Profile} {ss : List StoredScript} (hd : ss.Pairwise (·.id ≠ ·.id)) {s : StoredScript} (hs : s ∈ ss) (segs : HMap (HMap Bytes))
    (a b : List ScriptStep) (qs : List ParamDef) : ∀ (inst : Nat → List ScriptStep) (x : ScriptStep), inst s.id = a ++ x :: b →
    (∀ y ∈ a, y.index ≠ x.index) → (∀ q ∈ qs, q.Ok fmStringEncrypt x.opcode) →
    runReports p (scriptState ss inst segs) (qs.flatMap (ParamDef.events fmStringEncrypt s.id x.index)) =
      Spec.unknownFunctions (qs.flatMap ParamDef.calc) := by
  induction qs with
  | nil => intro inst x hi _ _; rfl
  | cons q qs ih =>
    intro inst x hi ha hq
    rw [List.flatMap_cons, List.flatMap_cons, runReports_append _ _ (param_event hd hs segs inst a b x hi ha q (hq q (by simp))),
      param_reports hd hs segs inst a b x hi ha q (hq q (by simp)), unknownFunctions_append]
    have := ih (upd inst s.id (a ++ { x with switches := x.switches ++ [q.text] } :: b)) { x with switches := x.switches ++ [q.text] }
      (upd_self _ _ _) ha (fun r hr => hq r (by simp [hr]))
    rw [← this]

theorem step_reports {p : Profile} {ss : List StoredScript} (hd : ss.Pairwise (·.id ≠ ·.id)) {s : StoredScript} (hs : s ∈ ss) (segs : HMap (HMap Bytes))
    (ts : List StepDef) : ∀ (done : List StepDef) (inst : Nat → List ScriptStep), (done ++ ts).Pairwise (·.index ≠ ·.index) →
    (∀ t ∈ ts, t.Ok fmStringEncrypt ss) → inst s.id = done.map (StepDef.step ss) ++ ts.map (baseStep ss) →
    runReports p (scriptState ss inst segs) (ts.flatMap fun t => t.params.flatMap (ParamDef.events fmStringEncrypt s.id t.index)) =
      Spec.unknownFunctions (ts.flatMap fun t => t.params.flatMap ParamDef.calc) := by
  induction ts with
  | nil => intro done inst _ _ hi; rfl
  | cons t ts ih =>
    intro done inst hp ht hi
    have ha : ∀ y ∈ done.map (StepDef.step ss), y.index ≠ (baseStep ss t).index := by
      intro y hy
      obtain ⟨u, hu, rfl⟩ := List.mem_map.mp hy
      exact (List.pairwise_append.mp hp).2.2 u hu t (by simp)
    have h1 := param_events (p := p) hd hs segs (done.map (StepDef.step ss)) (ts.map (baseStep ss)) t.params inst (baseStep ss t) hi ha
      (ht t (by simp)).params
    have h2 := params_reports (p := p) hd hs segs (done.map (StepDef.step ss)) (ts.map (baseStep ss)) t.params inst (baseStep ss t) hi ha
      (ht t (by simp)).params
    rw [show (baseStep ss t).index = t.index from rfl] at h1 h2
    rw [List.flatMap_cons, List.flatMap_cons, runReports_append _ _ h1, h2, unknownFunctions_append]
    rw [ih (done ++ [t]) _ (by simpa using hp) (fun u hu => ht u (by simp [hu])) (by
      rw [upd_self, List.map_append, List.append_assoc]
      rfl)]

theorem code_inline {p : Profile} {ss : List StoredScript} (hok : Spec.ScriptsOk fmStringEncrypt ss) {s : StoredScript} (hs : s ∈ ss)
    (inst : Nat → List ScriptStep) (segs : HMap (HMap Bytes)) (hi : inst s.id = []) :
    edispatch p (scriptState ss inst segs) ⟨[17, 5, s.id], .kv 4 (s.steps.flatMap (·.bytes))⟩ =
      .ok (scriptState ss (upd inst s.id (s.steps.map (baseStep ss))) segs) := by
  have hsteps := hok.steps s hs
  unfold edispatch dispatch
  dsimp only
  rw [classify_code]
  dsimp only
  unfold armScript
  rw [if_neg (by simp [toChunk]), if_neg (by simp [toChunk]), if_pos (by simp [toChunk])]
  simp only [toChunk, unwrap, ok_bind]
  rw [chunks28_steps _ (fun t ht => (hsteps t ht).length)]
  have := add_steps hok.ids hs segs 21 (by omega) (fun st ins => if 21 ≤ ins.length then (do
    match ← decodeStep st.file.scripts ins with
    | none => return st
    | some step =>
      let sc ← unwrap (st.file.scripts.get s.id)
      return st.setSteps s.id (sc.instructions ++ [step])) else return st) (fun st ins h => if_pos h) s.steps inst hsteps
  rw [hi, List.nil_append] at this
  exact this

theorem code_long {p : Profile} {ss : List StoredScript} (hok : Spec.ScriptsOk fmStringEncrypt ss) {s : StoredScript} (hs : s ∈ ss)
    (inst : Nat → List ScriptStep) (segs : HMap (HMap Bytes)) (hi : inst s.id = [])
    (hcode : ∀ (i : Nat) (t : StepDef), s.steps[i]? = some t → t.index = i) :
    edispatch p (scriptState ss inst segs) ⟨[17, 5, s.id], .segment 4 (s.steps.flatMap (·.bytes))⟩ =
      .ok (scriptState ss (upd inst s.id (s.steps.map (baseStep ss))) segs) := by
  have hsteps := hok.steps s hs
  unfold edispatch dispatch
  dsimp only
  rw [classify_code]
  dsimp only
  unfold armScript
  rw [if_neg (by simp [toChunk]), if_pos (by simp [toChunk])]
  simp only [toChunk, unwrap, ok_bind]
  rw [chunks28_steps _ (fun t ht => (hsteps t ht).length)]
  have := insert_steps hok.ids hs segs s.steps inst hsteps (fun i t ht => by rw [hi]; simpa using hcode i t ht)
  rw [hi, List.nil_append] at this
  exact this

theorem code_reports {p : Profile} {ss : List StoredScript} (hok : Spec.ScriptsOk fmStringEncrypt ss) {s : StoredScript} (hs : s ∈ ss)
    (inst : Nat → List ScriptStep) (segs : HMap (HMap Bytes)) (hi : inst s.id = []) :
    runReports p (scriptState ss inst segs) (Spec.codeEvents fmStringEncrypt s) =
      Spec.unknownFunctions (s.steps.flatMap fun t => t.params.flatMap ParamDef.calc) := by
  have hcode := hok.code s hs
  have hsteps := hok.steps s hs
  unfold Spec.codeEvents
  unfold StoredScript.CodeOk at hcode
  cases hk : s.code with
  | inline =>
    rw [hk] at hcode
    dsimp only at hcode ⊢
    have e1 := code_inline (p := p) hok hs inst segs hi
    have e2 := step_reports (p := p) hok.ids hs segs s.steps [] (upd inst s.id (s.steps.map (baseStep ss))) hcode hsteps (upd_self _ _ _)
    rw [runReports_single e1, reports_none _ _ (by
      show selCalc [17, 5, s.id] 4 (s.steps.flatMap (·.bytes)) = []
      unfold selCalc; rw [classify_code]), Nat.zero_add]
    exact e2
  | long =>
    rw [hk] at hcode
    dsimp only at hcode ⊢
    have e1 := code_long (p := p) hok hs inst segs hi hcode
    have hdist : s.steps.Pairwise (·.index ≠ ·.index) := by
      rw [List.pairwise_iff_getElem]
      intro i j hi hj hij
      rw [hcode i _ (List.getElem?_eq_getElem hi), hcode j _ (List.getElem?_eq_getElem hj)]
      omega
    have e2 := step_reports (p := p) hok.ids hs segs s.steps [] (upd inst s.id (s.steps.map (baseStep ss))) hdist hsteps (upd_self _ _ _)
    rw [runReports_single e1, reports_none _ _ rfl, Nat.zero_add]
    exact e2
  | segments g =>
    rw [hk] at hcode
    dsimp only at hcode ⊢
    have e : (s.steps.flatMap fun t => t.params.flatMap ParamDef.calc) = [] := by
      rw [List.flatMap_eq_nil_iff]
      intro t ht
      rw [hcode.1 t ht]
      rfl
    rw [e]
    refine runReports_none _ _ fun ev hev => ?_
    unfold Spec.segmentEvents at hev
    rcases List.mem_cons.mp hev with rfl | hev
    · rfl
    · obtain ⟨sg, _, rfl⟩ := List.mem_map.mp hev
      rfl

theorem codes_reports {p : Profile} {ss : List StoredScript} (hok : Spec.ScriptsOk fmStringEncrypt ss) (todo : List StoredScript) :
    ∀ (inst : Nat → List ScriptStep) (segs : HMap (HMap Bytes)), (∀ s ∈ todo, s ∈ ss) → todo.Pairwise (·.id ≠ ·.id) →
    (∀ s ∈ todo, inst s.id = [] ∧ HMap.contains segs s.id = false) →
    runReports p (scriptState ss inst segs) (todo.flatMap (Spec.codeEvents fmStringEncrypt)) =
      Spec.unknownFunctions (todo.flatMap fun s => s.steps.flatMap fun t => t.params.flatMap ParamDef.calc) := by
  induction todo with
  | nil => intro inst segs _ _ _; rfl
  | cons s todo ih =>
    intro inst segs hm hd hfresh
    rw [List.pairwise_cons] at hd
    rw [List.flatMap_cons, List.flatMap_cons, unknownFunctions_append,
      runReports_append _ _ (run_code hok (hm s (by simp)) inst segs (hfresh s (by simp)).1 (hfresh s (by simp)).2),
      code_reports hok (hm s (by simp)) inst segs (hfresh s (by simp)).1]
    rw [ih _ _ (fun x hx => hm x (by simp [hx])) hd.2 ?_]
    intro x hx
    have hne := hd.1 x hx
    obtain ⟨f1, f2⟩ := hfresh x (by simp [hx])
    constructor
    · rw [afterCode_other ss inst hne]; exact f1
    · rw [contains_append, f2]
      unfold segEntry
      cases s.code with
      | inline => rfl
      | long => rfl
      | segments g => simp [HMap.contains, hne]

theorem script_reports {p : Profile} {ss : List StoredScript} (hok : Spec.ScriptsOk fmStringEncrypt ss) :
    runReports p {} (Spec.scriptEvents fmStringEncrypt ss) =
      Spec.unknownFunctions (ss.flatMap fun s => s.steps.flatMap fun t => t.params.flatMap ParamDef.calc) := by
  have h1 := script_names (p := p) ss [] hok.ids
  rw [List.nil_append, show scriptState [] (fun _ => []) [] = {} from rfl] at h1
  unfold Spec.scriptEvents
  rw [runReports_append _ _ h1, runReports_none, Nat.zero_add]
  · exact codes_reports hok ss _ _ (fun s hs => hs) hok.ids (fun s hs => ⟨rfl, rfl⟩)
  · intro e he
    obtain ⟨s, _, rfl⟩ := List.mem_map.mp he
    show selCalc [17, 1, 7, s.id] 16 (fmStringEncrypt s.name) = []
    unfold selCalc; rw [classify_scriptMeta]

/-- The lines written for a described file, whenever it is read to its end. -/
theorem described_said {p : Profile} {buf : Bytes} {raws : List Raw} {d : FileDef} (hf : Spec.RawFileOf buf raws)
    (hd : Spec.Describes fmStringEncrypt encodeName raws d) (hok : d.WellFormed fmStringEncrypt) {fuel : Nat} {f : FmpFile}
    (h : decompile p buf fuel = .ok (some f)) :
    (decompileSaid p buf fuel).1.filterMap Spec.DecLine.shown = d.occurrences.map (Spec.byteAt ·.info 2) ∧
    (∀ l ∈ (decompileSaid p buf fuel).1, l.isUnknown = false) ∧
    (decompileSaid p buf fuel).1.count .intrinsic =
      Spec.unknownFunctions (d.scripts.flatMap fun s => s.steps.flatMap fun t => t.params.flatMap ParamDef.calc) := by
  obtain ⟨chs, hr, ho⟩ := rawSectors_aligned (p := p) hf.2
  rw [← decompileSaid_result] at h
  have key : ∃ st, runChunks p {} chs = .ok st ∧ (decompileSaid p buf fuel).1 = saidOf p {} chs := by
    unfold decompileSaid at h ⊢
    cases hg : getSector buf 4096 with
    | error e => rw [hg] at h; cases h
    | ok sec =>
      rw [hg] at h
      dsimp only at h ⊢
      rw [show sec.next = Spec.nextSector buf 1 from getSector_link hg] at h ⊢
      rcases hx : fileSaid p buf (Spec.nextSector buf 1) fuel 2 {} with ⟨ls, _ | _ | st⟩
      · rw [hx] at h; cases h
      · rw [hx] at h; cases h
      · exact ⟨st, fileSaid_said hr fuel {} st ls hx⟩
  obtain ⟨st, h1, h2⟩ := key
  rw [h2]
  refine ⟨?_, said_known chs {}, ?_⟩
  · rw [said_shown ho h1, flatMap_filter _ _ source_about, hd.graph, source_graph _ _ fun o hm => (hok.graph.info o hm).1]
  · have := said_reports (p := p) ho (D := {}) (T := {}) (G := {}) (L := {}) (S := {}) h1
    rw [hd.scripts, script_reports hok.scripts] at this
    exact this

end BurnFm
