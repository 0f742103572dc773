import Verif.Proofs.GraphFold
import Verif.Proofs.DecompileCalc
import Verif.Props.InstructionMap
import Verif.Props.DecompileCalc

/-! Running the events about scripts. -/

namespace BurnFm
open Spec (Event What StoredScript StepDef ParamDef byteAt)

/-- Scripts with the names of `ss` and the given steps. -/
def scriptState (ss : List StoredScript) (inst : Nat → List ScriptStep) (segs : HMap (HMap Bytes)) : DState :=
  { file := { scripts := ss.map fun s => (s.id, { name := s.name, instructions := inst s.id }) }, segments := segs }

def upd (inst : Nat → List ScriptStep) (k : Nat) (v : List ScriptStep) : Nat → List ScriptStep := fun j => if j = k then v else inst j

theorem upd_self (inst : Nat → List ScriptStep) (k : Nat) (v : List ScriptStep) : upd inst k v k = v := by simp [upd]
theorem upd_other {inst : Nat → List ScriptStep} {k j : Nat} (h : j ≠ k) (v : List ScriptStep) : upd inst k v j = inst j := by simp [upd, h]
theorem upd_upd (inst : Nat → List ScriptStep) (k : Nat) (v w : List ScriptStep) : upd (upd inst k v) k w = upd inst k w := by
  funext j; unfold upd; split <;> rfl
theorem upd_same {inst : Nat → List ScriptStep} {k : Nat} {v : List ScriptStep} (h : inst k = v) : upd inst k v = inst := by
  funext j; unfold upd; split
  · rename_i hj; rw [hj, h]
  · rfl

theorem setSteps_state (ss : List StoredScript) (inst : Nat → List ScriptStep) (segs : HMap (HMap Bytes)) (k : Nat) (steps : List ScriptStep) :
    (scriptState ss inst segs).setSteps k steps = scriptState ss (upd inst k steps) segs := by
  unfold DState.setSteps scriptState HMap.modify
  dsimp only
  rw [List.map_map]
  congr 3
  funext s
  simp only [Function.comp, upd]
  split <;> rfl

theorem get_state {ss : List StoredScript} (hd : ss.Pairwise (·.id ≠ ·.id)) {s : StoredScript} (hs : s ∈ ss) (inst : Nat → List ScriptStep)
    (segs : HMap (HMap Bytes)) : (scriptState ss inst segs).file.scripts.get s.id = some { name := s.name, instructions := inst s.id } := by
  unfold scriptState
  dsimp only
  refine HMap.get_of_mem ?_ (List.mem_map.mpr ⟨s, hs, rfl⟩)
  rw [List.map_map]
  exact List.pairwise_map.mpr hd

theorem nameOf_mem {ss : List StoredScript} (hd : ss.Pairwise (·.id ≠ ·.id)) {s : StoredScript} (hs : s ∈ ss) : Spec.nameOf ss s.id = s.name := by
  induction ss with
  | nil => cases hs
  | cons x ss ih =>
    rw [List.pairwise_cons] at hd
    unfold Spec.nameOf
    rcases List.mem_cons.mp hs with rfl | hs
    · simp
    · have := hd.1 s hs
      rw [List.find?_cons_of_neg (by simpa using this)]
      exact ih hd.2 hs

/-- A step before its parameters. -/
def baseStep (ss : List StoredScript) (t : StepDef) : ScriptStep :=
  { opcode := t.op, index := t.index, switches := if t.op = .performScript then [Spec.nameOf ss t.callee] else [] }

theorem chunks28_steps (ts : List StepDef) (h : ∀ t ∈ ts, t.bytes.length = 28) : chunks28 (ts.flatMap (·.bytes)) = ts.map (·.bytes) := by
  induction ts with
  | nil => exact chunks28_nil
  | cons t ts ih =>
    have ht := h t (by simp)
    rw [List.flatMap_cons, chunks28_cons (by intro e; rw [List.append_eq_nil_iff] at e; rw [e.1] at ht; cases ht),
      List.take_left' ht, List.drop_left' ht, ih (fun x hx => h x (by simp [hx])), List.map_cons]

theorem idx_getD {b : Bytes} {i : Nat} (h : i < b.length) : idx b i = .ok (b.getD i 0) :=
  idx_of (by rw [List.getD_eq_getElem?_getD, List.getElem?_eq_getElem h]; rfl)

theorem decode_step {ss : List StoredScript} (hd : ss.Pairwise (·.id ≠ ·.id)) {t : StepDef} (ht : t.Ok fmStringEncrypt ss)
    (inst : Nat → List ScriptStep) (segs : HMap (HMap Bytes)) :
    decodeStep (scriptState ss inst segs).file.scripts t.bytes = .ok (some (baseStep ss t)) := by
  have hl := ht.length
  unfold decodeStep
  rw [idx_getD (by omega), ok_bind]
  have h1 : idx instructionMap (t.bytes.getD 21 0).toNat = .ok (some t.op) := by
    have := ht.op
    unfold byteAt at this
    rw [this]
    exact idx_of (Props.instruction_map_complete_partial t.op ht.notAssert)
  rw [h1, ok_bind]
  dsimp only
  have h2 : (if t.op = .performScript then do
        let k ← idx t.bytes 8
        let sc ← unwrap ((scriptState ss inst segs).file.scripts.get k.toNat)
        return [sc.name]
      else return [] : Res (List Str)) = .ok (if t.op = .performScript then [Spec.nameOf ss t.callee] else []) := by
    split
    · rename_i hp
      obtain ⟨s, hs, he⟩ := ht.called hp
      rw [idx_getD (by omega), ok_bind]
      have := ht.callee
      unfold byteAt at this
      rw [← this, ← he, get_state hd hs, nameOf_mem hd hs]
      rfl
    · rfl
  rw [h2, ok_bind, idx_getD (by omega), ok_bind]
  obtain ⟨b0, b1, b2, b3, rest, hb⟩ : ∃ b0 b1 b2 b3 rest, t.bytes = b0 :: b1 :: b2 :: b3 :: rest := by
    match hi : t.bytes, hl with
    | b0 :: b1 :: b2 :: b3 :: rest, _ => exact ⟨_, _, _, _, _, rfl⟩
  have h3 : ∃ n, slice t.bytes 2 ((t.bytes.getD 0 0).toNat + 1) = .ok n ∧ getPathInt n = t.index := by
    rcases ht.index with ⟨e1, e2⟩ | ⟨e1, e2⟩
    · unfold byteAt at e1 e2
      rw [e1, e2, hb]
      exact ⟨[b2], by simp [slice], rfl⟩
    · unfold byteAt at e1 e2
      rw [e1, e2, hb]
      exact ⟨[b2, b3], by simp [slice], by rw [getPathInt_two]; rfl⟩
  obtain ⟨n, h3, h4⟩ := h3
  rw [h3, ok_bind, h4]
  rfl

theorem add_steps {ss : List StoredScript} (hd : ss.Pairwise (·.id ≠ ·.id)) {s : StoredScript} (hs : s ∈ ss) (segs : HMap (HMap Bytes)) (n : Nat)
    (hn : n ≤ 28) (f : DState → Bytes → Res DState)
    (hf : ∀ st ins, n ≤ ins.length → f st ins = (do
        match ← decodeStep st.file.scripts ins with
        | none => return st
        | some step =>
          let sc ← unwrap (st.file.scripts.get s.id)
          return st.setSteps s.id (sc.instructions ++ [step])))
    (ts : List StepDef) : ∀ (inst : Nat → List ScriptStep), (∀ t ∈ ts, t.Ok fmStringEncrypt ss) →
    (ts.map (·.bytes)).foldlM f (scriptState ss inst segs) =
      .ok (scriptState ss (upd inst s.id (inst s.id ++ ts.map (baseStep ss))) segs) := by
  induction ts with
  | nil =>
    intro inst _
    rw [show inst s.id ++ ([] : List StepDef).map (baseStep ss) = inst s.id from List.append_nil _, upd_same rfl]
    rfl
  | cons t ts ih =>
    intro inst h
    have ht := h t (by simp)
    rw [List.map_cons, List.foldlM_cons, hf _ _ (by rw [ht.length]; exact hn), decode_step hd ht, ok_bind]
    dsimp only
    rw [get_state hd hs]
    simp only [unwrap, ok_bind]
    rw [setSteps_state]
    show (Except.ok _ >>= _) = _
    rw [ok_bind, ih _ (fun x hx => h x (by simp [hx])), upd_self, upd_upd, List.append_assoc]
    rfl

/-- The same for steps numbered by their position. -/
theorem insert_steps {ss : List StoredScript} (hd : ss.Pairwise (·.id ≠ ·.id)) {s : StoredScript} (hs : s ∈ ss) (segs : HMap (HMap Bytes))
    (ts : List StepDef) : ∀ (inst : Nat → List ScriptStep), (∀ t ∈ ts, t.Ok fmStringEncrypt ss) →
    (∀ (i : Nat) t, ts[i]? = some t → t.index = (inst s.id).length + i) →
    (ts.map (·.bytes)).foldlM (fun st ins =>
      if 21 ≤ ins.length then do
        match ← decodeStep st.file.scripts ins with
        | none => return st
        | some step =>
          let sc ← unwrap (st.file.scripts.get s.id)
          let steps ← insertAt sc.instructions step.index step
          return st.setSteps s.id steps
      else return st) (scriptState ss inst segs) =
      .ok (scriptState ss (upd inst s.id (inst s.id ++ ts.map (baseStep ss))) segs) := by
  induction ts with
  | nil =>
    intro inst _ _
    rw [show inst s.id ++ ([] : List StepDef).map (baseStep ss) = inst s.id from List.append_nil _, upd_same rfl]
    rfl
  | cons t ts ih =>
    intro inst h hidx
    have ht := h t (by simp)
    have hi : (baseStep ss t).index = (inst s.id).length := hidx 0 t rfl
    rw [List.map_cons, List.foldlM_cons, if_pos (by rw [ht.length]; omega), decode_step hd ht, ok_bind]
    dsimp only
    have u : unwrap (some ({ name := s.name, instructions := inst s.id } : FScript)) = .ok { name := s.name, instructions := inst s.id } := rfl
    have ins : insertAt (inst s.id) (baseStep ss t).index (baseStep ss t) = .ok (inst s.id ++ [baseStep ss t]) := by
      rw [hi]; simp [insertAt]
    rw [get_state hd hs, u, ok_bind]
    dsimp only
    rw [ins, ok_bind, setSteps_state]
    show (Except.ok _ >>= _) = _
    rw [ok_bind, ih _ (fun x hx => h x (by simp [hx])) (fun i u hu => ?_), upd_self, upd_upd, List.append_assoc]
    · rfl
    · have := hidx (i + 1) u hu
      rw [upd_self, List.length_append]
      simp
      omega

/-! Parameters -/

theorem pushSwitch_mid (n : Nat) (s : Str) (a b : List ScriptStep) (x : ScriptStep) (hx : x.index = n) (ha : ∀ y ∈ a, y.index ≠ n) :
    pushSwitch (fun i => i.index == n) s (a ++ x :: b) = a ++ { x with switches := x.switches ++ [s] } :: b := by
  induction a with
  | nil => simp [pushSwitch, hx]
  | cons y a ih =>
    have := ha y (by simp)
    rw [List.cons_append, pushSwitch, if_neg (by simpa using this), ih (fun z hz => ha z (by simp [hz])), List.cons_append]

theorem find_mid (n : Nat) (a b : List ScriptStep) (x : ScriptStep) (hx : x.index = n) (ha : ∀ y ∈ a, y.index ≠ n) :
    (a ++ x :: b).find? (fun i => i.index == n) = some x := by
  rw [List.find?_append, List.find?_eq_none.mpr (by intro y hy; simpa using ha y hy)]
  simp [hx]

theorem param_event {p : Profile} {ss : List StoredScript} (hd : ss.Pairwise (·.id ≠ ·.id)) {s : StoredScript} (hs : s ∈ ss) (segs : HMap (HMap Bytes))
    (inst : Nat → List ScriptStep) (a b : List ScriptStep) (x : ScriptStep) (hi : inst s.id = a ++ x :: b) (ha : ∀ y ∈ a, y.index ≠ x.index)
    (q : ParamDef) (hq : q.Ok fmStringEncrypt x.opcode) :
    runEvents p (scriptState ss inst segs) (q.events fmStringEncrypt s.id x.index) =
      .ok (scriptState ss (upd inst s.id (a ++ { x with switches := x.switches ++ [q.text] } :: b)) segs) := by
  have hg := get_state hd hs inst segs
  cases q with
  | variableName v =>
    have hop : x.opcode = .setVariable := hq
    unfold ParamDef.events
    rw [runEvents_cons]
    unfold edispatch dispatch
    dsimp only
    rw [classify_stepName]
    dsimp only
    unfold armStepName
    rw [if_pos (by simp [toChunk]), hg]
    simp only [unwrap, ok_bind]
    rw [hi, find_mid _ _ _ _ rfl ha]
    dsimp only
    rw [if_pos hop, pushSwitch_mid _ _ _ _ _ rfl ha, setSteps_state]
    simp only [dataOr, toChunk, Option.getD_some, decrypt_encrypt]
    rfl
  | result c =>
    obtain ⟨hop, hc⟩ := hq
    unfold ParamDef.events
    rw [runEvents_cons]
    unfold edispatch dispatch
    dsimp only
    rw [classify_stepExpr]
    dsimp only
    unfold armStepExpr
    rw [if_pos (by simp [toChunk]), hg]
    simp only [unwrap, ok_bind]
    rw [hi, find_mid _ _ _ _ rfl ha]
    dsimp only
    rw [if_neg (by rw [hop]; simp), if_pos hop]
    simp only [toChunk, ok_bind, Spec.calcBytes]
    rw [Props.calculation_items c hc, ok_bind, pushSwitch_mid _ _ _ _ _ rfl ha, setSteps_state]
    rfl
  | value c =>
    have hc : ∀ i ∈ c, i.Valid fmStringEncrypt := hq
    unfold ParamDef.events
    rw [runEvents_cons]
    have e1 : edispatch p (scriptState ss inst segs) ⟨[17, 5, s.id, 5, x.index, 129, 5], .push⟩ = .ok (scriptState ss inst segs) := by
      unfold edispatch dispatch
      dsimp only
      rw [classify_stepValue]
      dsimp only
      unfold armStepValue
      rw [if_neg (by simp [toChunk]), if_pos (by rw [HMap.contains_eq, hg]; rfl)]
      rfl
    rw [e1, ok_bind, runEvents_cons]
    unfold edispatch dispatch
    dsimp only
    rw [classify_stepValue]
    dsimp only
    unfold armStepValue
    rw [if_pos (by simp [toChunk]), hg]
    simp only [toChunk, unwrap, ok_bind, Spec.calcBytes]
    rw [Props.calculation_items c hc, ok_bind, hi, find_mid _ _ _ _ rfl ha]
    dsimp only
    rw [pushSwitch_mid _ _ _ _ _ rfl ha, setSteps_state]
    rfl

theorem param_events {p : Profile} {ss : List StoredScript} (hd : ss.Pairwise (·.id ≠ ·.id)) {s : StoredScript} (hs : s ∈ ss) (segs : HMap (HMap Bytes))
    (a b : List ScriptStep) (qs : List ParamDef) : ∀ (inst : Nat → List ScriptStep) (x : ScriptStep), inst s.id = a ++ x :: b →
    (∀ y ∈ a, y.index ≠ x.index) → (∀ q ∈ qs, q.Ok fmStringEncrypt x.opcode) →
    runEvents p (scriptState ss inst segs) (qs.flatMap (ParamDef.events fmStringEncrypt s.id x.index)) =
      .ok (scriptState ss (upd inst s.id (a ++ { x with switches := x.switches ++ qs.map (·.text) } :: b)) segs) := by
  induction qs with
  | nil => intro inst x hi _ _; rw [List.map_nil, List.append_nil, upd_same hi]; rfl
  | cons q qs ih =>
    intro inst x hi ha hq
    rw [List.flatMap_cons, runEvents_append, param_event hd hs segs inst a b x hi ha q (hq q (by simp)), ok_bind]
    have := ih (upd inst s.id (a ++ { x with switches := x.switches ++ [q.text] } :: b)) { x with switches := x.switches ++ [q.text] }
      (upd_self _ _ _) ha (fun r hr => hq r (by simp [hr]))
    rw [this, upd_upd]
    simp

theorem step_params {p : Profile} {ss : List StoredScript} (hd : ss.Pairwise (·.id ≠ ·.id)) {s : StoredScript} (hs : s ∈ ss) (segs : HMap (HMap Bytes))
    (ts : List StepDef) : ∀ (done : List StepDef) (inst : Nat → List ScriptStep), (done ++ ts).Pairwise (·.index ≠ ·.index) →
    (∀ t ∈ ts, t.Ok fmStringEncrypt ss) → inst s.id = done.map (StepDef.step ss) ++ ts.map (baseStep ss) →
    runEvents p (scriptState ss inst segs) (ts.flatMap fun t => t.params.flatMap (ParamDef.events fmStringEncrypt s.id t.index)) =
      .ok (scriptState ss (upd inst s.id ((done ++ ts).map (StepDef.step ss))) segs) := by
  induction ts with
  | nil => intro done inst _ _ hi; rw [List.append_nil]; rw [List.map_nil, List.append_nil] at hi; rw [upd_same hi]; rfl
  | cons t ts ih =>
    intro done inst hp ht hi
    have ha : ∀ y ∈ done.map (StepDef.step ss), y.index ≠ (baseStep ss t).index := by
      intro y hy
      obtain ⟨u, hu, rfl⟩ := List.mem_map.mp hy
      exact (List.pairwise_append.mp hp).2.2 u hu t (by simp)
    rw [List.flatMap_cons, runEvents_append]
    have := param_events (p := p) hd hs segs (done.map (StepDef.step ss)) (ts.map (baseStep ss)) t.params inst (baseStep ss t) hi ha
      (ht t (by simp)).params
    rw [show (baseStep ss t).index = t.index from rfl] at this
    rw [this, ok_bind]
    rw [ih (done ++ [t]) _ (by simpa using hp) (fun u hu => ht u (by simp [hu])) (by
      rw [upd_self, List.map_append, List.append_assoc]
      rfl), upd_upd]
    simp

/-! Code -/

def segMap (segs : List (UInt8 × Bytes)) : HMap Bytes := segs.map fun s => (s.1.toNat, s.2)

def segEntry (s : StoredScript) : HMap (HMap Bytes) :=
  match s.code with
  | .inline => []
  | .long => []
  | .segments segs => [(s.id, segMap segs)]

/-- The steps known after reading the code of `s`. -/
def afterCode (ss : List StoredScript) (s : StoredScript) (inst : Nat → List ScriptStep) : Nat → List ScriptStep :=
  match s.code with
  | .inline => upd inst s.id (s.steps.map (StepDef.step ss))
  | .long => upd inst s.id (s.steps.map (StepDef.step ss))
  | .segments _ => inst

theorem segment_events {p : Profile} {ss : List StoredScript} (inst : Nat → List ScriptStep) (segs : HMap (HMap Bytes)) (id : Nat)
    (hc : HMap.contains segs id = false) (todo : List (UInt8 × Bytes)) : ∀ done : List (UInt8 × Bytes),
    (done ++ todo).Pairwise (·.1 ≠ ·.1) →
    runEvents p (scriptState ss inst (segs ++ [(id, segMap done)])) (todo.map fun s => ⟨[17, 5, id, 4], .segment s.1 s.2⟩) =
      .ok (scriptState ss inst (segs ++ [(id, segMap (done ++ todo))])) := by
  induction todo with
  | nil => intro done _; rw [List.append_nil]; rfl
  | cons x todo ih =>
    intro done h
    rw [List.map_cons, runEvents_cons]
    have e1 : edispatch p (scriptState ss inst (segs ++ [(id, segMap done)])) ⟨[17, 5, id, 4], .segment x.1 x.2⟩ =
        .ok (scriptState ss inst (segs ++ [(id, segMap (done ++ [x]))])) := by
      unfold edispatch dispatch
      dsimp only
      rw [classify_segment]
      dsimp only
      unfold armSegments
      rw [if_neg (by simp [toChunk]), if_pos (by simp [toChunk])]
      simp only [toChunk, unwrap, ok_bind]
      rw [if_pos (by unfold scriptState; exact contains_mid segs [] id _)]
      unfold scriptState
      dsimp only
      have hn : HMap.contains (segMap done) x.1.toNat = false := by
        unfold HMap.contains segMap
        rw [List.any_eq_false]
        intro y hy
        obtain ⟨z, hz, rfl⟩ := List.mem_map.mp hy
        have := (List.pairwise_append.mp h).2.2 z hz x (by simp)
        simpa [UInt8.toNat_inj] using this
      rw [modify_last hc, HMap.insert_new hn]
      unfold segMap
      rw [List.map_append]
      rfl
    rw [e1, ok_bind, ih (done ++ [x]) (by simpa using h)]
    simp

theorem run_code {p : Profile} {ss : List StoredScript} (hok : Spec.ScriptsOk fmStringEncrypt ss) {s : StoredScript} (hs : s ∈ ss)
    (inst : Nat → List ScriptStep) (segs : HMap (HMap Bytes)) (hi : inst s.id = []) (hc : HMap.contains segs s.id = false) :
    runEvents p (scriptState ss inst segs) (Spec.codeEvents fmStringEncrypt s) =
      .ok (scriptState ss (afterCode ss s inst) (segs ++ segEntry s)) := by
  have hcode := hok.code s hs
  have hsteps := hok.steps s hs
  unfold Spec.codeEvents afterCode segEntry
  unfold StoredScript.CodeOk at hcode
  cases hk : s.code with
  | inline =>
    rw [hk] at hcode
    dsimp only at hcode ⊢
    rw [runEvents_cons, List.append_nil]
    have e1 : edispatch p (scriptState ss inst segs) ⟨[17, 5, s.id], .kv 4 (s.steps.flatMap (·.bytes))⟩ =
        .ok (scriptState ss (upd inst s.id (s.steps.map (baseStep ss))) segs) := by
      unfold edispatch dispatch
      dsimp only
      rw [classify_code]
      dsimp only
      unfold armScript
      rw [if_neg (by simp [toChunk]), if_neg (by simp [toChunk]), if_pos (by simp [toChunk])]
      simp only [toChunk, unwrap, ok_bind]
      rw [chunks28_steps _ (fun t ht => (hsteps t ht).length)]
      have := add_steps hok.ids hs segs 21 (by omega) (fun st ins => if 21 ≤ ins.length then (do
        match ← decodeStep st.file.scripts ins with
        | none => return st
        | some step =>
          let sc ← unwrap (st.file.scripts.get s.id)
          return st.setSteps s.id (sc.instructions ++ [step])) else return st) (fun st ins h => if_pos h) s.steps inst hsteps
      rw [hi, List.nil_append] at this
      exact this
    have e2 := step_params (p := p) hok.ids hs segs s.steps [] (upd inst s.id (s.steps.map (baseStep ss))) hcode hsteps (upd_self _ _ _)
    unfold Spec.paramEvents
    rw [e1, ok_bind, e2, upd_upd]
    rfl
  | long =>
    rw [hk] at hcode
    dsimp only at hcode ⊢
    rw [runEvents_cons, List.append_nil]
    have e1 : edispatch p (scriptState ss inst segs) ⟨[17, 5, s.id], .segment 4 (s.steps.flatMap (·.bytes))⟩ =
        .ok (scriptState ss (upd inst s.id (s.steps.map (baseStep ss))) segs) := by
      unfold edispatch dispatch
      dsimp only
      rw [classify_code]
      dsimp only
      unfold armScript
      rw [if_neg (by simp [toChunk]), if_pos (by simp [toChunk])]
      simp only [toChunk, unwrap, ok_bind]
      rw [chunks28_steps _ (fun t ht => (hsteps t ht).length)]
      have := insert_steps hok.ids hs segs s.steps inst hsteps (fun i t ht => by rw [hi]; simpa using hcode i t ht)
      rw [hi, List.nil_append] at this
      exact this
    have hdist : s.steps.Pairwise (·.index ≠ ·.index) := by
      rw [List.pairwise_iff_getElem]
      intro i j hi hj hij
      rw [hcode i _ (List.getElem?_eq_getElem hi), hcode j _ (List.getElem?_eq_getElem hj)]
      omega
    have e2 := step_params (p := p) hok.ids hs segs s.steps [] (upd inst s.id (s.steps.map (baseStep ss))) hdist hsteps (upd_self _ _ _)
    unfold Spec.paramEvents
    rw [e1, ok_bind, e2, upd_upd]
    rfl
  | segments g =>
    rw [hk] at hcode
    dsimp only at hcode ⊢
    unfold Spec.segmentEvents
    rw [runEvents_cons]
    have e1 : edispatch p (scriptState ss inst segs) ⟨[17, 5, s.id, 4], .push⟩ = .ok (scriptState ss inst (segs ++ [(s.id, segMap [])])) := by
      unfold edispatch dispatch
      dsimp only
      rw [classify_segment]
      dsimp only
      unfold armSegments
      rw [if_pos (by simp [toChunk]), if_neg (by unfold scriptState; dsimp only; rw [hc]; simp)]
      unfold scriptState
      dsimp only
      rw [HMap.insert_new hc]
      rfl
    obtain ⟨_, sorted, hp, hlt, _⟩ := hcode
    have hdist : (([] : List (UInt8 × Bytes)) ++ g).Pairwise (·.1 ≠ ·.1) := by
      have h1 : sorted.Pairwise (·.1 ≠ ·.1) := hlt.imp (fun h e => by rw [e] at h; exact absurd h (UInt8.lt_irrefl _))
      exact hp.pairwise h1 (fun h => h.symm)
    rw [e1, ok_bind, segment_events inst segs s.id hc g [] hdist, List.nil_append]

theorem run_codes {p : Profile} {ss : List StoredScript} (hok : Spec.ScriptsOk fmStringEncrypt ss) (todo : List StoredScript) :
    ∀ (inst : Nat → List ScriptStep) (segs : HMap (HMap Bytes)), (∀ s ∈ todo, s ∈ ss) → todo.Pairwise (·.id ≠ ·.id) →
    (∀ s ∈ todo, inst s.id = [] ∧ HMap.contains segs s.id = false) →
    runEvents p (scriptState ss inst segs) (todo.flatMap (Spec.codeEvents fmStringEncrypt)) =
      .ok (scriptState ss (todo.foldl (fun i s => afterCode ss s i) inst) (segs ++ todo.flatMap segEntry)) := by
  induction todo with
  | nil => intro inst segs _ _ _; simp; rfl
  | cons s todo ih =>
    intro inst segs hm hd hfresh
    rw [List.pairwise_cons] at hd
    rw [List.flatMap_cons, runEvents_append, run_code hok (hm s (by simp)) inst segs (hfresh s (by simp)).1 (hfresh s (by simp)).2, ok_bind]
    rw [ih _ _ (fun x hx => hm x (by simp [hx])) hd.2 ?_]
    · simp
    · intro x hx
      have hne := hd.1 x hx
      obtain ⟨f1, f2⟩ := hfresh x (by simp [hx])
      constructor
      · unfold afterCode
        cases s.code with
        | inline => dsimp only; rw [upd_other (fun e => hne e.symm)]; exact f1
        | long => dsimp only; rw [upd_other (fun e => hne e.symm)]; exact f1
        | segments g => exact f1
      · rw [contains_append, f2]
        unfold segEntry
        cases s.code with
        | inline => rfl
        | long => rfl
        | segments g => simp [HMap.contains, hne]

theorem script_names {p : Profile} (ss : List StoredScript) : ∀ done : List StoredScript, (done ++ ss).Pairwise (·.id ≠ ·.id) →
    runEvents p (scriptState done (fun _ => []) []) (ss.map fun s => ⟨[17, 1, 7, s.id], .kv 16 (fmStringEncrypt s.name)⟩) =
      .ok (scriptState (done ++ ss) (fun _ => []) []) := by
  induction ss with
  | nil => intro done _; rw [List.append_nil]; rfl
  | cons s ss ih =>
    intro done h
    rw [List.map_cons, runEvents_cons]
    have e1 : edispatch p (scriptState done (fun _ => []) []) ⟨[17, 1, 7, s.id], .kv 16 (fmStringEncrypt s.name)⟩ =
        .ok (scriptState (done ++ [s]) (fun _ => []) []) := by
      have hn : HMap.contains (scriptState done (fun _ => []) []).file.scripts s.id = false := by
        unfold HMap.contains scriptState
        rw [List.any_eq_false]
        intro y hy
        obtain ⟨z, hz, rfl⟩ := List.mem_map.mp hy
        have := (List.pairwise_append.mp h).2.2 z hz s (by simp)
        simpa using this
      unfold edispatch dispatch
      dsimp only
      rw [classify_scriptMeta]
      dsimp only
      unfold armScriptMeta
      rw [if_pos (by simp [toChunk])]
      simp only [toChunk, unwrap, ok_bind]
      rw [if_neg (by rw [hn]; simp), HMap.insert_new hn, decrypt_encrypt]
      unfold scriptState
      rw [List.map_append]
      rfl
    rw [e1, ok_bind, ih (done ++ [s]) (by simpa using h)]
    simp

theorem assemble_one {ss : List StoredScript} (hok : Spec.ScriptsOk fmStringEncrypt ss) {s : StoredScript} (hs : s ∈ ss) {g : List (UInt8 × Bytes)}
    (hk : s.code = .segments g) (inst : Nat → List ScriptStep) (segs : HMap (HMap Bytes)) (hi : inst s.id = []) :
    assembleScript (scriptState ss inst segs) s.id (segMap g) = .ok (scriptState ss (upd inst s.id (s.steps.map (StepDef.step ss))) segs) := by
  have hcode := hok.code s hs
  have hsteps := hok.steps s hs
  unfold StoredScript.CodeOk at hcode
  rw [hk] at hcode
  obtain ⟨hnp, sorted, hp, hlt, hb⟩ := hcode
  have e1 : sortByKey (segMap g) = segMap sorted := by
    refine sortByKey_eq (hp.map _) (List.pairwise_map.mpr (hlt.imp fun h => ?_))
    exact UInt8.lt_iff_toNat_lt.mp h
  have e2 : (segMap sorted).flatMap (·.2) = s.steps.flatMap (·.bytes) := by
    rw [← hb]
    unfold segMap
    rw [List.flatMap_map]
  unfold assembleScript
  rw [e1, e2, chunks28_steps _ (fun t ht => (hsteps t ht).length)]
  have := add_steps hok.ids hs segs 28 (by omega) (fun st ins => if ins.length < 28 then return st else (do
        match ← decodeStep st.file.scripts ins with
        | none => return st
        | some step =>
          let sc ← unwrap (st.file.scripts.get s.id)
          return st.setSteps s.id (sc.instructions ++ [step]))) (fun st ins h => if_neg (by omega)) s.steps inst hsteps
  rw [hi, List.nil_append] at this
  have e3 : s.steps.map (baseStep ss) = s.steps.map (StepDef.step ss) := by
    apply List.map_congr_left
    intro t ht
    unfold baseStep StepDef.step
    rw [hnp t ht]
    simp
  rw [e3] at this
  exact this

/-- The steps known at the end. -/
def afterAll (ss : List StoredScript) (s : StoredScript) (inst : Nat → List ScriptStep) : Nat → List ScriptStep :=
  match s.code with
  | .inline => inst
  | .long => inst
  | .segments _ => upd inst s.id (s.steps.map (StepDef.step ss))

theorem assemble_all {ss : List StoredScript} (hok : Spec.ScriptsOk fmStringEncrypt ss) (segs : HMap (HMap Bytes)) (todo : List StoredScript) :
    ∀ (inst : Nat → List ScriptStep), (∀ s ∈ todo, s ∈ ss) → todo.Pairwise (·.id ≠ ·.id) →
    (∀ s ∈ todo, ∀ g, s.code = .segments g → inst s.id = []) →
    (todo.flatMap segEntry).foldlM (fun s e => assembleScript s e.1 e.2) (scriptState ss inst segs) =
      .ok (scriptState ss (todo.foldl (fun i s => afterAll ss s i) inst) segs) := by
  induction todo with
  | nil => intro inst _ _ _; rfl
  | cons s todo ih =>
    intro inst hm hd hi
    rw [List.pairwise_cons] at hd
    rw [List.flatMap_cons, List.foldlM_append]
    have e1 : (segEntry s).foldlM (fun s e => assembleScript s e.1 e.2) (scriptState ss inst segs) =
        .ok (scriptState ss (afterAll ss s inst) segs) := by
      unfold segEntry afterAll
      cases hk : s.code with
      | inline => rfl
      | long => rfl
      | segments g =>
        dsimp only
        rw [List.foldlM_cons, assemble_one hok (hm s (by simp)) hk inst segs (hi s (by simp) g hk)]
        rfl
    rw [e1, ok_bind, ih _ (fun x hx => hm x (by simp [hx])) hd.2 ?_]
    · rfl
    · intro x hx g' hx2
      have hne := hd.1 x hx
      unfold afterAll
      cases s.code with
      | inline => exact hi x (by simp [hx]) g' hx2
      | long => exact hi x (by simp [hx]) g' hx2
      | segments g => dsimp only; rw [upd_other (fun e => hne e.symm)]; exact hi x (by simp [hx]) g' hx2

theorem fold_keep {f : StoredScript → (Nat → List ScriptStep) → Nat → List ScriptStep} {k : Nat}
    (h : ∀ s inst, s.id ≠ k → f s inst k = inst k) (todo : List StoredScript) : ∀ inst, (∀ s ∈ todo, s.id ≠ k) →
    todo.foldl (fun i s => f s i) inst k = inst k := by
  induction todo with
  | nil => intro inst _; rfl
  | cons s todo ih =>
    intro inst hk
    rw [List.foldl_cons, ih _ (fun x hx => hk x (by simp [hx])), h s inst (hk s (by simp))]

theorem afterCode_other (ss : List StoredScript) {s : StoredScript} {k : Nat} (inst : Nat → List ScriptStep) (h : s.id ≠ k) :
    afterCode ss s inst k = inst k := by
  unfold afterCode
  cases s.code with
  | inline => exact upd_other (fun e => h e.symm) _
  | long => exact upd_other (fun e => h e.symm) _
  | segments g => rfl

theorem afterAll_other (ss : List StoredScript) {s : StoredScript} {k : Nat} (inst : Nat → List ScriptStep) (h : s.id ≠ k) :
    afterAll ss s inst k = inst k := by
  unfold afterAll
  cases s.code with
  | inline => rfl
  | long => rfl
  | segments g => exact upd_other (fun e => h e.symm) _

theorem fold_at {f : StoredScript → (Nat → List ScriptStep) → Nat → List ScriptStep}
    (h : ∀ s inst k, s.id ≠ k → f s inst k = inst k) (todo : List StoredScript) : ∀ inst, todo.Pairwise (·.id ≠ ·.id) → ∀ s ∈ todo,
    ∃ i', todo.foldl (fun i s => f s i) inst s.id = f s i' s.id ∧ i' s.id = inst s.id := by
  induction todo with
  | nil => intro inst _ s hs; cases hs
  | cons x todo ih =>
    intro inst hd s hs
    rw [List.pairwise_cons] at hd
    rw [List.foldl_cons]
    rcases List.mem_cons.mp hs with rfl | hs
    · exact ⟨inst, fold_keep (fun s inst hk => h s inst _ hk) todo _ (fun y hy e => hd.1 y hy e.symm), rfl⟩
    · obtain ⟨i', h1, h2⟩ := ih (f x inst) hd.2 s hs
      exact ⟨i', h1, h2.trans (h x inst _ (hd.1 s hs))⟩

theorem run_scripts {p : Profile} {ss : List StoredScript} (hok : Spec.ScriptsOk fmStringEncrypt ss) :
    ∃ S f, runEvents p {} (Spec.scriptEvents fmStringEncrypt ss) = .ok S ∧ assembleScripts S = .ok f ∧
      f.scripts = ss.map fun s => (s.id, s.script ss) := by
  let inst1 := ss.foldl (fun i s => afterCode ss s i) (fun _ => [])
  let inst2 := ss.foldl (fun i s => afterAll ss s i) inst1
  have h1 := script_names (p := p) ss [] hok.ids
  have h2 := run_codes (p := p) hok ss (fun _ => []) [] (fun s hs => hs) hok.ids (fun s _ => ⟨rfl, rfl⟩)
  have hseg : ∀ s ∈ ss, ∀ g, s.code = .segments g → inst1 s.id = [] := by
    intro s hs g hk
    obtain ⟨i', e1, e2⟩ := fold_at (f := afterCode ss) (fun s inst k h => afterCode_other ss inst h) ss (fun _ => []) hok.ids s hs
    show ss.foldl (fun i s => afterCode ss s i) (fun _ => []) s.id = []
    rw [e1]
    unfold afterCode
    rw [hk]
    exact e2
  have h3 := assemble_all hok (ss.flatMap segEntry) ss inst1 (fun s hs => hs) hok.ids hseg
  refine ⟨scriptState ss inst1 (ss.flatMap segEntry), (scriptState ss inst2 (ss.flatMap segEntry)).file, ?_, ?_, ?_⟩
  · unfold Spec.scriptEvents
    rw [runEvents_append]
    rw [show ({} : DState) = scriptState [] (fun _ => []) [] from rfl, h1, ok_bind, List.nil_append, h2, List.nil_append]
  · unfold assembleScripts
    rw [show (scriptState ss inst1 (ss.flatMap segEntry)).segments = ss.flatMap segEntry from rfl, h3]
    rfl
  · unfold scriptState
    dsimp only
    apply List.map_congr_left
    intro s hs
    obtain ⟨i', e1, e2⟩ := fold_at (f := afterAll ss) (fun s inst k h => afterAll_other ss inst h) ss inst1 hok.ids s hs
    obtain ⟨i'', e3, e4⟩ := fold_at (f := afterCode ss) (fun s inst k h => afterCode_other ss inst h) ss (fun _ => []) hok.ids s hs
    have : inst2 s.id = s.steps.map (StepDef.step ss) := by
      show ss.foldl (fun i s => afterAll ss s i) inst1 s.id = _
      rw [e1]
      unfold afterAll
      cases hc : s.code with
      | inline =>
        dsimp only
        rw [e2]
        show ss.foldl (fun i s => afterCode ss s i) (fun _ => []) s.id = _
        rw [e3]
        unfold afterCode
        rw [hc]
        exact upd_self _ _ _
      | long =>
        dsimp only
        rw [e2]
        show ss.foldl (fun i s => afterCode ss s i) (fun _ => []) s.id = _
        rw [e3]
        unfold afterCode
        rw [hc]
        exact upd_self _ _ _
      | segments g => exact upd_self _ _ _
    rw [this]
    rfl

end BurnFm
