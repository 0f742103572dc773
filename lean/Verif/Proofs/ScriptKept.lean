import Verif.Proofs.ScriptWarnings

/-! A source text that is read without warnings is read completely. -/

namespace BurnFm
open Spec

/-- The script being read is finished later: what is still to come is added to `tmp`, and further scripts follow. -/
def EndsCode (tmp : FScript) (args : List Str) (first : List ScriptStep) (acc out : List FScript) (ts : List ScriptTok) : Prop :=
  ∃ s new hs rest code, out = acc ++ s :: new ∧ s.name = tmp.name ∧ s.arguments = tmp.arguments ++ args ∧
    s.instructions = tmp.instructions ++ first ++ code ∧ heads ts = hs ++ rest ∧ StepsKept hs code ∧ ScriptsKept rest new

/-- What a mode promises about the tokens still to come. -/
def KeptCode (tmp : FScript) (acc : List FScript) (ts : List ScriptTok) (out : List FScript) : ScriptMode → Prop
  | .top => ∃ new, out = acc ++ new ∧ ScriptsKept (heads ts) new
  | .name => ∃ t rest, ts = t :: rest ∧ t.ty = .identifier ∧
      EndsCode { tmp with name := t.value } (argsAfter rest) [] acc out rest
  | .params => EndsCode tmp (argsAfter ts) [] acc out ts
  | .body => EndsCode tmp [] [] acc out ts
  | .step op sw => EndsCode tmp [] [⟨op, 0, sw ++ argsAfter ts⟩] acc out ts
  | .elif sw => EndsCode tmp [] [⟨.elseIf, 0, sw ++ argsAfter ts⟩] acc out ts
  | .if sw => EndsCode tmp [] [⟨.if, 0, sw ++ argsAfter ts⟩] acc out ts
  | .loopOpen => argsAfter ts = [] ∧ EndsCode tmp [] [⟨.loop, 0, []⟩] acc out ts
  | .elseOpen => argsAfter ts = [] ∧ EndsCode tmp [] [⟨.else, 0, []⟩] acc out ts

/-- Where a text may end. -/
def MayEnd : ScriptMode → Prop
  | .step _ _ => False
  | .elif _ => False
  | .if _ => False
  | _ => True

/-- The text ends where it may. -/
def EndsWell (m : ScriptMode) (ts : List ScriptTok) : Prop := Finished ts ∧ (ts = [] → MayEnd m)

theorem EndsWell.tail {m m' : ScriptMode} {t : ScriptTok} {ts : List ScriptTok} (h : EndsWell m (t :: ts))
    (hm : t.ty = .semiColon ∨ t.ty = .openBracket ∨ t.ty = .closeBracket → MayEnd m') : EndsWell m' ts := by
  refine ⟨?_, ?_⟩
  · cases ts with
    | nil => intro x hx; cases hx
    | cons t' ts => intro x hx; exact h.1 x (by rw [List.getLast?_cons_cons]; exact hx)
  · rintro rfl
    exact hm (h.1 t rfl)

theorem everyScriptNamed_tail {t : ScriptTok} {ts : List ScriptTok} (h : EveryScriptNamed (t :: ts)) : EveryScriptNamed ts := by
  intro a d t' b e
  exact h (t :: a) d t' b (by rw [e]; rfl)

theorem heads_other {t : ScriptTok} (ts : List ScriptTok) (h : t.ty ∉ headKinds) : heads (t :: ts) = heads ts := by
  simp only [heads, if_neg h]

theorem heads_word {t : ScriptTok} (ts : List ScriptTok) (h : t.ty ∈ headKinds) :
    heads (t :: ts) = ⟨t.ty, t.value, argsAfter ts⟩ :: heads ts := by
  simp only [heads, if_pos h]

theorem EndsCode.skip {tmp : FScript} {args : List Str} {first : List ScriptStep} {acc out : List FScript} {t : ScriptTok}
    {ts : List ScriptTok} (h : EndsCode tmp args first acc out ts) (ht : t.ty ∉ headKinds) :
    EndsCode tmp args first acc out (t :: ts) := by
  unfold EndsCode
  rw [heads_other ts ht]
  exact h

/-- One word is added to the script. -/
theorem EndsCode.word {tmp : FScript} {acc out : List FScript} {t : ScriptTok} {ts : List ScriptTok} {op : Instruction}
    {as : List Str} (h : EndsCode tmp [] [⟨op, 0, as⟩] acc out ts) (ht : t.ty ∈ headKinds)
    (hk : ∀ hs code, StepsKept hs code → StepsKept (⟨t.ty, t.value, argsAfter ts⟩ :: hs) (⟨op, 0, as⟩ :: code)) :
    EndsCode tmp [] [] acc out (t :: ts) := by
  obtain ⟨s, new, hs, rest, code, e1, e2, e3, e4, e5, e6, e7⟩ := h
  refine ⟨s, new, ⟨t.ty, t.value, argsAfter ts⟩ :: hs, rest, ⟨op, 0, as⟩ :: code, e1, e2, e3, ?_, ?_, hk _ _ e6, e7⟩
  · rw [e4]; simp
  · rw [heads_word ts ht, e5]; rfl

/-- An instruction that was already added. -/
theorem EndsCode.pushed {tmp : FScript} {acc out : List FScript} {ts : List ScriptTok} {op : Instruction} {as : List Str}
    (h : EndsCode (tmp.push op as) [] [] acc out ts) : EndsCode tmp [] [⟨op, 0, as⟩] acc out ts := by
  obtain ⟨s, new, hs, rest, code, e1, e2, e3, e4, e5, e6, e7⟩ := h
  refine ⟨s, new, hs, rest, code, e1, e2, e3, ?_, e5, e6, e7⟩
  rw [e4]; simp [FScript.push]

/-- The end of a block. -/
theorem EndsCode.closed {tmp : FScript} {acc out : List FScript} {ts : List ScriptTok} {op : Instruction}
    (h : EndsCode (tmp.push op []) [] [] acc out ts) (hk : ∀ hs code, StepsKept hs code → StepsKept hs (⟨op, 0, []⟩ :: code)) :
    EndsCode tmp [] [] acc out ts := by
  obtain ⟨s, new, hs, rest, code, e1, e2, e3, e4, e5, e6, e7⟩ := h
  refine ⟨s, new, hs, rest, ⟨op, 0, []⟩ :: code, e1, e2, e3, ?_, e5, hk _ _ e6, e7⟩
  rw [e4]; simp [FScript.push]

theorem kept_all (ts : List ScriptTok) : ∀ (m : ScriptMode) (stack : List Instruction) (tmp : FScript)
    (acc : List FScript) (out : List FScript), (parseScriptsW m stack tmp acc ts).2 = .ok (some out) →
    (parseScriptsW m stack tmp acc ts).1 = [] → EveryScriptNamed ts → EndsWell m ts →
    (m = .name → ∀ t ∈ ts.head?, t.ty = .identifier) → (m = .name → tmp.name = []) →
    (stack = [] ∨ (∀ i ∈ stack, i = .if ∨ i = .loop)) → KeptCode tmp acc ts out m := by
  induction ts with
  | nil =>
    intro m stack tmp acc out h _ _ he _ _ _
    cases m with
    | top =>
      injection h with h; injection h with h
      exact ⟨[], by simp [h], .nil⟩
    | name => cases h
    | loopOpen => cases h
    | elseOpen => cases h
    | step _ _ => exact absurd (he.2 rfl) id
    | elif _ => exact absurd (he.2 rfl) id
    | «if» _ => exact absurd (he.2 rfl) id
    | params =>
      injection h with h; injection h with h
      exact ⟨tmp, [], [], [], [], h.symm, rfl, by simp [argsAfter], by simp, rfl, .nil, .nil⟩
    | body =>
      injection h with h; injection h with h
      exact ⟨tmp, [], [], [], [], h.symm, rfl, by simp, by simp, rfl, .nil, .nil⟩
  | cons t ts ih =>
    intro m stack tmp acc out h hw hn he hname htmp hst
    have ih' := fun (m' : ScriptMode) stack' tmp' acc' h1 h2 h3 h4 h5 h6 =>
      ih m' stack' tmp' acc' out h1 h2 (everyScriptNamed_tail hn) (he.tail h3) h4 h5 h6
    cases m with
    | top =>
      unfold parseScriptsW at h hw
      dsimp only at h hw
      split at h
      · rename_i hd
        rw [if_pos hd] at hw
        obtain ⟨t', rest, e1, e2, e3⟩ := ih' .name _ _ _ h hw (fun _ => trivial) (fun _ x hx => by
          cases ts with
          | nil => cases hx
          | cons t' ts =>
            injection hx with hx; subst hx
            exact hn [] t t' ts rfl hd) (fun _ => rfl) hst
        obtain ⟨s, new, hs, r, code, f1, f2, f3, f4, f5, f6, f7⟩ := e3
        refine ⟨s :: new, f1, ?_⟩
        rw [heads_other ts (by rw [hd]; decide), e1, heads_word rest (by rw [e2]; decide), f5, e2]
        have : s.instructions = code := by rw [f4]; simp
        rw [← this] at f6
        have g := ScriptsKept.script f6 f7
        rw [f2, f3] at g
        simpa using g
      · rename_i hd
        rw [if_neg hd] at hw
        cases hw
    | name =>
      have ht : t.ty = .identifier := hname rfl t rfl
      unfold parseScriptsW at h hw
      dsimp only at h hw
      rw [if_pos ht] at h hw
      exact ⟨t, ts, rfl, ht, ih' .params _ _ _ h hw (fun _ => trivial) (by simp) (by simp) hst⟩
    | params =>
      unfold parseScriptsW at h hw
      dsimp only at h hw
      obtain ⟨ty, v⟩ := t
      cases ty <;> try (cases hw; done)
      · have e := ih' .params _ _ _ h hw (fun _ => trivial) (by simp) (by simp) hst
        exact EndsCode.skip e (by simp [headKinds])
      · have e := ih' .params _ _ _ h hw (fun _ => trivial) (by simp) (by simp) hst
        exact EndsCode.skip e (by simp [headKinds])
      · have e := ih' .params _ _ _ h hw (fun _ => trivial) (by simp) (by simp) hst
        exact EndsCode.skip e (by simp [headKinds])
      · have e := ih' .body _ _ _ h hw (fun _ => trivial) (by simp) (by simp) hst
        exact EndsCode.skip e (by simp [headKinds])
      · obtain ⟨s, new, hs, rest, code, e1, e2, e3, e4, e5, e6, e7⟩ :=
          ih' .params _ _ _ h hw (fun _ => trivial) (by simp) (by simp) hst
        refine ⟨s, new, hs, rest, code, e1, e2, ?_, e4, ?_, e6, e7⟩
        · rw [e3]; simp [argsAfter]
        · rw [heads_other ts (by simp [headKinds]), e5]
    | step op sw =>
      unfold parseScriptsW at h hw
      dsimp only at h hw
      split at h
      · rename_i ha
        rw [if_pos ha] at hw
        have e := ih' (.step op (sw ++ [t.value])) _ _ _ h hw (by rw [ha]; simp) (by simp) (by simp) hst
        have e2 : argsAfter (t :: ts) = t.value :: argsAfter ts := by simp [argsAfter, ha]
        show EndsCode _ _ _ _ _ _
        rw [e2]
        have e : EndsCode tmp [] [⟨op, 0, sw ++ [t.value] ++ argsAfter ts⟩] acc out ts := e
        rw [List.append_assoc] at e
        exact e.skip (by rw [ha]; decide)
      · rename_i ha
        rw [if_neg ha] at hw
        split at h
        · rename_i hs
          rw [if_pos hs] at hw
          have e := ih' .body _ _ _ h hw (fun _ => trivial) (by simp) (by simp) hst
          have e2 : argsAfter (t :: ts) = [] := by simp [argsAfter, hs]
          show EndsCode _ _ _ _ _ _
          rw [e2, List.append_nil]
          exact (EndsCode.pushed e).skip (by rw [hs]; decide)
        · cases h
    | elif sw =>
      unfold parseScriptsW at h hw
      dsimp only at h hw
      split at h
      · rename_i ha
        rw [if_pos ha] at hw
        have e := ih' (.elif (sw ++ [t.value])) _ _ _ h hw (by rw [ha]; simp) (by simp) (by simp) hst
        have e2 : argsAfter (t :: ts) = t.value :: argsAfter ts := by simp [argsAfter, ha]
        show EndsCode _ _ _ _ _ _
        rw [e2]
        have e : EndsCode tmp [] [⟨.elseIf, 0, sw ++ [t.value] ++ argsAfter ts⟩] acc out ts := e
        rw [List.append_assoc] at e
        exact e.skip (by rw [ha]; decide)
      · rename_i ha
        rw [if_neg ha] at hw
        split at h
        · rename_i hs
          rw [if_pos hs] at hw
          have e := ih' .body _ _ _ h hw (fun _ => trivial) (by simp) (by simp) hst
          have e2 : argsAfter (t :: ts) = [] := by simp [argsAfter, hs]
          show EndsCode _ _ _ _ _ _
          rw [e2, List.append_nil]
          exact (EndsCode.pushed e).skip (by rw [hs]; decide)
        · cases h
    | «if» sw =>
      unfold parseScriptsW at h hw
      dsimp only at h hw
      split at h
      · rename_i ha
        rw [if_pos ha] at hw
        have e := ih' (.if (sw ++ [t.value])) _ _ _ h hw (by rw [ha]; simp) (by simp) (by simp) hst
        have e2 : argsAfter (t :: ts) = t.value :: argsAfter ts := by simp [argsAfter, ha]
        show EndsCode _ _ _ _ _ _
        rw [e2]
        have e : EndsCode tmp [] [⟨.if, 0, sw ++ [t.value] ++ argsAfter ts⟩] acc out ts := e
        rw [List.append_assoc] at e
        exact e.skip (by rw [ha]; decide)
      · rename_i ha
        rw [if_neg ha] at hw
        split at h
        · rename_i hs
          rw [if_pos hs] at hw
          have e := ih' .body _ _ _ h hw (fun _ => trivial) (by simp) (by simp)
            (.inr (fun i hi => by
              rcases List.mem_cons.mp hi with rfl | hi
              · simp
              · rcases hst with rfl | hst
                · cases hi
                · exact hst i hi))
          have e2 : argsAfter (t :: ts) = [] := by simp [argsAfter, hs]
          show EndsCode _ _ _ _ _ _
          rw [e2, List.append_nil]
          exact (EndsCode.pushed e).skip (by rw [hs]; decide)
        · cases h
    | loopOpen =>
      unfold parseScriptsW at h hw
      dsimp only at h hw
      split at h
      · rename_i hs
        rw [if_pos hs] at hw
        have e := ih' .body _ _ _ h hw (fun _ => trivial) (by simp) (by simp)
          (.inr (fun i hi => by
            rcases List.mem_cons.mp hi with rfl | hi
            · simp
            · rcases hst with rfl | hst
              · cases hi
              · exact hst i hi))
        exact ⟨by simp [argsAfter, hs], (EndsCode.pushed e).skip (by rw [hs]; decide)⟩
      · rename_i hs
        rw [if_neg hs] at hw
        cases hw
    | elseOpen =>
      unfold parseScriptsW at h hw
      dsimp only at h hw
      split at h
      · rename_i hs
        rw [if_pos hs] at hw
        have e := ih' .body _ _ _ h hw (fun _ => trivial) (by simp) (by simp) hst
        exact ⟨by simp [argsAfter, hs], (EndsCode.pushed e).skip (by rw [hs]; decide)⟩
      · rename_i hs
        rw [if_neg hs] at hw
        cases hw
    | body =>
      unfold parseScriptsW at h hw
      dsimp only at h hw
      obtain ⟨ty, v⟩ := t
      cases ty <;> try (cases hw; done)
      case identifier =>
        dsimp only at h hw
        cases ho : Instruction.fromStr v with
        | none =>
          rw [ho] at hw
          cases hw
        | some op =>
          rw [ho] at h hw
          have e := ih' (.step op []) _ _ _ h hw (by simp) (by simp) (by simp) hst
          exact EndsCode.word e (by simp [headKinds]) (fun _ _ k => .step ho k)
      case openBracket =>
        exact EndsCode.skip (ih' .body _ _ _ h hw (fun _ => trivial) (by simp) (by simp) hst) (by simp [headKinds])
      case closeBracket =>
        dsimp only at h hw
        cases stack with
        | nil =>
          obtain ⟨new, e1, e2⟩ := ih' .top _ _ _ h hw (fun _ => trivial) (by simp) (by simp) hst
          exact ⟨tmp, new, [], heads ts, [], by simp [e1], rfl, by simp, by simp, heads_other ts (by simp [headKinds]), .nil, e2⟩
        | cons top below =>
          have hst' : ∀ i ∈ top :: below, i = .if ∨ i = .loop := by
            rcases hst with h | h
            · cases h
            · exact h
          dsimp only at h hw
          split at h
          · rename_i hs
            rw [if_pos hs] at hw
            exact EndsCode.skip (ih' .body _ _ _ h hw (fun _ => trivial) (by simp) (by simp) hst) (by simp [headKinds])
          · rename_i hs
            rw [if_neg hs] at hw
            rcases hst' top (by simp) with rfl | rfl
            · exact (EndsCode.closed (ih' .body _ _ _ h hw (fun _ => trivial) (by simp) (by simp)
                (.inr (fun i hi => hst' i (by simp [hi])))) (fun _ _ k => .endIf k)).skip (by simp [headKinds])
            · exact (EndsCode.closed (ih' .body _ _ _ h hw (fun _ => trivial) (by simp) (by simp)
                (.inr (fun i hi => hst' i (by simp [hi])))) (fun _ _ k => .endLoop k)).skip (by simp [headKinds])
      case loop =>
        obtain ⟨e0, e⟩ := ih' .loopOpen _ _ _ h hw (fun _ => trivial) (by simp) (by simp) hst
        exact EndsCode.word e (by simp [headKinds]) (fun _ _ k => by rw [e0]; exact .loop k)
      case «else» =>
        obtain ⟨e0, e⟩ := ih' .elseOpen _ _ _ h hw (fun _ => trivial) (by simp) (by simp) hst
        exact EndsCode.word e (by simp [headKinds]) (fun _ _ k => by rw [e0]; exact .else k)
      case «if» =>
        have e := ih' (.if []) _ _ _ h hw (by simp) (by simp) (by simp) hst
        exact EndsCode.word e (by simp [headKinds]) (fun _ _ k => .if k)
      case elif =>
        have e := ih' (.elif []) _ _ _ h hw (by simp) (by simp) (by simp) hst
        exact EndsCode.word e (by simp [headKinds]) (fun _ _ k => .elif k)

end BurnFm
