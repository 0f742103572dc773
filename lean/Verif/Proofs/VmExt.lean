import Verif.Proofs.Vm

/-! Empty sets of variables and old loop entries left behind by earlier tests do not matter. -/

namespace BurnFm
open Spec

variable {ev : Calculator} {p : Profile} {scripts : HMap FScript}

/-- `k` empty sets of variables more, and other messages on the terminal. -/
def extW (k : Nat) (o : List Message) (w : World) : World := { w with vars := w.vars ++ List.replicate k [], out := o }

/-- The state with left-overs: `k` empty sets of variables, loop entries, and other messages on the terminal. -/
def ext (k : Nat) (ls : List Nat) (o : List Message) (u : Vm) : Vm :=
  { u with loops := u.loops ++ ls, world := extW k o u.world }

theorem eval_ext (hown : OwnVariables ev) {k d : Nat} {o : List Message} {w : World} (hd : d < w.vars.length) (c : Str) :
    (extW k o w).eval ev (d + 1) c = w.eval ev (d + 1) c :=
  hown _ _ _ _ _ (by simp only [extW]; rw [List.getElem?_append_left hd])

theorem modIdx_ext {α : Type} {l l' x : List α} {i : Nat} {f : α → α} (h : modIdx l i f = .ok l') :
    modIdx (l ++ x) i f = .ok (l' ++ x) := by
  obtain ⟨a, ha, rfl⟩ := modIdx_set h
  have hi := (List.getElem?_eq_some_iff.mp ha).1
  unfold modIdx idx setIdx
  rw [List.getElem?_append_left hi, ha]
  simp only [ok_bind]
  rw [if_pos (by simp; omega), List.set_append_left _ _ hi]

theorem effect_ext (hown : OwnVariables ev) {k d : Nat} {o : List Message} {s : ScriptStep} {w w' : World} (hd : d < w.vars.length)
    (h : effect ev p (d + 1) s w = .ok w') : ∃ o', effect ev p (d + 1) s (extW k o w) = .ok (extW k o' w') := by
  have he := eval_ext hown (k := k) (o := o) hd
  unfold effect at h ⊢
  split at h <;> rename_i ho <;> (try simp only [ho, he]) <;> simp only [ev_bind_ok, ev_pure, liftR_ok] at h ⊢
  · refine ⟨o, ?_⟩
    obtain ⟨c, h1, v, h2, n, h3, h⟩ := h
    refine ⟨c, h1, v, h2, n, h3, ?_⟩
    simp only [extW]
    split at h <;> injection h with h <;> subst h <;> rfl
  · refine ⟨o, ?_⟩
    obtain ⟨c, h1, v, h2, h⟩ := h
    refine ⟨c, h1, v, h2, ?_⟩
    split at h
    · rw [if_pos (show (extW k o w).findMode = true from ‹w.findMode = true›)]; injection h with h; subst h; rfl
    · rw [if_neg (show ¬(extW k o w).findMode = true from ‹¬w.findMode = true›)]
      simp only [ev_bind_ok, ev_pure, liftR_ok] at h ⊢
      obtain ⟨x, hx, db, h3, h⟩ := h
      injection h with h; subst h
      exact ⟨x, hx, db, h3, rfl⟩
  · refine ⟨o, ?_⟩
    injection h with h; subst h; rfl
  · refine ⟨o, ?_⟩
    obtain ⟨db, h1, h⟩ := h
    injection h with h; subst h
    exact ⟨db, h1, rfl⟩
  · refine ⟨o, ?_⟩
    obtain ⟨db, h1, h⟩ := h
    injection h with h; subst h
    exact ⟨db, h1, rfl⟩
  · refine ⟨o, ?_⟩
    obtain ⟨n, h1, c, h2, v, h3, vs, h4, h⟩ := h
    injection h with h; subst h
    exact ⟨n, h1, c, h2, v, h3, _, modIdx_ext h4, rfl⟩
  · refine ⟨o, ?_⟩
    obtain ⟨n, h1, c, h2, v, h3, h⟩ := h
    refine ⟨n, h1, c, h2, v, h3, ?_⟩
    split at h
    · rw [if_pos (show (extW k o w).findMode = true from ‹w.findMode = true›)]; injection h with h; subst h; rfl
    · rw [if_neg (show ¬(extW k o w).findMode = true from ‹¬w.findMode = true›)]
      simp only [ev_bind_ok, ev_pure, liftR_ok] at h ⊢
      obtain ⟨a, ha, b, hb, x, hx, db, h4, h⟩ := h
      injection h with h; subst h
      exact ⟨a, ha, b, hb, x, hx, db, h4, rfl⟩
  · refine ⟨o, ?_⟩
    obtain ⟨db, h1, h⟩ := h
    injection h with h; subst h
    exact ⟨db, h1, rfl⟩
  · obtain ⟨c, h1, v, h2, h⟩ := h
    injection h with h; subst h
    exact ⟨_, c, h1, v, h2, rfl⟩
  · obtain ⟨c, h1, v, h2, h⟩ := h
    split at h
    · refine ⟨o ++ [.assertionFailed c], c, h1, v, h2, ?_⟩
      rw [if_pos (by assumption)]; injection h with h; subst h; rfl
    · refine ⟨o, c, h1, v, h2, ?_⟩
      rw [if_neg (by assumption)]; injection h with h; subst h; rfl
  · refine ⟨o, ?_⟩
    injection h with h; subst h; rfl

theorem exec_ext (hown : OwnVariables ev) {k : Nat} {ls : List Nat} {o : List Message} {u u' : Vm} {name : Str} {ip : Nat}
    {below : List (Str × Nat)} {code : List ScriptStep} {s : ScriptStep} (hd : below.length < u.world.vars.length)
    (h : u.exec ev p scripts name ip below code s = .ok u') :
    ∃ o', (ext k ls o u).exec ev p scripts name ip below code s = .ok (ext k ls o' u') := by
  have he := eval_ext hown (k := k) (o := o) hd
  have heff := fun w' => effect_ext (ev := ev) (p := p) hown (k := k) (o := o) (s := s) (w' := w') hd
  have hwo : (ext k ls o u).world = extW k o u.world := rfl
  unfold Vm.exec at h ⊢
  rw [hwo]
  split at h <;> rename_i ho <;> simp only [ho, he] <;> simp only [ev_bind_ok, ev_pure, liftR_ok] at h ⊢
  · refine ⟨o, ?_⟩
    obtain ⟨c, h1, v, h2, n, h3, h⟩ := h
    refine ⟨c, h1, v, h2, n, h3, ?_⟩
    have hperm : u.world.vars ++ List.replicate k [] ++ [[]] = u.world.vars ++ [[]] ++ List.replicate k ([] : SMap Str) := by
      rw [List.append_assoc, List.append_assoc, ← List.replicate_succ', List.replicate_succ]; rfl
    split at h
    · rw [if_pos (by assumption)]
      injection h with h; subst h
      simp only [ext, extW, hperm]
    · rw [if_neg (by assumption)]
      injection h with h; subst h
      simp only [ext, extW, hperm]
  · split at h
    · rename_i hc
      simp only [if_pos hc]
      simp only [ev_bind_ok, ev_pure, liftR_ok] at h ⊢
      obtain ⟨c, h1, v, h2, c', h3, v', h4, h⟩ := h
      refine ⟨o, c, h1, v, h2, c', h3, v', h4, ?_⟩
      split at h
      · rw [if_pos (show (extW k o u.world).findMode = true from ‹u.world.findMode = true›)]
        injection h with h; subst h; rfl
      · rw [if_neg (show ¬(extW k o u.world).findMode = true from ‹¬u.world.findMode = true›)]
        simp only [ev_bind_ok, ev_pure, liftR_ok] at h ⊢
        obtain ⟨a, ha, db, hdb, b, hb, h⟩ := h
        refine ⟨a, ha, db, hdb, b, hb, ?_⟩
        split at h
        · rw [if_pos (by assumption)]
          simp only [ev_bind_ok, ev_pure, liftR_ok] at h ⊢
          obtain ⟨i, hi, h⟩ := h
          injection h with h; subst h
          exact ⟨i, hi, rfl⟩
        · rw [if_neg (by assumption)]; injection h with h; subst h; rfl
    · rename_i hc
      simp only [if_neg hc]
      simp only [ev_bind_ok, ev_pure, liftR_ok] at h ⊢
      obtain ⟨w', h1, h⟩ := h
      injection h with h; subst h
      obtain ⟨o', h2⟩ := heff _ h1
      exact ⟨o', _, h2, rfl⟩
  · refine ⟨o, ?_⟩
    injection h with h; subst h; rfl
  · refine ⟨o, ?_⟩
    obtain ⟨c, h1, v, h2, h⟩ := h
    refine ⟨c, h1, v, h2, ?_⟩
    split at h
    · rw [if_pos (by assumption)]; injection h with h; subst h; rfl
    · rw [if_neg (by assumption)]; injection h with h; subst h; rfl
  · refine ⟨o, ?_⟩
    have hbt : (ext k ls o u).branchTaken = u.branchTaken := rfl
    rw [hbt]
    split at h
    · rw [if_pos (by assumption)]; injection h with h; subst h; rfl
    · rw [if_neg (by assumption)]
      simp only [ev_bind_ok, ev_pure, liftR_ok] at h ⊢
      obtain ⟨c, h1, v, h2, h⟩ := h
      refine ⟨c, h1, v, h2, ?_⟩
      split at h
      · rw [if_pos (by assumption)]; injection h with h; subst h; rfl
      · rw [if_neg (by assumption)]; injection h with h; subst h; rfl
  · refine ⟨o, ?_⟩
    have hbt : (ext k ls o u).branchTaken = u.branchTaken := rfl
    rw [hbt]
    split at h
    · rw [if_pos (by assumption)]
      split at h
      · rw [if_pos (by assumption)]; injection h with h; subst h; rfl
      · rw [if_neg (by assumption)]; injection h with h; subst h; rfl
    · rw [if_neg (by assumption)]; injection h with h; subst h; rfl
  · refine ⟨o, ?_⟩
    injection h with h; subst h; rfl
  · refine ⟨o, ?_⟩
    obtain ⟨i, h1, h⟩ := h
    injection h with h; subst h
    refine ⟨i, ?_, rfl⟩
    simp only [ext]
    cases hl : u.loops with
    | nil => rw [hl] at h1; cases h1
    | cons a l => rw [hl] at h1; exact h1
  · refine ⟨o, ?_⟩
    obtain ⟨c, h1, v, h2, h⟩ := h
    refine ⟨c, h1, v, h2, ?_⟩
    split at h
    · rw [if_pos (by assumption)]
      simp only [ev_bind_ok, ev_pure, liftR_ok] at h ⊢
      obtain ⟨i, hi, h⟩ := h
      injection h with h; subst h
      exact ⟨i, hi, rfl⟩
    · rw [if_neg (by assumption)]; injection h with h; subst h; rfl
  · obtain ⟨w', h1, h⟩ := h
    injection h with h; subst h
    obtain ⟨o', h2⟩ := heff _ h1
    exact ⟨o', _, h2, rfl⟩

theorem step_ext (hown : OwnVariables ev) {k : Nat} {ls : List Nat} {o : List Message} {u u' : Vm}
    (hd : u.frames.length ≤ u.world.vars.length) (h : u.step ev p scripts = .ok u') :
    ∃ o', (ext k ls o u).step ev p scripts = .ok (ext k ls o' u') := by
  unfold Vm.step at h ⊢
  have hfr : (ext k ls o u).frames = u.frames := rfl
  rw [hfr]
  split at h
  · cases h
  · rename_i name ip below hf
    rw [hf] at hd
    have hsc : (ext k ls o u).script scripts name below = u.script scripts name below := rfl
    simp only [hsc]
    dsimp only at h
    split at h
    · injection h with h; subst h; exact ⟨o, rfl⟩
    · exact exec_ext hown (by simp at hd; omega) h

/-- A step keeps at least as many sets of variables as active scripts. -/
theorem step_frames_le {u u' : Vm} (hu : u.frames.length ≤ u.world.vars.length) (hs : u.step ev p scripts = .ok u') :
    u'.frames.length ≤ u'.world.vars.length := by
  obtain ⟨name, ip, below, hfr, ⟨-, rfl⟩ | ⟨s, -, sh, -⟩⟩ := step_cases hs
  · rw [hfr] at hu; simp at hu ⊢; omega
  · rw [hfr] at hu
    simp only [List.length_cons] at hu
    have hlen := sh.vars
    rcases sh.frames with ⟨i, h⟩ | ⟨hp, hv, callee, h⟩
    · rw [h]
      rcases hlen with e | ⟨-, e⟩ | ⟨-, f, e⟩
      · rw [e]; exact hu
      · rw [e]; simp; omega
      · obtain ⟨a, -, e⟩ := modIdx_set e
        rw [e]; simpa using hu
    · rw [h, hv]; simp; omega

theorem run_ext (hown : OwnVariables ev) {k n : Nat} {ls : List Nat} {o : List Message} {u u' : Vm}
    (hd : u.frames.length ≤ u.world.vars.length) (h : u.run ev p scripts n = .ok u') :
    ∃ o', (ext k ls o u).run ev p scripts n = .ok (ext k ls o' u') := by
  have hr : ∀ (o : List Message) (u : Vm), (ext k ls o u).running = u.running := fun _ _ => rfl
  induction n generalizing u o with
  | zero =>
    unfold Vm.run at h ⊢
    rw [hr]
    split at h
    · cases h
    · injection h with h; subst h; exact ⟨o, if_neg (by assumption)⟩
  | succ n ih =>
    unfold Vm.run at h ⊢
    rw [hr]
    split at h
    · rename_i hc
      simp only [if_pos hc]
      rw [ev_bind_ok] at h
      obtain ⟨v, h1, h2⟩ := h
      obtain ⟨o1, h3⟩ := step_ext hown (k := k) (ls := ls) (o := o) hd h1
      rw [h3]
      exact ih (step_frames_le hd h1) h2
    · injection h with h; subst h; exact ⟨o, if_neg (by assumption)⟩

/-- The steps that cannot change anything but the verdict and what is on the terminal. -/
def isInert (o : Instruction) : Bool :=
  match o with
  | .assert | .showCustomDialog | .blankLineComment | .commentedOut => true
  | _ => false

theorem effect_inert {d : Nat} {s : ScriptStep} {w w' : World} (hs : isInert s.opcode = true)
    (h : effect ev p d s w = .ok w') : (∃ o, w' = { w with out := o }) ∨ w'.failed = true := by
  unfold effect at h
  unfold isInert at hs
  split at hs <;> rename_i ho
  · simp only [ho, ev_bind_ok, ev_pure] at h
    obtain ⟨c, -, v, -, h⟩ := h
    split at h <;> injection h with h <;> subst h
    · exact .inr rfl
    · exact .inl ⟨_, rfl⟩
  · simp only [ho, ev_bind_ok, ev_pure] at h
    obtain ⟨c, -, v, -, h⟩ := h
    injection h with h; exact .inl ⟨_, h.symm⟩
  · simp only [ho, ev_pure] at h
    injection h with h; exact .inl ⟨_, h.symm⟩
  · simp only [ho, ev_pure] at h
    injection h with h; exact .inl ⟨_, h.symm⟩
  · cases hs

theorem inert_plain {s : ScriptStep} (hs : isInert s.opcode = true) : isPlain s = true := by
  unfold isInert at hs
  unfold isPlain
  split at hs <;> simp_all

/-- A test of inert steps that passes leaves the state as it was, up to what is on the terminal. -/
theorem run_inert {n : Nat} {u u' : Vm} {name : Str} {ip : Nat} (hfr : u.frames = [(name, ip)])
    (hin : ∀ s ∈ u.test.instructions, isInert s.opcode = true) (h : u.run ev p scripts n = .ok u')
    (hf : u'.world.failed = false) : ∃ o, u' = { u with frames := [], world := { u.world with out := o } } := by
  induction n generalizing u ip with
  | zero =>
    unfold Vm.run at h
    split at h
    · cases h
    · rename_i hr
      injection h with h; subst h
      simp [Vm.running, hfr, hf] at hr
  | succ n ih =>
    unfold Vm.run at h
    split at h
    · rw [ev_bind_ok] at h
      obtain ⟨v, h1, h2⟩ := h
      unfold Vm.step at h1
      rw [hfr] at h1
      dsimp only at h1
      split at h1
      · injection h1 with h1
        subst h1
        rw [run_stopped (.inr rfl)] at h2
        injection h2 with h2; exact ⟨u.world.out, h2.symm⟩
      · rename_i s hs
        have hmem : s ∈ u.test.instructions := List.mem_of_getElem? hs
        rw [exec_plain (inert_plain (hin s hmem)), ev_bind_ok] at h1
        obtain ⟨w, h3, h4⟩ := h1
        injection h4 with h4
        rcases effect_inert (hin s hmem) h3 with ⟨o, e⟩ | e
        · subst e
          obtain ⟨o', this⟩ := ih (u := v) (ip := ip + 1) (by rw [← h4]) (by rw [← h4]; exact hin) h2
          exact ⟨o', by rw [this, ← h4]⟩
        · rw [run_stopped (.inl (by rw [← h4]; exact e))] at h2
          injection h2 with h2; subst h2
          rw [← h4] at hf
          simp only at hf
          rw [e] at hf; cases hf
    · rename_i hr
      injection h with h; subst h
      simp [Vm.running, hfr, hf] at hr

end BurnFm
