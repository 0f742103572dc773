import Verif.Proofs.VmSim

/-! If the interpreter ends, executing the structured script as written ends too. -/

namespace BurnFm
open Spec

variable {ev : Calculator} {p : Profile} {scripts : HMap FScript} {name : Str} {below : List (Str × Nat)} {T : FScript}
  {ok : Bool → Taken → Taken → Str → Prop} {env : Str → Option Prog}

theorem run_step {N : Nat} {u v : Vm} (h : u.run ev p scripts N = .ok v) (hf : u.world.failed = false)
    (hn : u.frames ≠ []) : ∃ M u', N = M + 1 ∧ u.step ev p scripts = .ok u' ∧ u'.run ev p scripts M = .ok v := by
  have hr : u.running = true := by simp [Vm.running, hf, List.isEmpty_eq_false_iff.mpr hn]
  cases N with
  | zero => unfold Vm.run at h; rw [if_pos hr] at h; cases h
  | succ M =>
    unfold Vm.run at h
    rw [if_pos hr, ev_bind_ok] at h
    obtain ⟨u', h1, h2⟩ := h
    exact ⟨M, u', rfl, h1, h2⟩

theorem St_step {N i : Nat} {w : World} {ls : List Nat} {b : Bool} {v : Vm} {s : ScriptStep}
    (h : (St name below T i w ls b).run ev p scripts N = .ok v) (hw : w.failed = false)
    (hs : (Code scripts name below T)[i]? = some s) :
    ∃ M u, N = M + 1 ∧ (St name below T i w ls b).exec ev p scripts name i below (Code scripts name below T) s = .ok u ∧
      u.run ev p scripts M = .ok v := by
  obtain ⟨M, u, h1, h2, h3⟩ := run_step h hw (by simp [St])
  rw [step_at hs] at h2
  exact ⟨M, u, h1, h2, h3⟩

/-- What a `go_to_record` with exit flag does when it does not panic. -/
theorem leave_ok {i : Nat} {w : World} {ls : List Nat} {b : Bool} {s : ScriptStep} {u : Vm} (hs : Leaves s)
    (h : (St name below T i w ls b).exec ev p scripts name i below (Code scripts name below T) s = .ok u) :
    ∃ w' r, goOrLeave ev p (below.length + 1) s w = .ok (w', r) := by
  unfold Vm.exec at h
  rw [hs.1] at h
  dsimp only at h
  rw [if_pos hs.2] at h
  simp only [ev_bind_ok] at h
  obtain ⟨c, h1, v, h2, c2, h3, v2, h4, h⟩ := h
  unfold goOrLeave
  rw [h1, ev_ok_bind, show w.eval ev (below.length + 1) c = _ from h2, ev_ok_bind, h3, ev_ok_bind,
    show w.eval ev (below.length + 1) c2 = _ from h4, ev_ok_bind]
  replace h : (if w.findMode = true then _ else _) = _ := h
  cases hm : w.findMode with
  | true => exact ⟨_, _, rfl⟩
  | false =>
    rw [hm, if_neg (by simp)] at h
    rw [if_neg (by simp)]
    simp only [ev_bind_ok] at h
    obtain ⟨before, h5, db, h6, after, h7, h⟩ := h
    rw [show liftR w.db.currentOcc = _ from h5, ev_ok_bind, show liftR (moveRecord p w.db v) = _ from h6, ev_ok_bind, h7]
    exact ⟨_, _, rfl⟩

variable (ev p scripts T ok env) in
def Back (N : Nat) (q : Prog) : Prop :=
  ∀ (name : Str) (below : List (Str × Nat)) (w : World) (l : Bool) (e : Option Taken) (pl : Place) (a a' : Taken)
    (pre post : List ScriptStep) (out : Nat) (ls : List Nat) (b : Bool) (v : Vm),
    Orderly ev ok l e pl a q a' → w.failed = false → Code scripts name below T = pre ++ q.code ++ post → a.Has b →
    LoopEnds e l post (pre.length + q.code.length) out →
    ((St name below T pre.length w ls b).run ev p scripts N = .ok v → ∃ o w', Runs ev p env (below.length + 1) q w o w') ∧
    (∀ body rest, q = .loop body rest →
      ∀ x y, a.Le x → Orderly ev ok false (some y) pl.body x body x → Orderly ev ok l e pl y rest a' → ∀ b', x.Has b' →
      (St name below T (pre.length + 1) w (pre.length :: ls) b').run ev p scripts N = .ok v →
      ∃ o w', Runs ev p env (below.length + 1) q w o w')

variable (ev p scripts T ok env) in
def BackAlt (N : Nat) (alt : Alt) : Prop :=
  ∀ (name : Str) (below : List (Str × Nat)) (w : World) (l : Bool) (e : Option Taken) (k : Instruction)
    (pre post : List ScriptStep) (x : ScriptStep) (out : Nat) (ls : List Nat) (b : Bool) (v : Vm),
    k = .if ∨ k = .elseIf → (alt = .none ∨ k = .if ∧ OneBranch alt ∨ b = false) → OrderlyAlt ev ok l e alt →
    w.failed = false → x.opcode = .endIf → Code scripts name below T = pre ++ altCode k alt ++ x :: post →
    LoopEnds e l (x :: post) (pre.length + (altCode k alt).length) out →
    (St name below T pre.length w ls b).run ev p scripts N = .ok v →
    ∃ o w', RunsAlt ev p env (below.length + 1) alt w o w'

/-- The rest of a part that begins with one step. -/
theorem Back.rest {M : Nat} {rest : Prog} (ih : Back ev p scripts T ok env M rest)
    {s : ScriptStep} {w : World} {l : Bool} {e : Option Taken} {pl : Place} {a a' : Taken} {pre post : List ScriptStep} {out : Nat}
    {ls : List Nat} {b : Bool} {v : Vm} (hq : Orderly ev ok l e pl a rest a') (hw : w.failed = false)
    (hC : Code scripts name below T = pre ++ (s :: rest.code) ++ post) (hb : a.Has b)
    (hE : LoopEnds e l post (pre.length + (s :: rest.code).length) out)
    (hr : (St name below T (pre.length + 1) w ls b).run ev p scripts M = .ok v) :
    ∃ o w', Runs ev p env (below.length + 1) rest w o w' := by
  have e1 : (pre ++ [s]).length + rest.code.length = pre.length + (s :: rest.code).length := by simp; omega
  refine (ih name below w l e pl a a' (pre ++ [s]) post out ls b v hq hw (by rw [hC]; simp) hb (by rw [e1]; exact hE)).1 ?_
  rwa [List.length_append, List.length_singleton]

theorem back_alt {N : Nat} (ih : ∀ M, M < N → ∀ q, Back ev p scripts T ok env M q)
    (iha : ∀ M, M < N → ∀ a, BackAlt ev p scripts T ok env M a) :
    ∀ a, BackAlt ev p scripts T ok env N a
  | .none => by
    intro name below w l e k pre post x out ls b v hk hb ha hw hx hC hE hr
    exact ⟨_, _, .none⟩
  | .else body => by
    intro name below w l e k pre post x out ls b v hk hb ha hw hx hC hE hr
    have hb : b = false := by
      rcases hb with h | h | h
      · cases h
      · exact h.2.elim
      · exact h
    subst hb
    have hcode : altCode k (.else body) = instr .else [] :: body.code := by simp [altCode, Alt.code]
    rw [hcode] at hC hE
    obtain ⟨M, u, hM, h2, h3⟩ := St_step hr hw (getElem_pre hC rfl)
    have h4 : u = St name below T (pre.length + 1) w ls false := by
      injection h2 with h2
      rw [← h2]; simp [St]
    rw [h4] at h3
    cases ha with
    | «else» hq =>
      obtain ⟨o, w', h5⟩ := (ih M (by omega) body).rest hq hw hC (has_some false) hE h3
      exact ⟨o, w', .else h5⟩
  | .elif c body alt => by
    intro name below w l e k pre post x out ls b v hk hb ha hw hx hC hE hr
    have hk' : k = .if ∨ k = .elseIf ∧ b = false := by
      rcases hk with rfl | rfl
      · exact .inl rfl
      · rcases hb with h | h | h
        · cases h
        · cases h.1
        · exact .inr ⟨rfl, h⟩
    have hg := getElem_pre hC (show altCode k (.elif c body alt) = _ :: _ from rfl)
    obtain ⟨M, u, rfl, h2, h3⟩ := St_step hr hw hg
    have hval : ∃ val, w.eval ev (below.length + 1) c = .ok val := by
      unfold Vm.exec at h2
      rcases hk' with rfl | ⟨rfl, rfl⟩
      · dsimp only [instr] at h2
        rw [show (ScriptStep.mk Instruction.if 0 [c]).switch 0 = .ok c from rfl, ev_ok_bind, ev_bind_ok] at h2
        obtain ⟨val, h, -⟩ := h2
        exact ⟨val, h⟩
      · dsimp only [instr] at h2
        rw [if_neg (by simp [St]), if_neg (by simp [St])] at h2
        dsimp only at h2
        rw [show (ScriptStep.mk Instruction.elseIf 0 [c]).switch 0 = .ok c from rfl, ev_ok_bind, ev_bind_ok] at h2
        obtain ⟨val, h, -⟩ := h2
        exact ⟨val, h⟩
    obtain ⟨val, hval⟩ := hval
    have e0 : (pre ++ [instr k [c]]).length = pre.length + 1 := by simp
    have e2 : pre.length + 1 + body.code.length + alt.code.length = pre.length + (altCode k (.elif c body alt)).length := by
      simp [altCode]; omega
    by_cases hv : val = t!"true"
    · subst hv
      rw [exec_elif_true hk' hval] at h2
      injection h2 with h2; subst h2
      have hE' : LoopEnds e l (alt.code ++ x :: post) ((pre ++ [instr k [c]]).length + body.code.length) out := by
        refine hE.prepend ?_ (by rw [e0]; exact e2)
        intro hl s hs
        subst hl
        exact orderlyAlt_no_endLoop (orderlyAlt_tail ha) s hs
      obtain ⟨pl, t, hq⟩ : ∃ pl t, Orderly ev ok l e pl (some true) body t := by
        cases ha with
        | last h => exact ⟨_, _, h⟩
        | elif _ h _ => exact ⟨_, _, h⟩
      obtain ⟨o, w', h5⟩ := (ih M (by omega) body name below w l e pl _ t (pre ++ [instr k [c]]) (alt.code ++ x :: post) out ls
        true v hq hw (elif_code hC).1 (has_some true) hE').1 (by rw [e0]; exact h3)
      exact ⟨o, w', .true hval h5⟩
    · rw [exec_elif_false hk' hval hv hg] at h2
      injection h2 with h2; subst h2
      obtain ⟨b', hb', h4⟩ := to_next_branch (ev := ev) (p := p) (ls := ls) (b := b) ha hw hx hC
      have hb2 : alt = .none ∨ Instruction.elseIf = .if ∧ OneBranch alt ∨ b' = false := by
        rcases hb' with rfl | rfl
        · rcases hb with h | h | h
          · cases h
          · exact .inl h.2
          · exact .inr (.inr h)
        · exact .inr (.inr rfl)
      have e1 : (pre ++ instr k [c] :: body.code).length = pre.length + 1 + body.code.length := by simp; omega
      obtain ⟨o, w', h5⟩ := iha M (by omega) alt name below w l e .elseIf (pre ++ instr k [c] :: body.code) post x out ls b' v
        (.inr rfl) hb2 (orderlyAlt_tail ha) hw hx (by rw [altCode_elseIf]; exact (elif_code hC).2)
        (by rw [altCode_elseIf, e1, e2]; exact hE) (by rw [e1]; exact run_after h3 h4)
      exact ⟨o, w', .false hval hv h5⟩

theorem back_prog (hl : Linked scripts env) (hok : OrderlyScripts ev env ok) {N : Nat}
    (ih : ∀ M, M < N → ∀ q, Back ev p scripts T ok env M q) (iha : ∀ M, M < N → ∀ a, BackAlt ev p scripts T ok env M a) :
    ∀ q, Back ev p scripts T ok env N q
  | .nil => by
    intro name below w l e pl a a' pre post out ls b v hq hw hC hb hE
    exact ⟨fun _ => ⟨_, _, .nil⟩, fun _ _ h => by cases h⟩
  | .step s rest => by
    intro name below w l e pl a a' pre post out ls b v hq hw hC hb hE
    refine ⟨fun hr => ?_, fun _ _ h => by cases h⟩
    have hg := getElem_pre hC (show (Prog.step s rest).code = s :: rest.code by rw [Prog.code])
    obtain ⟨M, u, rfl, h2, h3⟩ := St_step hr hw hg
    rw [Prog.code] at hC hE
    cases hq with
    | step hs hq =>
      rw [exec_plain (straight_plain hs), ev_bind_ok] at h2
      obtain ⟨w1, h4, h5⟩ := h2
      injection h5 with h5
      cases hf : w1.failed with
      | true => exact ⟨_, _, .stepFail hs h4 hf⟩
      | false =>
        have h6 : u = St name below T (pre.length + 1) w1 ls b := by
          rw [← h5]; simp [St]
        rw [h6] at h3
        obtain ⟨o, w', h7⟩ := (ih M (Nat.lt_succ_self M) rest).rest hq hf hC hb hE h3
        exact ⟨o, w', .step hs h4 hf h7⟩
    | call hs ho hq =>
      -- the called script exists
      obtain ⟨callee, hcall⟩ : ∃ callee, CallsIn ev (below.length + 1) s w callee := by
        unfold Vm.exec at h2
        rw [hs] at h2
        dsimp only at h2
        simp only [ev_bind_ok] at h2
        obtain ⟨c, h4, v1, h5, callee, h6, -⟩ := h2
        refine ⟨callee, hs, c, v1, h4, h5, ?_⟩
        cases hq1 : stripQuotes v1 with
        | ok r => rw [hq1] at h6; injection h6 with h6; rw [h6]
        | error r => rw [hq1] at h6; cases h6
      have ho' := ho callee ⟨_, _, hcall⟩
      obtain ⟨q, hq1, hq2⟩ := hok _ _ _ _ ho'
      obtain ⟨en, he1, he2⟩ := hl callee q hq1
      have hx := exec_call (p := p) (ls := ls) (b := b) hg hw hcall ⟨en, he1⟩
      have hu : u = St callee ((name, pre.length + 1) :: below) T 0 { w with vars := w.vars ++ [[]] } ls b := by
        have h6 : (St name below T pre.length w ls b).exec ev p scripts name pre.length below (Code scripts name below T) s =
            .ok (St callee ((name, pre.length + 1) :: below) T 0 { w with vars := w.vars ++ [[]] } ls b) := by
          obtain ⟨-, c, v1, h7, h8, h9⟩ := hcall
          unfold Vm.exec
          rw [hs]
          dsimp only
          rw [h7, ev_ok_bind]
          show (w.eval ev (below.length + 1) c >>= _) = _
          rw [h8, ev_ok_bind, h9]
          show (Except.ok callee : Ev Str) >>= _ = _
          rw [ev_ok_bind, if_pos]
          · rfl
          · exact List.any_eq_true.mpr ⟨en, List.mem_of_find?_eq_some he1, by simpa using List.find?_some he1⟩
        rw [h6] at h2; injection h2 with h2; exact h2.symm
      subst hu
      have hCq : Code scripts callee ((name, pre.length + 1) :: below) T = [] ++ q.code ++ [] := by
        rw [code_callee hl hq1]; simp
      obtain ⟨o, w1, h7⟩ := (ih M (Nat.lt_succ_self M) q callee ((name, pre.length + 1) :: below)
        { w with vars := w.vars ++ [[]] } _ none .free _ _ [] [] 0 ls b v hq2 hw hCq hb (fun x hx => by cases hx)).1 h3
      rcases sim_callee hl hok hq1 (runs_sim hl hok h7) (i := pre.length + 1) (ls := ls) rfl ho' hw hb with
        ⟨rfl, hf, ls', b', h8, h9, -⟩ | ⟨rfl, -⟩
      · obtain ⟨o, w', h10⟩ := (ih M (Nat.lt_succ_self M) rest).rest hq hf hC h9 hE (run_after h3 h8)
        exact ⟨o, w', .call hcall hq1 h7 h10⟩
      · exact ⟨_, _, .callFail hcall hq1 h7⟩
    | leave hs hfl hx hq =>
      obtain ⟨w1, r, h4⟩ := leave_ok hs h2
      cases r with
      | true => exact ⟨_, _, .leave hs h4⟩
      | false =>
        rw [exec_leave hs (fun _ _ => hfl _ _ _ _) h4] at h2
        injection h2 with h2
        subst h2
        obtain ⟨o, w', h7⟩ := (ih M (Nat.lt_succ_self M) rest).rest hq (by rw [goOrLeave_failed h4, hw]) hC hb hE h3
        exact ⟨o, w', .go hs h4 h7⟩
  | .exitIf c rest => by
    intro name below w l e pl a a' pre post out ls b v hq hw hC hb hE
    refine ⟨fun hr => ?_, fun _ _ h => by cases h⟩
    obtain ⟨M, u, rfl, h2, h3⟩ := St_step hr hw (getElem_pre hC rfl)
    rw [Prog.code] at hC hE
    unfold Vm.exec at h2
    dsimp only [instr] at h2
    rw [show (ScriptStep.mk Instruction.exitLoopIf 0 [c]).switch 0 = .ok c from rfl, ev_ok_bind, ev_bind_ok] at h2
    obtain ⟨val, h4, h5⟩ := h2
    by_cases hv : val = t!"true"
    · subst hv; exact ⟨_, _, .exitTrue h4⟩
    · rw [if_neg hv] at h5
      injection h5 with h5
      have h6 : u = St name below T (pre.length + 1) w ls b := by
        rw [← h5]; simp [St]
      rw [h6] at h3
      cases hq with
      | exitIf hx hq =>
        obtain ⟨o, w', h7⟩ := (ih M (Nat.lt_succ_self M) rest).rest hq hw hC hb hE h3
        exact ⟨o, w', .exitFalse h4 hv h7⟩
  | .cond c body alt rest => by
    intro name below w l e pl a a' pre post out ls b v hq hw hC hb hE
    refine ⟨fun hr => ?_, fun _ _ h => by cases h⟩
    have hq' := hq
    cases hq with
    | cond hpl ha0 ha hq =>
      have hb1 : (Alt.elif c body alt) = .none ∨ Instruction.if = .if ∧ OneBranch (.elif c body alt) ∨ b = false := by
        by_cases h : alt = .none
        · exact .inr (.inl ⟨rfl, h⟩)
        · have := ha0 h
          rw [this] at hb
          exact .inr (.inr hb.eq)
      have hE1 : LoopEnds e l (instr .endIf [] :: (rest.code ++ post)) (pre.length + (altCode .if (.elif c body alt)).length) out := by
        refine LoopEnds.prepend (pre := instr .endIf [] :: rest.code) hE ?_ ?_
        · intro hl s hs
          subst hl
          rcases List.mem_cons.mp hs with rfl | hs
          · rfl
          · exact orderly_no_endLoop hq s hs
        · rw [cond_len]; simp; omega
      obtain ⟨o, w1, h1⟩ := back_alt ih iha (.elif c body alt) name below w l e .if pre (rest.code ++ post) (instr .endIf []) out
        ls b v (.inl rfl) hb1 ha hw rfl (cond_code (by simpa using hC)).1 hE1 hr
      by_cases ho : o = .done
      · subst ho
        obtain ⟨ls', b', h2, -, h2', hf⟩ := sim_cond_chain (ls := ls) (runsAlt_sim hl hok h1) rfl hq' hw hC hb hE
        obtain ⟨M, u, hM, h5, h6⟩ := St_step (run_after hr h2) hf (endIf_at hC)
        have h7 : u = St name below T (pre ++ altCode .if (.elif c body alt) ++ [instr .endIf []]).length w1 ls' false := by
          injection h5 with h5
          rw [← h5]; simp [St, Nat.add_assoc]
        rw [h7] at h6
        have e2 : (pre ++ altCode .if (.elif c body alt) ++ [instr .endIf []]).length + rest.code.length =
            pre.length + (Prog.cond c body alt rest).code.length := by rw [cond_len]; simp; omega
        obtain ⟨o, w', h8⟩ := (ih M (by omega) rest name below w1 l e pl _ a' _ post out ls' false v hq hf (cond_code hC).2
          (has_some false) (by rw [e2]; exact hE)).1 h6
        exact ⟨o, w', .cond h1 h8⟩
      · exact ⟨o, w1, .condStop h1 ho⟩
  | .loop body rest => by
    intro name below w l e pl a a' pre post out ls b v hq hw hC hb hE
    have key : ∀ x y, a.Le x → Orderly ev ok false (some y) pl.body x body x → Orderly ev ok l e pl y rest a' → ∀ b', x.Has b' →
        (St name below T (pre.length + 1) w (pre.length :: ls) b').run ev p scripts N = .ok v →
        ∃ o w', Runs ev p env (below.length + 1) (.loop body rest) w o w' := by
      intro x y hx hqb hqr b' hb' hr
      obtain rfl : l = true := by cases hq; rfl
      have e1 : (pre ++ [instr .loop []]).length = pre.length + 1 := by simp
      obtain ⟨o, w1, h1⟩ := (back_prog hl hok ih iha body name below w false (some y) pl.body x x (pre ++ [instr .loop []]) _
        (pre.length + 1 + body.code.length + 1) (pre.length :: ls) b' v hqb hw (loop_code hC).1 hb' (by
          intro x' hx'
          exact ⟨rfl, [], _, _, rfl, by simp, rfl, by rw [e1]; simp⟩)).1 (by rw [e1]; exact hr)
      have hs := sim_body (ls := ls) (runs_sim hl hok h1) rfl hqb hw hC hb'
      cases o with
      | failed => exact ⟨_, _, .loopFail h1⟩
      | done =>
        obtain ⟨ls', b2, h2, hb2, h2', hf⟩ := hs
        rw [h2' rfl] at h2
        have hg : (Code scripts name below T)[pre.length + 1 + body.code.length]? = some (instr .endLoop []) := by
          have := getElem_pre (pre := pre ++ [instr .loop []] ++ body.code)
            (q := instr .endLoop [] :: (rest.code ++ post)) (post := []) (by simpa using (loop_code hC).1) rfl
          simpa [Nat.add_assoc, Nat.add_comm body.code.length 1] using this
        obtain ⟨M, u, hM, h5, h6⟩ := St_step (run_after hr h2) hf hg
        have h7 : u = St name below T (pre.length + 1) w1 (pre.length :: ls) b2 := by
          injection h5 with h5
          rw [← h5]; rfl
        rw [h7] at h6
        obtain ⟨o, w', h8⟩ := (ih M (by omega) (.loop body rest) name below w1 true e pl x a' pre post out ls b2 v
          (.loop (.inr rfl) hqb hqr) hf hC hb2 hE).2 _ _ rfl x y (.inr rfl) hqb hqr b2 hb2 h6
        exact ⟨o, w', .loopAgain h1 h8⟩
      | exited =>
        obtain ⟨x', b2, hx', hb2, hf, h2⟩ := hs
        injection hx' with hx'
        subst hx'
        have h3 := run_after hr h2
        have e1 : (pre ++ instr .loop [] :: body.code ++ [instr .endLoop []]).length =
            pre.length + 1 + body.code.length + 1 := by simp; omega
        have e2 : pre.length + 1 + body.code.length + 1 + rest.code.length = pre.length + (Prog.loop body rest).code.length := by
          rw [Prog.code]; simp; omega
        obtain ⟨o, w', h8⟩ := (back_prog hl hok ih iha rest name below w1 true e pl y a'
          (pre ++ instr .loop [] :: body.code ++ [instr .endLoop []]) post out (pre.length :: ls) b2 v hqr hf
          (loop_code hC).2 hb2 (by rw [e1, e2]; exact hE)).1 (by rw [e1]; exact h3)
        exact ⟨o, w', .loopExit h1 h8⟩
    refine ⟨fun hr => ?_, fun body' rest' heq x y hx h1 h2 b' hb' => ?_⟩
    · obtain ⟨M, u, hM, h2, h3⟩ := St_step hr hw (getElem_pre hC rfl)
      have h4 : u = St name below T (pre.length + 1) w (pre.length :: ls) b := by
        injection h2 with h2
        rw [← h2]; rfl
      rw [h4] at h3
      cases hq with
      | loop hx h5 h6 => exact key _ _ hx h5 h6 b (hb.mono hx) (run_mono h3 (by omega))
    · injection heq with e1 e2
      subst e1; subst e2
      exact key x y hx h1 h2 b' hb'

theorem back_all (hl : Linked scripts env) (hok : OrderlyScripts ev env ok) (N : Nat) :
    (∀ q, Back ev p scripts T ok env N q) ∧ (∀ a, BackAlt ev p scripts T ok env N a) := by
  induction N using Nat.strongRecOn with
  | ind N ih =>
    exact ⟨back_prog hl hok (fun M h => (ih M h).1) (fun M h => (ih M h).2),
      back_alt (fun M h => (ih M h).1) (fun M h => (ih M h).2)⟩

end BurnFm
