import Verif.Spec.ScriptWarnings
import Verif.Proofs.BurnScript

/-! Lemmas about the warnings of the compiler. -/

namespace BurnFm
open Spec

@[simp] theorem warn_fst {α : Type} (w : Warning) (r : Warned α) : (warn w r).1 = w :: r.1 := rfl
@[simp] theorem warn_snd {α : Type} (w : Warning) (r : Warned α) : (warn w r).2 = r.2 := rfl

/-- Writing warnings does not change the result. -/
theorem parseScriptsW_snd (ts : List ScriptTok) : ∀ (m : ScriptMode) (stack : List Instruction) (tmp : FScript)
    (acc : List FScript), (parseScriptsW m stack tmp acc ts).2 = parseScripts m stack tmp acc ts := by
  induction ts with
  | nil => intro m stack tmp acc; cases m <;> rfl
  | cons t ts ih =>
    intro m stack tmp acc
    obtain ⟨ty, v⟩ := t
    cases m with
    | body =>
      unfold parseScriptsW parseScripts
      cases ty <;> try exact ih ..
      · dsimp only
        cases Instruction.fromStr v with
        | none => exact ih ..
        | some op => exact ih ..
      · dsimp only
        cases stack with
        | nil => exact ih ..
        | cons top below =>
          dsimp only
          split
          · exact ih ..
          · cases top <;> first | exact ih .. | rfl
    | params =>
      unfold parseScriptsW parseScripts
      cases ty <;> exact ih ..
    | _ =>
      unfold parseScriptsW parseScripts
      dsimp only
      repeat' split
      all_goals first | exact ih .. | rfl

theorem compileScriptsW_snd (s : Str) : (compileScriptsW s).2 = compileScripts s := by
  unfold compileScriptsW compileScripts
  cases lexScript s with
  | error e => rfl
  | ok ts =>
    show (parseScriptsW .top [] {} [] ts).2 >>= unwrap = parseScripts .top [] {} [] ts >>= unwrap
    rw [parseScriptsW_snd]

theorem Warned.andThen_snd {α β : Type} (r : Warned (Res α)) (k : α → Warned (Res β)) :
    (r.andThen k).2 = r.2 >>= fun x => (k x).2 := by
  unfold Warned.andThen
  split <;> rename_i h <;> rw [h] <;> rfl

theorem parseBurnW_snd (ts : List BurnTok) : ∀ (m : BurnMode) (ret : FmpFile),
    (parseBurnW m ret ts).2 = parseBurn m ret ts := by
  induction ts with
  | nil => intro m ret; cases m <;> rfl
  | cons t ts ih =>
    intro m ret
    obtain ⟨ty, text⟩ := t
    cases m with
    | top =>
      unfold parseBurnW parseBurn
      cases ty <;> first | exact ih .. | rfl
    | item i =>
      unfold parseBurnW parseBurn
      dsimp only
      by_cases h1 : ty = .end
      · rw [if_pos h1, if_pos h1]; exact ih ..
      · rw [if_neg h1, if_neg h1]
        cases i with
        | relationship r =>
          dsimp only
          by_cases h2 : ty = .identifier
          · rw [if_pos h2, if_pos h2]
            cases ts.head? with
            | none => rfl
            | some c => dsimp only; split <;> exact ih ..
          · rw [if_neg h2, if_neg h2]; exact ih ..
        | occurrence o => dsimp only; split <;> exact ih ..
        | test x =>
          dsimp only
          split
          · exact ih ..
          · split <;> exact ih ..
        | table t => exact ih ..
        | valueList v => exact ih ..
    | scriptBlock =>
      unfold parseBurnW parseBurn
      dsimp only
      rw [Warned.andThen_snd, compileScriptsW_snd]
      simp only [ih]
    | testBlock x =>
      unfold parseBurnW parseBurn
      dsimp only
      rw [Warned.andThen_snd, compileScriptsW_snd]
      congr 1
      funext scripts
      split
      · rfl
      · rw [Warned.andThen_snd]
        simp only [ih]
    | _ =>
      unfold parseBurnW parseBurn
      dsimp only
      repeat' split
      all_goals first | exact ih .. | rfl

theorem compileBurnW_snd [Rt] (p : Profile) (s : Str) : (compileBurnW p s).2 = compileBurn p s := by
  unfold compileBurnW compileBurn
  cases lexBurn p s with
  | error e => rfl
  | ok ts =>
    show (parseBurnW .top {} ts).2 >>= unwrap = parseBurn .top {} ts >>= unwrap
    rw [parseBurnW_snd]

/-! ### Scripts as they should be -/

theorem parseW_params {ps : List Str} {stack : List Instruction} {tmp : FScript} {acc : List FScript} {ts : List ScriptTok} :
    parseScriptsW .params stack tmp acc (ps.map tArg ++ ts) =
      parseScriptsW .params stack { tmp with arguments := tmp.arguments ++ ps } acc ts := by
  induction ps generalizing tmp with
  | nil => simp
  | cons a ps ih =>
    rw [List.map_cons, List.cons_append]
    conv => lhs; unfold parseScriptsW
    show parseScriptsW .params stack { tmp with arguments := tmp.arguments ++ [a] } acc _ = _
    rw [ih]
    simp

theorem parseW_step {args sw : List Str} {op : Instruction} {stack : List Instruction} {tmp : FScript} {acc : List FScript}
    {ts : List ScriptTok} : parseScriptsW (.step op sw) stack tmp acc (args.map tArg ++ tSemi :: ts) =
      parseScriptsW .body stack (tmp.push op (sw ++ args)) acc ts := by
  induction args generalizing sw with
  | nil => simp [parseScriptsW]
  | cons a as ih =>
    rw [List.map_cons, List.cons_append]
    conv => lhs; unfold parseScriptsW
    show parseScriptsW (.step op (sw ++ [a])) stack tmp acc _ = _
    rw [ih]
    simp

mutual

theorem parseW_written {p : Prog} {ts : List ScriptTok} (h : Written false p ts) (stack : List Instruction) (tmp : FScript)
    (acc : List FScript) (rest : List ScriptTok) (hr : startsElse rest = false) :
    parseScriptsW .body stack tmp acc (ts ++ rest) = parseScriptsW .body stack (tmp.add p.code) acc rest := by
  match h with
  | .nil => rw [Prog.code, FScript.add_nil, List.nil_append]
  | .step (name := name) (op := op) (args := args) (ts := ts) ho h =>
    have e : tName name :: args.map tArg ++ tSemi :: ts ++ rest = tName name :: (args.map tArg ++ tSemi :: (ts ++ rest)) := by
      simp
    rw [e]
    conv => lhs; unfold parseScriptsW
    simp only [ho]
    rw [parseW_step, parseW_written h _ _ _ _ hr, FScript.push_add, Prog.code]
    rfl
  | .exitIf (c := c) (ts := ts) h =>
    have e : tName t!"exit_loop_if" :: tArg c :: tSemi :: ts ++ rest =
        tName t!"exit_loop_if" :: ([c].map tArg ++ tSemi :: (ts ++ rest)) := by simp
    rw [e]
    conv => lhs; unfold parseScriptsW
    simp only [show Instruction.fromStr t!"exit_loop_if" = some .exitLoopIf from rfl]
    rw [parseW_step, parseW_written h _ _ _ _ hr, FScript.push_add, Prog.code]
    rfl
  | .cond (c := c) (b := b) (a := a) (ts := ts) (body := body) (alt := alt) hb ha h =>
    have e : tIf :: tArg c :: tOpen :: b ++ tClose :: a ++ ts ++ rest =
        tIf :: tArg c :: tOpen :: (b ++ tClose :: (a ++ (ts ++ rest))) := by simp
    rw [e]
    have e2 : ∀ r, parseScriptsW .body stack tmp acc (tIf :: tArg c :: tOpen :: r) =
        parseScriptsW .body (.if :: stack) (tmp.push .if [c]) acc r := by
      intro r
      simp [parseScriptsW]
    rw [e2, parseW_written hb _ _ _ _ rfl, parseW_writtenAlt ha _ _ _ _ (written_head h hr), parseW_written h _ _ _ _ hr,
      FScript.push_add, FScript.add_add, FScript.add_add, Prog.code]
    simp
  | .loop (b := b) (ts := ts) hb h =>
    have e : tLoop :: tOpen :: b ++ tClose :: ts ++ rest = tLoop :: tOpen :: (b ++ tClose :: (ts ++ rest)) := by simp
    rw [e]
    have e2 : ∀ r, parseScriptsW .body stack tmp acc (tLoop :: tOpen :: r) =
        parseScriptsW .body (.loop :: stack) (tmp.push .loop []) acc r := by
      intro r
      simp [parseScriptsW]
    rw [e2, parseW_written hb _ _ _ _ rfl]
    conv => lhs; unfold parseScriptsW
    simp only [written_head h hr, Bool.false_eq_true, if_false]
    rw [parseW_written h _ _ _ _ hr, FScript.add_push, FScript.push_add, FScript.add_add, Prog.code]
    simp
  | .unknown hu _ _ => cases hu

theorem parseW_writtenAlt {al : Alt} {ts : List ScriptTok} (h : WrittenAlt false al ts) (stack : List Instruction) (tmp : FScript)
    (acc : List FScript) (rest : List ScriptTok) (hr : startsElse rest = false) :
    parseScriptsW .body (.if :: stack) tmp acc (tClose :: (ts ++ rest)) =
      parseScriptsW .body stack (tmp.add (al.code ++ [instr .endIf []])) acc rest := by
  match h with
  | .none =>
    conv => lhs; unfold parseScriptsW
    simp only [List.nil_append, hr, Bool.false_eq_true, if_false]
    rfl
  | .else (b := b) hb =>
    have e : tClose :: (tElse :: tOpen :: b ++ [tClose] ++ rest) = tClose :: tElse :: tOpen :: (b ++ tClose :: rest) := by simp
    rw [e]
    have e2 : ∀ r, parseScriptsW .body (.if :: stack) tmp acc (tClose :: tElse :: tOpen :: r) =
        parseScriptsW .body (.if :: stack) (tmp.push .else []) acc r := by
      intro r
      simp [parseScriptsW, startsElse]
    rw [e2, parseW_written hb _ _ _ _ rfl]
    conv => lhs; unfold parseScriptsW
    simp only [hr, Bool.false_eq_true, if_false]
    rw [FScript.add_push, FScript.push_add, Alt.code]
    rfl
  | .elif (c := c) (b := b) (a := a) hb ha =>
    have e : tClose :: (tElif :: tArg c :: tOpen :: b ++ tClose :: a ++ rest) =
        tClose :: tElif :: tArg c :: tOpen :: (b ++ tClose :: (a ++ rest)) := by simp
    rw [e]
    have e2 : ∀ r, parseScriptsW .body (.if :: stack) tmp acc (tClose :: tElif :: tArg c :: tOpen :: r) =
        parseScriptsW .body (.if :: stack) (tmp.push .elseIf [c]) acc r := by
      intro r
      simp [parseScriptsW, startsElse]
    rw [e2, parseW_written hb _ _ _ _ rfl, parseW_writtenAlt ha _ _ _ _ hr, FScript.push_add, FScript.add_add, Alt.code]
    simp

end

theorem parseW_defs {ds : List ScriptDef} {ts : List ScriptTok} (h : WrittenDefs false ds ts) (tmp : FScript) (acc : List FScript) :
    parseScriptsW .top [] tmp acc ts = ([], .ok (some (acc ++ ds.map ScriptDef.script))) := by
  induction h generalizing tmp acc with
  | nil => simp [parseScriptsW]
  | @cons d ds b ts hb _ ih =>
    have e : tDefine :: tName d.name :: d.params.map tArg ++ tOpen :: b ++ tClose :: ts =
        tDefine :: tName d.name :: (d.params.map tArg ++ tOpen :: (b ++ tClose :: ts)) := by simp
    rw [e]
    conv => lhs; unfold parseScriptsW
    show parseScriptsW .name [] {} acc _ = _
    conv => lhs; unfold parseScriptsW
    show parseScriptsW .params [] { name := d.name } acc _ = _
    rw [parseW_params]
    conv => lhs; unfold parseScriptsW
    show parseScriptsW .body [] { name := d.name, arguments := [] ++ d.params } acc _ = _
    rw [parseW_written hb _ _ _ _ rfl]
    conv => lhs; unfold parseScriptsW
    dsimp only
    rw [ih]
    simp [ScriptDef.script, FScript.add]

/-! ### What the warnings say -/

theorem unknownSteps_define {t : ScriptTok} (ts : List ScriptTok) (h : t.ty = .define) :
    unknownSteps (t :: ts) = unknownSteps ts.tail := by
  cases ts with
  | nil => simp [unknownSteps, h]
  | cons t' ts => simp [unknownSteps, h]

theorem unknownSteps_unknown {t : ScriptTok} (ts : List ScriptTok) (h : t.ty = .identifier)
    (hn : Instruction.fromStr t.value = none) : unknownSteps (t :: ts) = t.value :: unknownSteps ts := by
  cases ts with
  | nil => simp [unknownSteps, h, hn]
  | cons t' ts => simp [unknownSteps, h, hn]

theorem unknownSteps_other {t : ScriptTok} (ts : List ScriptTok) (h : t.ty ≠ .define)
    (hn : t.ty = .identifier → Instruction.fromStr t.value ≠ none) : unknownSteps (t :: ts) = unknownSteps ts := by
  have : ¬ (t.ty = .identifier ∧ Instruction.fromStr t.value = none) := fun ⟨a, b⟩ => hn a b
  cases ts with
  | nil => simp only [unknownSteps, if_neg this]
  | cons t' ts => simp only [unknownSteps, if_neg this, if_neg h]

/-- In every mode, the steps named by warnings are the unknown ones. -/
theorem reported_unknown (ts : List ScriptTok) : ∀ (m : ScriptMode) (stack : List Instruction) (tmp : FScript)
    (acc : List FScript) (out : List FScript), (parseScriptsW m stack tmp acc ts).2 = .ok (some out) →
    (∀ w ∈ (parseScriptsW m stack tmp acc ts).1, Local w) →
    reportedSteps (parseScriptsW m stack tmp acc ts).1 = unknownSteps (if m = .name then ts.tail else ts) := by
  induction ts with
  | nil => intro m stack tmp acc out _ _; cases m <;> rfl
  | cons t ts ih =>
    intro m stack tmp acc out
    have skip : t.ty ≠ .define → t.ty ≠ .identifier → unknownSteps (t :: ts) = unknownSteps ts :=
      fun h1 h2 => unknownSteps_other ts h1 (fun h => absurd h h2)
    cases m with
    | top =>
      unfold parseScriptsW
      dsimp only
      split
      · rename_i h
        intro h1 h2
        rw [ih _ _ _ _ _ h1 h2, if_pos rfl, if_neg (by simp), unknownSteps_define ts h]
      · intro _ h2
        exact absurd (h2 .unrecognized (by simp)) (by simp [Local])
    | name =>
      unfold parseScriptsW
      dsimp only
      intro h1 h2
      rw [ih _ _ _ _ _ h1 h2]
      rfl
    | params =>
      unfold parseScriptsW
      dsimp only
      split
      iterate 5
        rename_i h
        intro h1 h2
        rw [ih _ _ _ _ _ h1 h2, if_neg (by simp), if_neg (by simp), skip (by rw [h]; simp) (by rw [h]; simp)]
      intro _ h2
      exact absurd (h2 .invalidToken (by simp)) (by simp [Local])
    | step op sw =>
      unfold parseScriptsW
      dsimp only
      split
      · rename_i h
        intro h1 h2
        rw [ih _ _ _ _ _ h1 h2, if_neg (by simp), if_neg (by simp), skip (by rw [h]; simp) (by rw [h]; simp)]
      · split
        · rename_i h
          intro h1 h2
          rw [ih _ _ _ _ _ h1 h2, if_neg (by simp), if_neg (by simp), skip (by rw [h]; simp) (by rw [h]; simp)]
        · intro h; cases h
    | elif sw =>
      unfold parseScriptsW
      dsimp only
      split
      · rename_i h
        intro h1 h2
        rw [ih _ _ _ _ _ h1 h2, if_neg (by simp), if_neg (by simp), skip (by rw [h]; simp) (by rw [h]; simp)]
      · split
        · rename_i h
          intro h1 h2
          rw [ih _ _ _ _ _ h1 h2, if_neg (by simp), if_neg (by simp), skip (by rw [h]; simp) (by rw [h]; simp)]
        · intro h; cases h
    | «if» sw =>
      unfold parseScriptsW
      dsimp only
      split
      · rename_i h
        intro h1 h2
        rw [ih _ _ _ _ _ h1 h2, if_neg (by simp), if_neg (by simp), skip (by rw [h]; simp) (by rw [h]; simp)]
      · split
        · rename_i h
          intro h1 h2
          rw [ih _ _ _ _ _ h1 h2, if_neg (by simp), if_neg (by simp), skip (by rw [h]; simp) (by rw [h]; simp)]
        · intro h; cases h
    | loopOpen =>
      unfold parseScriptsW
      dsimp only
      split
      · rename_i h
        intro h1 h2
        rw [ih _ _ _ _ _ h1 h2, if_neg (by simp), if_neg (by simp), skip (by rw [h]; simp) (by rw [h]; simp)]
      · intro _ h2
        exact absurd (h2 .expectedBrace (by simp)) (by simp [Local])
    | elseOpen =>
      unfold parseScriptsW
      dsimp only
      split
      · rename_i h
        intro h1 h2
        rw [ih _ _ _ _ _ h1 h2, if_neg (by simp), if_neg (by simp), skip (by rw [h]; simp) (by rw [h]; simp)]
      · intro _ h2
        exact absurd (h2 .expectedBrace (by simp)) (by simp [Local])
    | body =>
      unfold parseScriptsW
      dsimp only
      rw [if_neg (by simp)]
      split
      · rename_i h
        split
        · rename_i op ho
          intro h1 h2
          rw [ih _ _ _ _ _ h1 h2, if_neg (by simp), unknownSteps_other ts (by rw [h]; simp) (fun _ => by rw [ho]; simp)]
        · rename_i ho
          intro h1 h2
          rw [warn_fst, reportedSteps, ih _ _ _ _ _ h1 (fun w hw => h2 w (List.mem_cons_of_mem _ hw)), if_neg (by simp),
            unknownSteps_unknown ts h ho]
      · rename_i h
        have sk := skip (by rw [h]; simp) (by rw [h]; simp)
        split
        · intro h1 h2
          rw [ih _ _ _ _ _ h1 h2, if_neg (by simp), sk]
        · split
          · intro h1 h2
            rw [ih _ _ _ _ _ h1 h2, if_neg (by simp), sk]
          · split
            · intro h1 h2
              rw [ih _ _ _ _ _ h1 h2, if_neg (by simp), sk]
            · intro h1 h2
              rw [ih _ _ _ _ _ h1 h2, if_neg (by simp), sk]
            · intro h; cases h
      iterate 5
        rename_i h
        intro h1 h2
        rw [ih _ _ _ _ _ h1 h2, if_neg (by simp), skip (by rw [h]; simp) (by rw [h]; simp)]
      · rename_i n1 n2 n3 n4 n5 n6 n7
        intro h1 h2
        have hd : t.ty ≠ .define := h2 (.invalidScriptToken t) (by simp)
        rw [warn_fst, reportedSteps, ih _ _ _ _ _ h1 (fun w hw => h2 w (List.mem_cons_of_mem _ hw)), if_neg (by simp),
          skip hd n1]
        exact fun n h => by cases h

end BurnFm
