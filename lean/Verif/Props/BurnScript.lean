import Verif.Proofs.BurnScript
import Verif.Props.Script

/-! Properties C56-C58: compiling scripts. -/

namespace BurnFm.Props
open Spec

/-! ### C56 -/

/-- C56: a text that spells a sequence of structured script definitions compiles to exactly these scripts, in order,
each with its name, its parameters and its instruction list, at any nesting depth and with any white space. -/
theorem structured_scripts_compile (ds : List ScriptDef) (ts : List ScriptTok) (s : Str) (hs : ScriptText ts s)
    (hw : WrittenDefs false ds ts) : compileScripts s = .ok (ds.map ScriptDef.script) :=
  compile_defs hs hw

/-- C56 for the parser alone. -/
theorem structured_tokens_parse (ds : List ScriptDef) (ts : List ScriptTok) (hw : WrittenDefs false ds ts) :
    parseScripts .top [] {} [] ts = .ok (some (ds.map ScriptDef.script)) := by
  rw [parse_defs hw]
  rfl

/-- A script with nested blocks. -/
def nestedDef : ScriptDef :=
  { name := t!"f", params := [t!"x", t!"y"]
    body := .cond t!"x == 1" (.step ⟨.setVariable, 0, [t!"z", t!"min(1, 2)"]⟩ .nil)
      (.else (.loop (.exitIf t!"z" .nil) .nil)) (.step ⟨.showAllRecords, 0, [t!""]⟩ .nil) }

/-- Its source text. -/
def nestedText : Str :=
  t!"define f(x, y) {\n if (x == 1) { set_variable(z, min(1, 2)); } else { loop { exit_loop_if(z); } }\n show_all_records(); }"

/-- Its tokens. -/
def nestedToks : List ScriptTok :=
  [tDefine, tName t!"f", tArg t!"x", tArg t!"y", tOpen, tIf, tArg t!"x == 1", tOpen, tName t!"set_variable", tArg t!"z",
   tArg t!"min(1, 2)", tSemi, tClose, tElse, tOpen, tLoop, tOpen, tName t!"exit_loop_if", tArg t!"z", tSemi, tClose, tClose,
   tName t!"show_all_records", tArg t!"", tSemi, tClose]

theorem argBody_of_chars (s : Str) (h : ∀ c ∈ s, c ≠ '(' ∧ c ≠ ')' ∧ c ≠ ',') : ArgBody s := by
  induction s with
  | nil => exact .nil
  | cons c s ih =>
    obtain ⟨h1, h2, h3⟩ := h c (by simp)
    exact .char h1 h2 h3 (ih (fun x hx => h x (List.mem_cons_of_mem _ hx)))

theorem argText_of_chars (s : Str) (h : ∀ c ∈ s, c ≠ '(' ∧ c ≠ ')' ∧ c ≠ ',') (hq : s.count '"' % 2 = 0)
    (hh : s.head? ≠ some ' ') : ArgText s := ⟨argBody_of_chars s h, hq, hh⟩

theorem nestedText_ok : ScriptText nestedToks nestedText := by
  refine .keyword (w := t!"define") (ty := .define) (by decide) (by decide) (.space rfl ?_)
  refine .name (w := t!"f") (by decide) (by decide) (by decide) (by decide) (by decide) ?_
  refine .args (as := [(0, t!"x"), (1, t!"y")]) (by decide) ?_ (.space rfl (.open (.space rfl (.space rfl ?_))))
  · intro a ha
    simp only [List.mem_cons, List.not_mem_nil, or_false] at ha
    rcases ha with rfl | rfl <;> exact argText_of_chars _ (by decide) (by decide) (by decide)
  refine .keyword (w := t!"if") (ty := .if) (by decide) (by decide) (.space rfl ?_)
  refine .args (as := [(0, t!"x == 1")]) (by decide) ?_ (.space rfl (.open (.space rfl ?_)))
  · intro a ha
    rw [List.mem_singleton] at ha
    subst ha; exact argText_of_chars _ (by decide) (by decide) (by decide)
  refine .name (w := t!"set_variable") (by decide) (by decide) (by decide) (by decide) (by decide) ?_
  refine .args (as := [(0, t!"z"), (1, t!"min(1, 2)")]) (by decide) ?_ (.semi (.space rfl (.close (.space rfl ?_))))
  · intro a ha
    simp only [List.mem_cons, List.not_mem_nil, or_false] at ha
    rcases ha with rfl | rfl
    · exact argText_of_chars _ (by decide) (by decide) (by decide)
    · refine ⟨?_, by decide, by decide⟩
      refine .char (by decide) (by decide) (by decide) (.char (by decide) (by decide) (by decide)
        (.char (by decide) (by decide) (by decide) ?_))
      exact .parens (s := t!"1, 2") (t := [])
        (.char (by decide) (by decide) (.char (by decide) (by decide) (.char (by decide) (by decide)
          (.char (by decide) (by decide) .nil)))) .nil
  refine .keyword (w := t!"else") (ty := .else) (by decide) (by decide) (.space rfl (.open (.space rfl ?_)))
  refine .keyword (w := t!"loop") (ty := .loop) (by decide) (by decide) (.space rfl (.open (.space rfl ?_)))
  refine .name (w := t!"exit_loop_if") (by decide) (by decide) (by decide) (by decide) (by decide) ?_
  refine .args (as := [(0, t!"z")]) (by decide) ?_
    (.semi (.space rfl (.close (.space rfl (.close (.space rfl (.space rfl ?_)))))))
  · intro a ha
    rw [List.mem_singleton] at ha
    subst ha; exact argText_of_chars _ (by decide) (by decide) (by decide)
  refine .name (w := t!"show_all_records") (by decide) (by decide) (by decide) (by decide) (by decide) ?_
  refine .args (as := [(0, t!"")]) (by decide) ?_ (.semi (.space rfl (.close .nil)))
  intro a ha
  rw [List.mem_singleton] at ha
  subst ha; exact argText_of_chars _ (by decide) (by decide) (by decide)

theorem nestedToks_written : WrittenDefs false [nestedDef] nestedToks :=
  .cons (d := nestedDef) (ds := []) (ts := [])
    (.cond (.step (name := t!"set_variable") (args := [t!"z", t!"min(1, 2)"]) rfl .nil)
      (.else (.loop (.exitIf .nil) .nil))
      (.step (name := t!"show_all_records") (args := [t!""]) rfl .nil)) .nil

example : compileScripts nestedText = .ok [{ name := t!"f", arguments := [t!"x", t!"y"], instructions :=
    [instr .if [t!"x == 1"], instr .setVariable [t!"z", t!"min(1, 2)"], instr .else [], instr .loop [],
     instr .exitLoopIf [t!"z"], instr .endLoop [], instr .endIf [], instr .showAllRecords [t!""]] }] :=
  structured_scripts_compile [nestedDef] nestedToks nestedText nestedText_ok nestedToks_written

/-- C52, C56 from the source text: a test whose script is the only one in its text, and orderly, gives the verdict of
executing the script as written. Missing: scripts that are not orderly, see `script_runs_as_written_partial`. -/
theorem source_verdict_partial (ev : Calculator) (p : Profile) (scripts : HMap FScript) (env : Str → Option Prog)
    (ok : Bool → Taken → Taken → Str → Prop) (hl : Linked scripts env) (hok : OrderlyScripts ev env ok) (vm : Vm) (d : ScriptDef)
    (ts : List ScriptTok) (s : Str) (hs : ScriptText ts s) (hw : WrittenDefs false [d] ts) (a a' : Taken)
    (hq : Orderly ev ok true none .free a d.body a') (hfr : vm.frames = []) (hb : a.Has vm.branchTaken)
    (hf : vm.world.failed = false) :
    ∃ script, compileScripts s = .ok [script] ∧ ∀ (t : FTest) (v : Bool), t.script = script →
      ((∃ n last, vm.runTests ev p scripts n [t] = .ok ([v], last)) ↔
        ∃ w', Runs ev p env 1 d.body (vm.loadTest t).world (if v then .done else .failed) w') := by
  refine ⟨d.script, structured_scripts_compile [d] ts s hs hw, fun t v ht => ?_⟩
  exact structured_verdict_partial ev p scripts env ok hl hok vm t d.body a a' (by rw [ht]; rfl) hq hfr hb hf v

example (ev : Calculator) : Orderly ev (fun _ _ _ _ => False) true none .free (some false) nestedDef.body (some false) :=
  .cond trivial (fun _ => rfl) (.elif (by simp) (.step (by decide) (.nil (.inr rfl)))
    (.else (t := some false) (.loop (x := some false) (y := some false) (.inr rfl) (.exitIf (.inr rfl) (.nil (.inr rfl)))
      (.nil (.inr rfl))))) (.step (by decide) (.nil (.inr rfl)))

/-! ### Missing braces -/

/-- C67 is false: if the closing brace of a block is missing at the end of a script, the next definition is
read as more steps of that block, and its name and parameters are lost. There is a warning, but the compilation goes on, see
`definitions_are_scripts_partial`. -/
theorem missing_brace_merges (c : Str) (d e : ScriptDef) (b b' : List ScriptTok)
    (hb : Written false d.body b) (hb' : Written false e.body b') (he : Instruction.fromStr e.name = none) :
    parseScripts .top [] {} [] (tDefine :: tName d.name :: d.params.map tArg ++ tOpen :: tIf :: tArg c :: tOpen :: b ++
        tDefine :: tName e.name :: e.params.map tArg ++ tOpen :: b' ++ [tClose]) =
      .ok (some [⟨d.name, d.params, instr .if [c] :: d.body.code ++ e.body.code ++ [instr .endIf []]⟩]) := by
  have e1 : tDefine :: tName d.name :: d.params.map tArg ++ tOpen :: tIf :: tArg c :: tOpen :: b ++
        tDefine :: tName e.name :: e.params.map tArg ++ tOpen :: b' ++ [tClose] =
      tDefine :: tName d.name :: (d.params.map tArg ++ tOpen :: tIf :: tArg c :: tOpen :: (b ++
        tDefine :: tName e.name :: (e.params.map tArg ++ tOpen :: (b' ++ [tClose])))) := by simp
  rw [e1]
  conv => lhs; unfold parseScripts
  show parseScripts .name [] {} [] _ = _
  conv => lhs; unfold parseScripts
  show parseScripts .params [] { name := d.name } [] _ = _
  rw [parse_params]
  have e2 : ∀ tmp r, parseScripts .params [] tmp [] (tOpen :: tIf :: tArg c :: tOpen :: r) =
      parseScripts .body [.if] (tmp.push .if [c]) [] r := by intro tmp r; simp [parseScripts]
  rw [e2, parse_written hb _ _ _ _ rfl]
  have e3 : ∀ (as : List Str) tmp r, parseScripts .body [.if] tmp [] (as.map tArg ++ tOpen :: r) =
      parseScripts .body [.if] tmp [] r := by
    intro as tmp r
    induction as with
    | nil => simp [parseScripts]
    | cons a as ih =>
      rw [List.map_cons, List.cons_append]
      conv => lhs; unfold parseScripts
      exact ih
  have e4 : ∀ tmp r, parseScripts .body [.if] tmp [] (tDefine :: tName e.name :: r) = parseScripts .body [.if] tmp [] r := by
    intro tmp r; simp [parseScripts, he]
  rw [e4, e3, parse_written hb' _ _ _ _ rfl]
  simp [parseScripts, startsElse, FScript.push, FScript.add, instr]

example : ∃ s, compileScripts t!"define a() { if(x) { perform_find(); define b() { show_all_records(); }" = .ok [s] ∧
    s.instructions.map (·.opcode) = [.if, .performFind, .showAllRecords, .endIf] := ⟨_, rfl, rfl⟩

/-! ### C57 -/

/-- C57 (partial): a call `name(a1, …, an);` gives the name, exactly the written arguments, and the semicolon. Missing:
arguments with commas or parentheses inside of strings, for which the property is false, see
`quoted_comma_refuted`. -/
theorem arguments_as_written_partial (name : Str) (as : List (Nat × Str)) (h1 : name ≠ []) (h2 : ∀ c ∈ name, NameChar c)
    (h3 : name ∉ keywords.map (·.1)) (h4 : isFloatText name = false) (hn : as ≠ []) (h : ∀ a ∈ as, ArgText a.2) :
    lexScript (name ++ '(' :: argsText as ++ t!");") = .ok (tName name :: as.map (fun a => tArg a.2) ++ [tSemi]) := by
  have hs : ScriptText (tName name :: (as.map (fun a => tArg a.2) ++ [tSemi])) (name ++ '(' :: (argsText as ++ ')' :: [';'])) :=
    .name h1 h2 h3 h4 (by decide) (.args hn h (.semi .nil))
  have e : name ++ '(' :: argsText as ++ t!");" = name ++ '(' :: (argsText as ++ ')' :: [';']) := by simp
  rw [e]
  unfold lexScript
  rw [blex_scriptText hs]
  simp

/-- C57, exactly: whatever stands between the parentheses of a call, if the parentheses in it are balanced, is cut at the
commas that are outside of parentheses, whether they are in a string or not, and blanks after a comma are dropped if the
number of quotes before them is even. -/
theorem arguments_exact (name : Str) (as : List Str) (h1 : name ≠ []) (h2 : ∀ c ∈ name, NameChar c)
    (h3 : name ∉ keywords.map (·.1)) (h4 : isFloatText name = false) (hn : as ≠ []) (h : ∀ a ∈ as, ArgBody a) :
    lexScript (name ++ '(' :: commaSeparated as ++ t!");") = .ok (tName name :: (asRead 0 as).map tArg ++ [tSemi]) := by
  have e : name ++ '(' :: commaSeparated as ++ t!");" = name ++ '(' :: (commaSeparated as ++ ')' :: [';']) := by simp
  rw [e]
  unfold lexScript
  rw [blex_word h2, blex_flush (by decide), List.nil_append, List.nil_append, flushWord_name h1 h3 h4]
  unfold scriptLex
  show scriptLex (.args 0 (0 % 2 == 1)) [] ([tName name] ++ flushWord []) _ = _
  rw [blex_pieces hn h, blex_symbol (ty := .semiColon) rfl rfl (by decide)]
  simp [scriptLex, flushWord]

/-- Every text with balanced parentheses is such a list. -/
theorem argument_lists (s : Str) (h : Nested s) : ∃ as, as ≠ [] ∧ (∀ a ∈ as, ArgBody a) ∧ s = commaSeparated as :=
  nested_pieces h

example : lexScript t!"f(x,  \"a,  b\", g(y, z));" =
    .ok [tName t!"f", tArg t!"x", tArg t!"\"a", tArg t!"  b\"", tArg t!"g(y, z)", tSemi] := by
  refine arguments_exact t!"f" [t!"x", t!"  \"a", t!"  b\"", t!" g(y, z)"] (by decide) (by decide) (by decide) (by decide)
    (by decide) ?_
  intro a ha
  simp only [List.mem_cons, List.not_mem_nil, or_false] at ha
  rcases ha with rfl | rfl | rfl | rfl
  · exact argBody_of_chars _ (by decide)
  · exact argBody_of_chars _ (by decide)
  · exact argBody_of_chars _ (by decide)
  · refine .char (by decide) (by decide) (by decide) (.char (by decide) (by decide) (by decide) ?_)
    refine .parens (s := t!"y, z") (t := []) ?_ .nil
    exact .char (by decide) (by decide) (.char (by decide) (by decide) (.char (by decide) (by decide)
      (.char (by decide) (by decide) .nil)))

example : ArgText t!"min(3, (x)) & \"a b\"" := by
  refine ⟨?_, by decide, by decide⟩
  refine .char (by decide) (by decide) (by decide) (.char (by decide) (by decide) (by decide)
    (.char (by decide) (by decide) (by decide) ?_))
  refine .parens (s := t!"3, (x)") (t := t!" & \"a b\"") ?_ (argBody_of_chars _ (by decide))
  refine .char (by decide) (by decide) (.char (by decide) (by decide) (.char (by decide) (by decide) ?_))
  exact .parens (s := t!"x") (t := []) (.char (by decide) (by decide) .nil) .nil

/-- C57 is false for strings: `set_variable(x, "a,b");` has three arguments. -/
theorem quoted_comma_refuted :
    ¬ ∀ (name : Str) (as : List (Nat × Str)), name ≠ [] → (∀ c ∈ name, NameChar c) → name ∉ keywords.map (·.1) →
      isFloatText name = false → as ≠ [] → (∀ a ∈ as, QuotedArg a.2 ∧ a.2.head? ≠ some ' ') →
      lexScript (name ++ '(' :: argsText as ++ t!");") = .ok (tName name :: as.map (fun a => tArg a.2) ++ [tSemi]) := by
  intro h
  have := h t!"set_variable" [(0, t!"x"), (1, t!"\"a,b\"")] (by decide) (by decide) (by decide) (by decide) (by decide) (by
    intro a ha
    simp only [List.mem_cons, List.not_mem_nil, or_false] at ha
    rcases ha with rfl | rfl
    · exact ⟨.char (by decide) (by decide) (by decide) (by decide) .nil, by decide⟩
    · exact ⟨.string (q := t!"a,b") (s := []) (by decide) .nil, by decide⟩)
  revert this
  decide

/-- A parenthesis in a string breaks the rest of the script: here the step after it becomes part of the argument. -/
theorem quoted_paren_swallows : lexScript t!"f(\"(\"); g(x);" = .ok [tName t!"f"] := by decide

/-! ### C58 -/

/-- C58 is false for every script and every unknown step name: a text with unknown steps anywhere, at any depth,
compiles without error to the scripts without them. There is a warning, see `unknown_steps_named`. -/
theorem unknown_steps_lost (ds : List ScriptDef) (ts : List ScriptTok) (s : Str) (hs : ScriptText ts s)
    (hw : WrittenDefs true ds ts) : compileScripts s = .ok (ds.map ScriptDef.script) :=
  compile_defs hs hw

/-- C58 is false: the misspelt assertion in this script is lost, so that a test with it passes. -/
theorem unknown_step_refuted :
    compileScripts t!"define t() { asert(1 == 2); }" = .ok [{ name := t!"t", arguments := [t!""], instructions := [] }] := by
  decide

/-- The hypothesis of `unknown_steps_lost`. -/
example : WrittenDefs true [⟨t!"t", [t!""], .nil⟩]
    [tDefine, tName t!"t", tArg t!"", tOpen, tName t!"asert", tArg t!"1 == 2", tSemi, tClose] :=
  .cons (d := ⟨t!"t", [t!""], .nil⟩) (ds := []) (ts := [])
    (.unknown (name := t!"asert") (args := [t!"1 == 2"]) rfl (by decide) .nil) .nil

/-- C58: on no input at all does the script parser report an error. -/
theorem script_parser_never_reports (ts : List ScriptTok) : parseScripts .top [] {} [] ts ≠ .ok none :=
  parse_some ts .top [] {} [] (by simp)

end BurnFm.Props
