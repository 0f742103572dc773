import Verif.Props.Burn

/-! Properties C99-C101: what the compiler makes of tokens. -/

namespace BurnFm.Props
open Spec

/-! ### C99: assertions -/

/-- Tokens that do not belong to an assertion block. -/
def NoAssertions (ts : List BurnTok) : Prop := ∀ t ∈ ts, t.ty ≠ .assertionBlock

theorem burnWord_no_assertions [Rt] {b : Str} {t : BurnTok} (h : burnWord b = some t) : t.ty ≠ .assertionBlock := by
  unfold burnWord at h
  repeat' split at h
  all_goals first
    | (cases h; simp; done)
    | cases h

theorem burnFlush_no_assertions [Rt] (b : Str) : NoAssertions (burnFlush b) := by
  unfold burnFlush NoAssertions
  split
  · simp
  · intro t ht
    exact burnWord_no_assertions (by simpa using ht)

theorem burnSymbol_no_assertions {c : Char} {ty : BurnTokType} (h : burnSymbol c = some ty) : ty ≠ .assertionBlock := by
  unfold burnSymbol at h
  split at h <;> cases h <;> simp

theorem NoAssertions.append {a b : List BurnTok} (h : NoAssertions a) (h' : NoAssertions b) : NoAssertions (a ++ b) := by
  intro t ht
  rcases List.mem_append.mp ht with ht | ht
  · exact h t ht
  · exact h' t ht

theorem NoAssertions.single {t : BurnTok} (h : t.ty ≠ .assertionBlock) : NoAssertions [t] := by
  intro x hx; rw [List.mem_singleton.mp hx]; exact h

/-- The lexer makes no token that begins an assertion block. -/
theorem lexer_no_assertions [Rt] (p : Profile) (s : Str) : ∀ (m : BurnLexMode) (buf : Str) (acc ts : List BurnTok),
    NoAssertions acc → burnLex p m buf acc s = .ok ts → NoAssertions ts := by
  induction s with
  | nil =>
    intro m buf acc ts ha h
    unfold burnLex at h
    split at h
    · cases h; exact ha
    · cases h; exact ha
    · split at h
      · cases h; exact ha
      · cases h
  | cons c s ih =>
    intro m buf acc ts ha h
    have hfl := burnFlush_no_assertions buf
    have h1 : ∀ ty, ty ≠ BurnTokType.assertionBlock → ∀ x, NoAssertions [⟨ty, x⟩] := fun ty h x => NoAssertions.single h
    unfold burnLex at h
    cases m <;> dsimp only at h
    case skip => exact ih _ _ _ _ ha h
    case str =>
      repeat' split at h
      all_goals first
        | cases h
        | exact ih _ _ _ _ ha h
        | exact ih _ _ _ _ (ha.append (h1 _ (by simp) _)) h
    case «calc» =>
      repeat' split at h
      all_goals first
        | cases h
        | exact ih _ _ _ _ ha h
        | exact ih _ _ _ _ (ha.append (h1 _ (by simp) _)) h
    case script =>
      repeat' split at h
      all_goals first
        | exact ih _ _ _ _ ha h
        | (refine ih _ _ _ _ (ha.append ?_) h
           intro x hx
           simp at hx
           rcases hx with rfl | rfl <;> simp)
    case normal =>
      split at h
      · split at h
        · exact ih _ _ _ _ ha h
        · split at h
          · rename_i hw; exact ih _ _ _ _ (ha.append (NoAssertions.single (burnWord_no_assertions hw))) h
          · exact ih _ _ _ _ ha h
      split at h
      · split at h
        · split at h
          · exact ih _ _ _ _ ((ha.append hfl).append (h1 _ (by simp) _)) h
          · exact ih _ _ _ _ ((ha.append hfl).append (h1 _ (by simp) _)) h
        · exact ih _ _ _ _ (ha.append hfl) h
      split at h
      · obtain ⟨l, _, h⟩ := bind_ok.mp h
        exact ih _ _ _ _ ((ha.append hfl).append (h1 _ (by simp) _)) h
      split at h
      · obtain ⟨i, _, h⟩ := bind_ok.mp h
        obtain ⟨_, _, h⟩ := bind_ok.mp h
        exact ih _ _ _ _ ((ha.append hfl).append (h1 _ (by simp) _)) h
      split at h
      · exact ih _ _ _ _ (ha.append hfl) h
      split at h
      · exact ih _ _ _ _ ((ha.append hfl).append (h1 _ (by simp) _)) h
      split at h
      · rename_i hs; exact ih _ _ _ _ ((ha.append hfl).append (h1 _ (burnSymbol_no_assertions hs) _)) h
      · exact ih _ _ _ _ ha h

/-- No test of the file has an assertion. -/
def Bare (f : FmpFile) : Prop := ∀ t ∈ f.tests, t.assertions = []

/-- No test being read has an assertion, and the parser is not in an assertion block. -/
def BareMode : BurnMode → Prop
  | .name (.test t) | .item (.test t) | .itemEnd (.test t) | .itemSemi (.test t) | .testColon t | .testOpen t
  | .testBlock t => t.assertions = []
  | .assertColon _ | .assertions _ => False
  | _ => True

theorem bare_addItem {f : FmpFile} (hf : Bare f) {i : BurnItem} (hi : BareMode (.item i)) : Bare (f.addItem i) := by
  cases i with
  | test t =>
    intro x hx
    simp only [FmpFile.addItem, List.mem_append, List.mem_singleton] at hx
    rcases hx with hx | rfl
    · exact hf x hx
    · exact hi
  | _ => exact hf

theorem parser_no_assertions (ts : List BurnTok) : ∀ (m : BurnMode) (ret f : FmpFile), NoAssertions ts → BareMode m →
    Bare ret → parseBurn m ret ts = .ok (some f) → Bare f := by
  induction ts with
  | nil =>
    intro m ret f _ hm hr h
    unfold parseBurn at h
    split at h
    · cases h; exact hr
    · cases h; exact bare_addItem hr hm
    · exact absurd hm (by simp [BareMode])
    · cases h
  | cons t ts ih =>
    intro m ret f hts hm hr h
    have hts' : NoAssertions ts := fun x hx => hts x (List.mem_cons_of_mem _ hx)
    have ht := hts t (by simp)
    have go : ∀ {m'}, parseBurn m' ret ts = .ok (some f) → BareMode m' → Bare f :=
      fun {m'} h hm' => ih m' ret f hts' hm' hr h
    unfold parseBurn at h
    cases m with
    | top =>
      dsimp only at h
      split at h
      all_goals first
        | cases h
        | exact go h (by first | trivial | rfl)
    | name i =>
      dsimp only at h
      split at h
      · refine go h ?_
        cases i <;> first | trivial | exact hm
      · cases h
    | relColon => dsimp only at h; split at h <;> first | cases h | exact go h trivial
    | itemEnd i => dsimp only at h; split at h <;> first | cases h | exact go h (by cases i <;> first | trivial | exact hm)
    | itemSemi i =>
      dsimp only at h
      split at h
      · exact ih .top _ _ hts' trivial (bare_addItem hr (by cases i <;> first | trivial | exact hm)) h
      · cases h
    | relSep r => exact go h trivial
    | relSecond r => exact go h trivial
    | occColon o => dsimp only at h; split at h <;> first | cases h | exact go h trivial
    | occName o => dsimp only at h; split at h <;> first | cases h | exact go h trivial
    | scriptColon => dsimp only at h; split at h <;> first | cases h | exact go h trivial
    | scriptOpen => dsimp only at h; split at h <;> first | cases h | exact go h trivial
    | scriptBlock =>
      dsimp only at h
      obtain ⟨scripts, _, h⟩ := bind_ok.mp h
      exact ih .scriptClose _ _ hts' trivial (show Bare (ret.addScripts scripts) from hr) h
    | scriptClose => dsimp only at h; split at h <;> first | cases h | exact go h trivial
    | testColon x => dsimp only at h; split at h <;> first | cases h | exact go h hm
    | testOpen x => dsimp only at h; split at h <;> first | cases h | exact go h hm
    | testBlock x =>
      dsimp only at h
      obtain ⟨scripts, _, h⟩ := bind_ok.mp h
      split at h
      · cases h
      · obtain ⟨s, _, h⟩ := bind_ok.mp h
        exact go h hm
    | assertColon x => exact hm.elim
    | assertions x => exact hm.elim
    | item i =>
      dsimp only at h
      split at h
      · exact go h (by cases i <;> first | trivial | exact hm)
      · cases i with
        | relationship r =>
          dsimp only at h
          repeat' split at h
          all_goals first
            | cases h
            | exact go h trivial
        | occurrence o => dsimp only at h; split at h <;> exact go h trivial
        | test x =>
          dsimp only at h
          split at h
          · exact go h hm
          · exact go h hm
        | _ => exact go h trivial

/-- C99: whatever a program contains, no test of the compiled file has a list of assertions: the only assertions of a
test are the steps of its script. -/
theorem compiled_tests_have_no_assertions [Rt] (p : Profile) (s : Str) (f : FmpFile) (h : compileBurn p s = .ok f) :
    ∀ t ∈ f.tests, t.assertions = [] := by
  unfold compileBurn at h
  obtain ⟨ts, h1, h⟩ := bind_ok.mp h
  obtain ⟨o, h2, h⟩ := bind_ok.mp h
  cases o with
  | none => cases h
  | some f' =>
    cases h
    exact parser_no_assertions ts .top {} _ (lexer_no_assertions p s .normal [] [] ts (by intro t ht; cases ht) h1) trivial
      (by intro t ht; cases ht) h2

/-! ### C100: what is not a declaration -/

/-- The tokens a declaration begins with. -/
def declarationStarts : List BurnTokType := [.table, .relationship, .valueList, .script, .tableOccurence, .test]

theorem lateBlocks_append {ds : List Decl} {ts : List BurnTok} (h : ProgramToks ds ts) (rest : List BurnTok)
    (hr : LateBlocks rest) : LateBlocks (ts ++ rest) := by
  have h1 := lateBlocks_program h
  intro t ht
  match ts, h1, ht with
  | [], _, ht => exact hr t ht
  | [a], h1, ht =>
    cases rest with
    | nil => exact h1 t (by simpa using ht)
    | cons b r =>
      simp only [List.cons_append, List.nil_append, List.take_succ_cons, List.take_zero, List.mem_cons, List.not_mem_nil,
        or_false] at ht
      rcases ht with rfl | rfl
      · exact h1 _ (by simp)
      · exact hr _ (by simp)
  | a :: b :: r, h1, ht => exact h1 t (by simpa using ht)

/-- Compiling a program followed by something else. -/
theorem compile_rest [Rt] (p : Profile) {ds : List Decl} {ts rest : List BurnTok} {s : Str} (h : ProgramToks ds ts)
    (hs : BurnText (ts ++ rest) s) (hb : LateBlocks rest) (hp : LateParens 0 rest) :
    compileBurn p s = (parseBurn .top (ds.foldl addDecl {}) rest >>= unwrap) := by
  unfold compileBurn lexBurn
  rw [plex_text (acc := []) hs (by intro t ht; cases ht) (fun _ => lateBlocks_append h rest hb)
    (lateParens_program h rest (fun _ => hp)), ok_bind, List.nil_append, parse_before h]

/-- C100: a program in which something else stands where a declaration should begin is not compiled. -/
theorem stray_token_reported [Rt] (p : Profile) (ds : List Decl) (ts rest : List BurnTok) (t : BurnTok) (s : Str)
    (h : ProgramToks ds ts) (ht : t.ty ∉ declarationStarts) (hs : BurnText (ts ++ t :: rest) s)
    (hb : ∀ x ∈ (t :: rest).take 2, x.ty ≠ .openSquare) (hp : ∀ x ∈ (t :: rest).take 3, x.ty ≠ .openParen) :
    compileBurn p s = .error .unwrap := by
  rw [compile_rest p h hs hb hp]
  simp only [declarationStarts, List.mem_cons, List.not_mem_nil, or_false, not_or] at ht
  obtain ⟨h1, h2, h3, h4, h5, h6⟩ := ht
  unfold parseBurn
  dsimp only
  split <;> first | contradiction | rfl

/-- C100: a declaration that begins without a name, or without a colon where it has no name, is not compiled. -/
theorem malformed_start_reported [Rt] (p : Profile) (ds : List Decl) (ts rest : List BurnTok) (k : BurnTokType)
    (t : BurnTok) (s : Str) (h : ProgramToks ds ts)
    (hk : (k ∈ [BurnTokType.table, .valueList, .tableOccurence, .test] ∧ t.ty ≠ .identifier) ∨
      (k ∈ [BurnTokType.relationship, .script] ∧ t.ty ≠ .colon))
    (hs : BurnText (ts ++ ⟨k, []⟩ :: t :: rest) s) (hb : t.ty ≠ .openSquare)
    (hp : ∀ x ∈ (t :: rest).take 2, x.ty ≠ .openParen) : compileBurn p s = .error .unwrap := by
  rw [compile_rest p h hs]
  · simp only [List.mem_cons, List.not_mem_nil, or_false] at hk
    rcases hk with ⟨rfl | rfl | rfl | rfl, hk⟩ | ⟨rfl | rfl, hk⟩ <;> simp [parseBurn, hk, unwrap, ok_bind]
  · intro x hx
    simp at hx
    rcases hx with rfl | rfl
    · simp only [List.mem_cons, List.not_mem_nil, or_false] at hk
      rcases hk with ⟨rfl | rfl | rfl | rfl, _⟩ | ⟨rfl | rfl, _⟩ <;> simp
    · exact hb
  · intro x hx
    rw [show 3 - 0 = 2 + 1 from rfl, List.take_succ_cons, List.mem_cons] at hx
    rcases hx with rfl | hx
    · simp only [List.mem_cons, List.not_mem_nil, or_false] at hk
      rcases hk with ⟨rfl | rfl | rfl | rfl, _⟩ | ⟨rfl | rfl, _⟩ <;> simp
    · exact hp x hx

/-- The relationships of the language description, `relationship name: …`, are therefore not accepted. -/
theorem named_relationship_refuted [Rt] (p : Profile) (ds : List Decl) (ts rest : List BurnTok) (name s : Str)
    (h : ProgramToks ds ts)
    (hs : BurnText (ts ++ ⟨.relationship, []⟩ :: ⟨.identifier, name⟩ :: ⟨.colon, []⟩ :: rest) s) :
    compileBurn p s = .error .unwrap :=
  malformed_start_reported p ds ts (⟨.colon, []⟩ :: rest) .relationship ⟨.identifier, name⟩ s h (.inr ⟨by decide, by simp⟩) hs
    (by simp) (by intro x hx; simp at hx; rcases hx with rfl | rfl <;> simp)

/-- Nor are its exported script blocks, `script export: […]`. -/
theorem exported_script_refuted [Rt] (p : Profile) (ds : List Decl) (ts rest : List BurnTok) (s : Str)
    (h : ProgramToks ds ts)
    (hs : BurnText (ts ++ ⟨.script, []⟩ :: ⟨.identifier, t!"export"⟩ :: ⟨.colon, []⟩ :: rest) s) :
    compileBurn p s = .error .unwrap :=
  malformed_start_reported p ds ts (⟨.colon, []⟩ :: rest) .script ⟨.identifier, t!"export"⟩ s h (.inr ⟨by decide, by simp⟩) hs
    (by simp) (by intro x hx; simp at hx; rcases hx with rfl | rfl <;> simp)

/-! ### C101: layout -/

/-- C101: two texts that spell the same tokens compile to the same file, or are both rejected, if none of the first two
tokens is an opening bracket and none of the first three an opening parenthesis. Missing: the other texts, see
`layout_refuted`. -/
theorem layout_irrelevant_partial [Rt] (p p' : Profile) (ts : List BurnTok) (s s' : Str) (h : BurnText ts s)
    (h' : BurnText ts s') (hb : ∀ t ∈ ts.take 2, t.ty ≠ .openSquare) (hp : ∀ t ∈ ts.take 3, t.ty ≠ .openParen) :
    compileBurn p s = compileBurn p' s' := by
  unfold compileBurn lexBurn
  rw [plex_text (acc := []) h (by intro t ht; cases ht) (fun _ => hb) hp, plex_text (acc := []) h' (by intro t ht; cases ht) (fun _ => hb) hp]

/-- C101 for programs: white space does not matter. -/
theorem program_layout_irrelevant [Rt] (p p' : Profile) (ds : List Decl) (ts : List BurnTok) (s s' : Str)
    (hd : ProgramToks ds ts) (h : BurnText ts s) (h' : BurnText ts s') : compileBurn p s = compileBurn p' s' := by
  rw [compile_program p hd h, compile_program p' hd h']

/-- C101 for script blocks. -/
theorem script_layout_irrelevant (ts : List ScriptTok) (s s' : Str) (h : ScriptText ts s) (h' : ScriptText ts s') :
    compileScripts s = compileScripts s' := by
  unfold compileScripts lexScript
  rw [blex_scriptText h, blex_scriptText h']

/-- C101 is false for all texts: a declaration `table name(…` at the beginning of a program makes the compiler panic,
while with a space after the name it is compiled. -/
theorem layout_refuted [Rt] (p : Profile) (w s : Str) (hw : w ≠ []) (hc : ∀ c ∈ w, BurnChar c)
    (h1 : w ∉ burnKeywords.map (·.1)) (h2 : isFloatText w = false) (h3 : ∀ c, w.head? = some c → isDigit c = false) :
    (∃ e, compileBurn p (t!"table " ++ w ++ '(' :: s) = .error e) ∧
    (∀ ts, BurnText ts s → compileBurn p (t!"table " ++ w ++ t!" (" ++ s) =
      (parseBurn .top {} (⟨.table, []⟩ :: ⟨.identifier, w⟩ :: ⟨.openParen, []⟩ :: ts) >>= unwrap)) := by
  have htab : ∀ rest, burnLex p .normal [] [] (t!"table " ++ rest) = burnLex p .normal [] [⟨.table, []⟩] rest := by
    intro rest
    obtain ⟨h0, h1, h2, h3, h4⟩ := burnWord_keyword (w := t!"table") (ty := .table) (by decide)
    rw [show t!"table " ++ rest = t!"table" ++ (' ' :: rest) from rfl, plex_word h2, List.nil_append,
      plex_flush (by decide) h1 h0 h3 (by simp) (by simp) (by intro t ht; cases ht), plex_space (by decide)]
    rfl
  constructor
  · refine ⟨if p = .debug then .overflow else .index, ?_⟩
    unfold compileBurn lexBurn
    rw [List.append_assoc, htab, plex_word hc, List.nil_append]
    have : burnLex p .normal w [⟨.table, []⟩] ('(' :: s) = .error (if p = .debug then .overflow else .index) := by
      conv => lhs; unfold burnLex
      have : isSpace '(' = false := by decide
      cases p <;> simp [this, usub, idx, bind, Except.bind]
    rw [this]; rfl
  · intro ts hts
    unfold compileBurn lexBurn
    rw [List.append_assoc, List.append_assoc, htab, plex_word hc, List.nil_append,
      show t!" (" ++ s = ' ' :: '(' :: s from rfl,
      plex_flush (by decide) hw (burnWord_name h1 h2 h3) (by simp) (by simp) (by simp)
        (by intro t ht; cases List.mem_singleton.mp ht; simp), plex_space (by decide), plex_paren (by simp),
      plex_text hts (by
        intro t ht
        simp [burnFlush] at ht
        rcases ht with rfl | rfl | rfl <;> simp) (by simp) (by intro t ht; simp [burnFlush] at ht)]
    simp [burnFlush, ok_bind]

section Example
attribute [local instance] toyRt

/-- The beginning of a program in the documented syntax: `relationship R: …`. -/
example : compileBurn .debug t!"relationship R: A:B, i == j end relationship;" = .error .unwrap := by
  refine named_relationship_refuted .debug [] [] (name := t!"R") (h := .nil) (rest := [⟨.identifier, t!"A"⟩, ⟨.colon, []⟩,
    ⟨.identifier, t!"B"⟩, ⟨.comma, []⟩, ⟨.identifier, t!"i"⟩, ⟨.eComparison, []⟩, ⟨.identifier, t!"j"⟩, ⟨.end, []⟩,
    ⟨.relationship, []⟩, ⟨.semiColon, []⟩]) (hs := ?_) ..
  refine .keyword (w := t!"relationship") (ty := .relationship) (by decide) (by decide) (.space rfl ?_)
  refine .name (w := t!"R") (by decide) (by decide) (by decide) (by decide) (by decide) (by decide) ?_
  refine .mark (c := ':') (ty := .colon) (by decide) (.space rfl ?_)
  refine .name (w := t!"A") (by decide) (by decide) (by decide) (by decide) (by decide) (by decide) ?_
  refine .mark (c := ':') (ty := .colon) (by decide) ?_
  refine .name (w := t!"B") (by decide) (by decide) (by decide) (by decide) (by decide) (by decide) ?_
  refine .mark (c := ',') (ty := .comma) (by decide) (.space rfl ?_)
  refine .name (w := t!"i") (by decide) (by decide) (by decide) (by decide) (by decide) (by decide) (.space rfl ?_)
  refine .equal (.space rfl ?_)
  refine .name (w := t!"j") (by decide) (by decide) (by decide) (by decide) (by decide) (by decide) (.space rfl ?_)
  refine .keyword (w := t!"end") (ty := .end) (by decide) (by decide) (.space rfl ?_)
  refine .keyword (w := t!"relationship") (ty := .relationship) (by decide) (by decide) ?_
  exact .mark (c := ';') (ty := .semiColon) (by decide) .nil

/-- `script export: [ ]` -/
example : compileBurn .debug t!"script export: [ ]" = .error .unwrap := by
  refine exported_script_refuted .debug [] [] (h := .nil) (hs := ?_)
    (rest := [⟨.openSquare, []⟩, ⟨.script, []⟩, ⟨.closeSquare, []⟩]) ..
  refine .keyword (w := t!"script") (ty := .script) (by decide) (by decide) (.space rfl ?_)
  refine .name (w := t!"export") (by decide) (by decide) (by decide) (by decide) (by decide) (by decide) ?_
  refine .mark (c := ':') (ty := .colon) (by decide) (.space rfl ?_)
  exact .block (q := t!" ") (by decide) .nil

/-- A number after a program. -/
example : compileBurn .debug (smallText ++ t!"12;") = .error .unwrap := by
  set_option maxRecDepth 20000 in decide +kernel

example : compileBurn .debug t!"12;" = .error .unwrap := by
  refine stray_token_reported .debug [] [] [⟨.semiColon, []⟩] ⟨.numericLiteral, t!"12"⟩ _ .nil (by decide) ?_ (by decide)
    (by decide)
  exact .number (w := t!"12") (x := Rt.ofText t!"12") (by decide) (by decide) (by rfl) (by decide)
    (.mark (c := ';') (ty := .semiColon) (by decide) .nil)

/-- Two layouts of one value list, with a number and parentheses. -/
theorem layouts_example : ∃ ts,
    BurnText ts t!"value_list v: 1 (x) end value_list;" ∧ BurnText ts t!"value_list\tv :1(  x)\nend\nvalue_list ;" ∧
      ProgramToks [.valueList t!"v"] ts := by
  refine ⟨[⟨.valueList, []⟩, ⟨.identifier, t!"v"⟩, ⟨.colon, []⟩, ⟨.numericLiteral, t!"1"⟩, ⟨.openParen, []⟩,
    ⟨.identifier, t!"x"⟩, ⟨.closeParen, []⟩, ⟨.end, []⟩, ⟨.valueList, []⟩, ⟨.semiColon, []⟩], ?_, ?_, ?_⟩
  · refine .keyword (w := t!"value_list") (ty := .valueList) (by decide) (by decide) (.space rfl ?_)
    refine .name (w := t!"v") (by decide) (by decide) (by decide) (by decide) (by decide) (by decide) ?_
    refine .mark (c := ':') (ty := .colon) (by decide) (.space rfl ?_)
    refine .number (w := t!"1") (x := Rt.ofText t!"1") (by decide) (by decide) (by rfl) (by decide) (.space rfl ?_)
    refine .paren ?_
    refine .name (w := t!"x") (by decide) (by decide) (by decide) (by decide) (by decide) (by decide) ?_
    refine .mark (c := ')') (ty := .closeParen) (by decide) (.space rfl ?_)
    refine .keyword (w := t!"end") (ty := .end) (by decide) (by decide) (.space rfl ?_)
    refine .keyword (w := t!"value_list") (ty := .valueList) (by decide) (by decide) ?_
    exact .mark (c := ';') (ty := .semiColon) (by decide) .nil
  · refine .keyword (w := t!"value_list") (ty := .valueList) (by decide) (by decide) (.space rfl ?_)
    refine .name (w := t!"v") (by decide) (by decide) (by decide) (by decide) (by decide) (by decide) (.space rfl ?_)
    refine .mark (c := ':') (ty := .colon) (by decide) ?_
    refine .number (w := t!"1") (x := Rt.ofText t!"1") (by decide) (by decide) (by rfl) (by decide) ?_
    refine .paren (.space rfl (.space rfl ?_))
    refine .name (w := t!"x") (by decide) (by decide) (by decide) (by decide) (by decide) (by decide) ?_
    refine .mark (c := ')') (ty := .closeParen) (by decide) (.space rfl ?_)
    refine .keyword (w := t!"end") (ty := .end) (by decide) (by decide) (.space rfl ?_)
    refine .keyword (w := t!"value_list") (ty := .valueList) (by decide) (by decide) (.space rfl ?_)
    exact .mark (c := ';') (ty := .semiColon) (by decide) .nil
  · exact .cons (d := .valueList t!"v") (ts := [⟨.valueList, []⟩, ⟨.identifier, t!"v"⟩, ⟨.colon, []⟩,
      ⟨.numericLiteral, t!"1"⟩, ⟨.openParen, []⟩, ⟨.identifier, t!"x"⟩, ⟨.closeParen, []⟩, ⟨.end, []⟩, ⟨.valueList, []⟩,
      ⟨.semiColon, []⟩]) (rest := []) (.valueList (inner := [⟨.colon, []⟩, ⟨.numericLiteral, t!"1"⟩, ⟨.openParen, []⟩,
      ⟨.identifier, t!"x"⟩, ⟨.closeParen, []⟩]) (by decide) (by decide)) .nil

example : compileBurn .debug t!"value_list v: 1 (x) end value_list;" =
    compileBurn .release t!"value_list\tv :1(  x)\nend\nvalue_list ;" := by
  obtain ⟨ts, h, h', hd⟩ := layouts_example
  exact program_layout_irrelevant .debug .release _ ts _ _ hd h h'

/-- `table A(x) end table;` panics, `table A (x) end table;` does not. -/
example : (compileBurn .debug t!"table A(x) end table;").isOk = false ∧
    (compileBurn .debug t!"table A (x) end table;").isOk = true := by
  set_option maxRecDepth 20000 in decide +kernel

example : ∃ e, compileBurn .debug t!"table A(x) end table;" = .error e :=
  (layout_refuted .debug t!"A" t!"x) end table;" (by decide) (by decide) (by decide) (by decide) (by decide)).1

end Example

end BurnFm.Props
