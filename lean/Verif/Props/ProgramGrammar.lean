import Verif.Proofs.ProgramGrammar
import Verif.Props.ProgramCut
import Verif.Props.ScriptGrammar

/-! Property C146: what the text of a program compiles to, for every text. -/

namespace BurnFm.Props
open Spec

/-- C146: the parser accepts exactly the tokens of the grammar, and the file has what they declare. The tokens of assertions, which the
lexer never makes, are left out. -/
theorem program_grammar_iff (ts : List BurnTok) (ha : ∀ t ∈ ts, t.ty ≠ .assertionBlock) :
    (∀ f, parseBurn .top {} ts = .ok (some f) → ∃ ds, ProgramOf ts ds ∧ DeclaredFile ds f) ∧
    ∀ ds, ProgramOf ts ds → ∃ f, parseBurn .top {} ts = .ok (some f) ∧ DeclaredFile ds f := by
  constructor
  · intro f h
    obtain ⟨ds, h1, rfl⟩ := (parseBurn_iff ts ha f).mp h
    exact ⟨ds, h1, declaredFile_file ds⟩
  · intro ds h
    exact ⟨_, (parseBurn_iff ts ha _).mpr ⟨ds, h, rfl⟩, declaredFile_file ds⟩

/-- C146: it refuses the program, or crashes, exactly for the stated reasons. -/
theorem program_grammar_fails_iff (ts : List BurnTok) (ha : ∀ t ∈ ts, t.ty ≠ .assertionBlock) :
    (parseBurn .top {} ts = .ok none ↔ ProgramFails ts .refused) ∧
    ∀ p, parseBurn .top {} ts = .error p ↔ ProgramFails ts (.crash p) :=
  ⟨parseBurn_fails_iff ts ha .refused, fun p => parseBurn_fails_iff ts ha (.crash p)⟩

section
variable [Rt]

/-- C146: what a text compiles to, for every text: it is cut into tokens, the tokens declare something, and the file has exactly
that. -/
theorem program_text_compiles_exact (p : Profile) (s : Str) :
    (∀ f, compileBurn p s = .ok f → ∃ ts ds, ProgramCut [] 0 s ts ∧ ProgramOf ts ds ∧ DeclaredFile ds f) ∧
    ∀ ts ds, ProgramCut [] 0 s ts → ProgramOf ts ds → ∃ f, compileBurn p s = .ok f ∧ DeclaredFile ds f := by
  constructor
  · intro f h
    unfold compileBurn at h
    cases hl : lexBurn p s with
    | error c => rw [hl] at h; cases h
    | ok ts =>
      rw [hl, ok_bind] at h
      have hc := (program_tokens_iff p s ts).mp hl
      cases hp : parseBurn .top {} ts with
      | error c => rw [hp] at h; cases h
      | ok o =>
        rw [hp, ok_bind] at h
        cases o with
        | none => cases h
        | some g =>
          cases h
          obtain ⟨ds, h1, h2⟩ := (program_grammar_iff ts (programCut_assertions hc)).1 _ hp
          exact ⟨ts, ds, hc, h1, h2⟩
  · intro ts ds h1 h2
    obtain ⟨f, h3, h4⟩ := (program_grammar_iff ts (programCut_assertions h1)).2 ds h2
    refine ⟨f, ?_, h4⟩
    unfold compileBurn
    rw [(program_tokens_iff p s ts).mpr h1, ok_bind, h3, ok_bind]
    rfl

/-- C146: compiling a text crashes exactly if cutting it crashes, if reading its tokens crashes, or if the program is refused, which the
compiler turns into a crash. -/
theorem program_text_crashes_exact (p : Profile) (s : Str) (c : Panic) : compileBurn p s = .error c ↔
    ProgramUncut p [] 0 s c ∨ ∃ ts, ProgramCut [] 0 s ts ∧
      (ProgramFails ts (.crash c) ∨ c = .unwrap ∧ ProgramFails ts .refused) := by
  unfold compileBurn
  constructor
  · intro h
    cases hl : lexBurn p s with
    | error e => rw [hl] at h; cases h; exact .inl ((program_uncut_iff p s _).mp hl)
    | ok ts =>
      rw [hl, ok_bind] at h
      have hc := (program_tokens_iff p s ts).mp hl
      have hf := program_grammar_fails_iff ts (programCut_assertions hc)
      refine .inr ⟨ts, hc, ?_⟩
      cases hp : parseBurn .top {} ts with
      | error e => rw [hp] at h; cases h; exact .inl ((hf.2 _).mp hp)
      | ok o =>
        rw [hp, ok_bind] at h
        cases o with
        | none => cases h; exact .inr ⟨rfl, hf.1.mp hp⟩
        | some g => cases h
  · rintro (h | ⟨ts, hc, h⟩)
    · rw [(program_uncut_iff p s c).mpr h]; rfl
    · have hf := program_grammar_fails_iff ts (programCut_assertions hc)
      rw [(program_tokens_iff p s ts).mpr hc, ok_bind]
      rcases h with h | ⟨rfl, h⟩
      · rw [(hf.2 c).mpr h]; rfl
      · rw [hf.1.mpr h]; rfl

/-- C146: which texts compile, and to what, does not depend on how the program was built. -/
theorem program_same_in_both_builds (s : Str) (f : FmpFile) : compileBurn .debug s = .ok f ↔ compileBurn .release s = .ok f := by
  have h : ∀ (p q : Profile), compileBurn p s = .ok f → compileBurn q s = .ok f := by
    intro p q h
    unfold compileBurn at h ⊢
    cases hl : lexBurn p s with
    | error c => rw [hl] at h; cases h
    | ok ts =>
      rw [hl] at h
      rw [(program_tokens_iff q s ts).mpr ((program_tokens_iff p s ts).mp hl)]
      exact h
  exact ⟨h _ _, h _ _⟩

end

/-- C146: tokens declare something in exactly one way, or they fail in exactly one way. -/
theorem program_grammar_unique (ts : List BurnTok) (ha : ∀ t ∈ ts, t.ty ≠ .assertionBlock) :
    ((∃ ds, ProgramOf ts ds) ∧ ∀ f, ¬ ProgramFails ts f) ∨ (∀ ds, ¬ ProgramOf ts ds) ∧ ∃! f, ProgramFails ts f := by
  have hno : ∀ ds f, ProgramOf ts ds → ¬ ProgramFails ts f := by
    intro ds f h1 h2
    have e1 := programOf_parse h1 {}
    have e2 := programFails_parse h2 {}
    rw [e1] at e2
    cases f <;> cases e2
  rcases program_or ts ha with ⟨ds, h⟩ | ⟨f, h⟩
  · exact .inl ⟨⟨ds, h⟩, fun f hf => hno ds f h hf⟩
  · refine .inr ⟨fun ds hd => hno ds f hd h, f, h, fun g hg => ?_⟩
    have e1 := programFails_parse h {}
    have e2 := programFails_parse hg {}
    rw [e1] at e2
    exact (result_inj e2).symm

/-- What a documented declaration declares. -/
def declared : Decl → Declared
  | .table n => .entry (.table n)
  | .relationship a b => .entry (.relationship a b)
  | .valueList n => .entry (.valueList n)
  | .scripts ds => .scripts (ds.map ScriptDef.script)
  | .occurrence n t => .entry (.occurrence n t)
  | .test n d => .entry (.test n d.script)

theorem entryBody_closing (e : Entry) (rest : List BurnTok) : EntryBody e (closing e.ending ++ rest) e rest :=
  .ends (.closed rfl rfl rfl)

theorem entryBody_skips {e e' : Entry} {inner ts r : List BurnTok} (h : ∀ t ∈ inner, t.ty ≠ .end ∧ ¬ Special e t)
    (hb : EntryBody e ts e' r) : EntryBody e (inner ++ ts) e' r := by
  induction inner with
  | nil => exact hb
  | cons t inner ih =>
    exact .phrase (w := [t]) (.skip (h t (by simp)).1 (h t (by simp)).2) (ih fun x hx => h x (List.mem_cons_of_mem _ hx))

theorem entryBody_names {x y : Str} {e' : Entry} {inner ts r : List BurnTok} {c : BurnTok}
    (h : ∀ t ∈ inner, t.ty ≠ .end ∧ t.ty ≠ .colon) (hc : c.ty ≠ .colon)
    (hb : EntryBody (.relationship x y) (c :: ts) e' r) : EntryBody (.relationship x y) (inner ++ c :: ts) e' r := by
  induction inner with
  | nil => exact hb
  | cons t inner ih =>
    have ih := ih fun x hx => h x (List.mem_cons_of_mem _ hx)
    by_cases ht : t.ty = .identifier
    · cases inner with
      | nil => exact .phrase (w := [t]) (.noColon ht hc) ih
      | cons d inner => exact .phrase (w := [t]) (.noColon ht (h d (by simp)).2) ih
    · exact .phrase (w := [t]) (.skip (h t (by simp)).1 ht) ih

/-- C146: a documented program declares what it says. -/
theorem documented_program (ds : List Decl) (ts : List BurnTok) (h : ProgramToks ds ts) : ProgramOf ts (ds.map declared) := by
  induction h with
  | nil => exact .nil
  | @cons d ds ts rest hd _ ih =>
    rw [List.map_cons]
    have hblock : ∀ {ds : List ScriptDef} {ts : List ScriptTok} {s : Str}, ScriptText ts s → WrittenDefs false ds ts →
        BlockOf s (ds.map ScriptDef.script) := fun hs hw => ⟨_, documented_script_tokens _ _ hs, documented_scripts _ _ hw⟩
    cases hd with
    | @table name inner h _ =>
      rw [List.append_assoc]
      exact .entry (w := [⟨.table, []⟩, ⟨.identifier, name⟩]) (.table rfl rfl)
        (entryBody_skips (fun t ht => ⟨h t ht, id⟩) (entryBody_closing (.table name) rest)) ih
    | @valueList name inner h _ =>
      rw [List.append_assoc]
      exact .entry (w := [⟨.valueList, []⟩, ⟨.identifier, name⟩]) (.valueList rfl rfl)
        (entryBody_skips (fun t ht => ⟨h t ht, id⟩) (entryBody_closing (.valueList name) rest)) ih
    | @relationship a b inner h =>
      rw [List.append_assoc]
      exact .entry (w := [⟨.relationship, []⟩, ⟨.colon, []⟩]) (.relationship rfl rfl)
        (.phrase (w := [⟨.identifier, a⟩, ⟨.colon, []⟩, ⟨.identifier, b⟩]) (.tables rfl rfl)
          (entryBody_names h (by decide) (entryBody_closing (.relationship a b) rest))) ih
    | @occurrence n t comma h =>
      rw [List.append_assoc]
      refine .entry (w := [⟨.tableOccurence, []⟩, ⟨.identifier, n⟩]) (.occurrence rfl rfl)
        (.phrase (w := [⟨.colon, []⟩]) (.skip (by decide) (by simp [Special]))
          (.phrase (w := [⟨.table, []⟩, ⟨.colon, []⟩, ⟨.identifier, t⟩]) (.table rfl rfl rfl)
            (entryBody_skips ?_ (entryBody_closing (.occurrence n t) rest)))) ih
      rcases h with rfl | rfl <;> simp [Special]
    | scripts h =>
      obtain ⟨hs, hw⟩ := h
      exact .scripts rfl rfl rfl (hblock hs hw) rfl ih
    | @test name d ts comma h hc =>
      obtain ⟨hs, hw⟩ := h
      rw [List.append_assoc, List.append_assoc]
      refine .entry (w := [⟨.test, []⟩, ⟨.identifier, name⟩]) (.test rfl rfl)
        (.phrase (w := [⟨.colon, []⟩]) (.skip (by decide) (by simp [Special]))
          (.phrase (w := [⟨.script, []⟩, ⟨.colon, []⟩, ⟨.openSquare, []⟩, ⟨.script, _⟩]) (.script rfl rfl rfl (hblock hs hw))
            (.phrase (w := [⟨.closeSquare, []⟩]) (.skip (by decide) (by simp [Special]))
              (entryBody_skips ?_ (entryBody_closing (.test name d.script) rest))))) ih
      rcases hc with rfl | rfl <;> simp [Special]

example : ProgramOf smallToks (smallProgram.map declared) := documented_program _ _ smallToks_ok

/-- A program that is not as documented: the second declaration is never ended, and what is in it is skipped. -/
example : ProgramOf [⟨.relationship, []⟩, ⟨.colon, []⟩, ⟨.identifier, t!"a"⟩, ⟨.colon, []⟩, ⟨.semiColon, []⟩,
      ⟨.end, []⟩, ⟨.relationship, []⟩, ⟨.semiColon, []⟩, ⟨.table, []⟩, ⟨.identifier, t!"b"⟩, ⟨.table, []⟩]
    [.entry (.relationship t!"a" []), .entry (.table t!"b")] :=
  .entry (w := [⟨.relationship, []⟩, ⟨.colon, []⟩]) (.relationship rfl rfl)
    (.phrase (w := [⟨.identifier, t!"a"⟩, ⟨.colon, []⟩, ⟨.semiColon, []⟩]) (.tables rfl rfl)
      (.ends (w := [⟨.end, []⟩, ⟨.relationship, []⟩, ⟨.semiColon, []⟩]) (.closed rfl rfl rfl)))
    (.entry (w := [⟨.table, []⟩, ⟨.identifier, t!"b"⟩]) (.table rfl rfl)
      (.phrase (w := [⟨.table, []⟩]) (.skip (by decide) (by simp [Special])) (.ends (w := []) .noMore)) .nil)

/-- A program that is refused: the name of the table is missing. -/
example : ProgramFails [⟨.table, []⟩, ⟨.end, []⟩] .refused := .noName (by decide) (.other (by decide))

/-- A program that crashes: a test without a script in its block. -/
example : ProgramFails [⟨.test, []⟩, ⟨.identifier, t!"t"⟩, ⟨.script, []⟩, ⟨.colon, []⟩, ⟨.openSquare, []⟩, ⟨.script, []⟩]
    (.crash .index) :=
  .entry (w := [⟨.test, []⟩, ⟨.identifier, t!"t"⟩]) (.test rfl rfl) (.here (.noScript rfl rfl rfl ⟨[], .nil, .nil⟩))

end BurnFm.Props
