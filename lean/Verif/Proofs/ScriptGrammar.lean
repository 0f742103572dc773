import Verif.Spec.ScriptGrammar
import Verif.Proofs.ScriptCut

/-! The script parser on any tokens. -/

namespace BurnFm
open Spec

/-- The element of `punc_stack` for an open block. -/
def punc : Block → Instruction
  | .cond => .if
  | .loop => .loop

/-- The script with more instructions. -/
def FScript.adding (s : FScript) (is : List ScriptStep) : FScript := { s with instructions := s.instructions ++ is }

theorem adding_nil (s : FScript) : s.adding [] = s := by simp [FScript.adding]

theorem adding_adding (s : FScript) (is js : List ScriptStep) : (s.adding is).adding js = s.adding (is ++ js) := by simp [FScript.adding]

theorem push_adding (s : FScript) (op : Instruction) (args : List Str) : s.push op args = s.adding [⟨op, 0, args⟩] := rfl

theorem startsElse_iff (ts : List ScriptTok) : startsElse ts = true ↔ GoesOn ts := by
  cases ts with
  | nil => simp [startsElse, GoesOn]
  | cons t r => simp [startsElse, GoesOn]

theorem parse_step_args (op : Instruction) (args : List Str) : ∀ (sw : List Str) (stack : List Instruction) (tmp : FScript)
    (acc : List FScript) (r : List ScriptTok), parseScripts (.step op sw) stack tmp acc (args.map tArg ++ r) =
      parseScripts (.step op (sw ++ args)) stack tmp acc r := by
  induction args with
  | nil => simp
  | cons a as ih =>
    intro sw stack tmp acc r
    rw [List.map_cons, List.cons_append]
    conv => lhs; unfold parseScripts
    dsimp only
    rw [if_pos rfl, ih]
    simp

theorem parse_if_args (args : List Str) : ∀ (sw : List Str) (stack : List Instruction) (tmp : FScript)
    (acc : List FScript) (r : List ScriptTok), parseScripts (.if sw) stack tmp acc (args.map tArg ++ r) =
      parseScripts (.if (sw ++ args)) stack tmp acc r := by
  induction args with
  | nil => simp
  | cons a as ih =>
    intro sw stack tmp acc r
    rw [List.map_cons, List.cons_append]
    conv => lhs; unfold parseScripts
    dsimp only
    rw [if_pos rfl, ih]
    simp

theorem parse_elif_args (args : List Str) : ∀ (sw : List Str) (stack : List Instruction) (tmp : FScript)
    (acc : List FScript) (r : List ScriptTok), parseScripts (.elif sw) stack tmp acc (args.map tArg ++ r) =
      parseScripts (.elif (sw ++ args)) stack tmp acc r := by
  induction args with
  | nil => simp
  | cons a as ih =>
    intro sw stack tmp acc r
    rw [List.map_cons, List.cons_append]
    conv => lhs; unfold parseScripts
    dsimp only
    rw [if_pos rfl, ih]
    simp

theorem scriptPhrase_parse {st st' : List Block} {w r : List ScriptTok} {is : List ScriptStep} (h : ScriptPhrase st w is st' r)
    (tmp : FScript) (acc : List FScript) :
    parseScripts .body (st.map punc) tmp acc (w ++ r) = parseScripts .body (st'.map punc) (tmp.adding is) acc r := by
  cases h with
  | @step _ name op args e _ h1 h2 =>
    rw [List.append_assoc, List.cons_append]
    conv => lhs; unfold parseScripts
    simp only [h1]
    rw [parse_step_args, List.nil_append, List.singleton_append]
    conv => lhs; unfold parseScripts
    simp [h2, push_adding]
  | @cond _ t e args _ h1 h2 =>
    rw [List.append_assoc, List.cons_append]
    conv => lhs; unfold parseScripts
    simp only [h1]
    rw [parse_if_args, List.nil_append, List.singleton_append]
    conv => lhs; unfold parseScripts
    simp [h2, push_adding, punc]
  | @elif _ t e args _ h1 h2 =>
    rw [List.append_assoc, List.cons_append]
    conv => lhs; unfold parseScripts
    simp only [h1]
    rw [parse_elif_args, List.nil_append, List.singleton_append]
    conv => lhs; unfold parseScripts
    simp [h2, push_adding]
  | «else» h1 h2 =>
    simp only [List.cons_append, List.nil_append]
    conv => lhs; unfold parseScripts
    simp only [h1]
    conv => lhs; unfold parseScripts
    simp [h2, push_adding]
  | loop h1 h2 =>
    simp only [List.cons_append, List.nil_append]
    conv => lhs; unfold parseScripts
    simp only [h1]
    conv => lhs; unfold parseScripts
    simp [h2, push_adding, punc]
  | @close b _ t _ h1 h2 =>
    have : startsElse r = false := by rw [← Bool.not_eq_true, startsElse_iff]; exact h2
    simp only [List.cons_append, List.nil_append, List.map_cons]
    conv => lhs; unfold parseScripts
    simp only [h1, this]
    cases b <;> simp [punc, Block.ending, push_adding]
  | @branch b _ t _ h1 h2 =>
    simp only [List.cons_append, List.nil_append, List.map_cons]
    conv => lhs; unfold parseScripts
    simp only [h1, (startsElse_iff r).mpr h2, if_true, adding_nil]
  | @skip _ t _ h =>
    simp only [List.cons_append, List.nil_append, adding_nil]
    conv => lhs; unfold parseScripts
    dsimp only
    obtain ⟨ty, v⟩ := t
    simp only [Meaningful] at h
    cases ty <;> simp at h ⊢
    simp [h]

theorem bodyEnds_parse {st : List Block} {w r : List ScriptTok} (h : BodyEnds st w r) (tmp : FScript) (acc : List FScript) :
    ∃ tmp', parseScripts .body (st.map punc) tmp acc (w ++ r) = parseScripts .top (st.map punc) tmp' (acc ++ [tmp]) r := by
  refine ⟨tmp, ?_⟩
  cases h with
  | close h =>
    simp only [List.cons_append, List.nil_append, List.map_nil]
    conv => lhs; unfold parseScripts
    simp only [h]
  | noBracket h hu =>
    simp only [List.cons_append, List.nil_append]
    conv => lhs; unfold parseScripts
    rcases h with h | h <;>
    · simp only [h]
      conv => lhs; unfold parseScripts
      simp only [hu, if_false]
  | noMore => simp [parseScripts]
  | @within _ t args h =>
    rw [List.append_nil]
    conv => lhs; unfold parseScripts
    have e : args.map tArg = args.map tArg ++ [] := by simp
    rcases h with ⟨h, ho⟩ | h | h
    · obtain ⟨op, ho⟩ := Option.isSome_iff_exists.mp ho
      simp only [h, ho]
      rw [e, parse_step_args]; simp [parseScripts]
    · simp only [h]
      rw [e, parse_if_args]; simp [parseScripts]
    · simp only [h]
      rw [e, parse_elif_args]; simp [parseScripts]

theorem bodyBreaks_parse {ts : List ScriptTok} {p : Panic} (h : BodyBreaks ts p) (stack : List Instruction) (tmp : FScript)
    (acc : List FScript) : parseScripts .body stack tmp acc ts = .error p := by
  cases h with
  | @step name args e r ho h1 h2 =>
    obtain ⟨op, ho⟩ := Option.isSome_iff_exists.mp ho
    rw [List.cons_append]
    conv => lhs; unfold parseScripts
    simp only [ho]
    rw [parse_step_args]
    conv => lhs; unfold parseScripts
    simp [h1, h2]
  | @cond t e args r h h1 h2 =>
    rw [List.cons_append]
    conv => lhs; unfold parseScripts
    rcases h with h | h
    · simp only [h]
      rw [parse_if_args]
      conv => lhs; unfold parseScripts
      simp [h1, h2]
    · simp only [h]
      rw [parse_elif_args]
      conv => lhs; unfold parseScripts
      simp [h1, h2]
  | last h =>
    unfold parseScripts
    dsimp only
    rcases h with h | h <;> · simp only [h]; simp [parseScripts]

theorem args_split (ts : List ScriptTok) :
    ∃ (args : List Str) (r : List ScriptTok), ts = args.map tArg ++ r ∧ ∀ e r', r = e :: r' → e.ty ≠ .argument := by
  induction ts with
  | nil => exact ⟨[], [], rfl, by simp⟩
  | cons t ts ih =>
    by_cases h : t.ty = .argument
    · obtain ⟨args, r, rfl, hr⟩ := ih
      refine ⟨t.value :: args, r, ?_, hr⟩
      obtain ⟨ty, v⟩ := t
      simp only at h
      simp [h, tArg]
    · exact ⟨[], t :: ts, rfl, fun e r' e' => by cases e'; exact h⟩

theorem phrase_or (st : List Block) (ts : List ScriptTok) :
    (∃ w r, ts = w ++ r ∧ BodyEnds st w r) ∨ (∃ p, BodyBreaks ts p) ∨
      ∃ w is st' r, ts = w ++ r ∧ w ≠ [] ∧ ScriptPhrase st w is st' r := by
  cases ts with
  | nil => exact .inl ⟨[], [], rfl, .noMore⟩
  | cons t ts =>
    by_cases hm : Meaningful t
    · rcases hm with hm | ⟨hi, ho⟩
      · simp only [List.mem_cons, List.not_mem_nil, or_false] at hm
        rcases hm with h | h | h | h | h
        · cases st with
          | nil => exact .inl ⟨[t], ts, rfl, .close h⟩
          | cons b st =>
            by_cases hg : GoesOn ts
            · exact .inr (.inr ⟨[t], _, _, ts, rfl, by simp, .branch h hg⟩)
            · exact .inr (.inr ⟨[t], _, _, ts, rfl, by simp, .close h hg⟩)
        · cases ts with
          | nil => exact .inr (.inl ⟨_, .last (.inl h)⟩)
          | cons u ts =>
            by_cases hu : u.ty = .openBracket
            · exact .inr (.inr ⟨[t, u], _, _, ts, rfl, by simp, .loop h hu⟩)
            · exact .inl ⟨[t, u], ts, rfl, .noBracket (.inl h) hu⟩
        · obtain ⟨args, r, rfl, hr⟩ := args_split ts
          cases r with
          | nil => exact .inl ⟨_, [], rfl, .within (.inr (.inl h))⟩
          | cons e r =>
            by_cases he : e.ty = .openBracket
            · exact .inr (.inr ⟨t :: args.map tArg ++ [e], _, _, r, by simp, by simp, .cond h he⟩)
            · exact .inr (.inl ⟨_, .cond (.inl h) (hr e r rfl) he⟩)
        · obtain ⟨args, r, rfl, hr⟩ := args_split ts
          cases r with
          | nil => exact .inl ⟨_, [], rfl, .within (.inr (.inr h))⟩
          | cons e r =>
            by_cases he : e.ty = .openBracket
            · exact .inr (.inr ⟨t :: args.map tArg ++ [e], _, _, r, by simp, by simp, .elif h he⟩)
            · exact .inr (.inl ⟨_, .cond (.inr h) (hr e r rfl) he⟩)
        · cases ts with
          | nil => exact .inr (.inl ⟨_, .last (.inr h)⟩)
          | cons u ts =>
            by_cases hu : u.ty = .openBracket
            · exact .inr (.inr ⟨[t, u], _, _, ts, rfl, by simp, .else h hu⟩)
            · exact .inl ⟨[t, u], ts, rfl, .noBracket (.inr h) hu⟩
      · obtain ⟨args, r, rfl, hr⟩ := args_split ts
        cases r with
        | nil => exact .inl ⟨_, [], rfl, .within (.inl ⟨hi, ho⟩)⟩
        | cons e r =>
          obtain ⟨ty, v⟩ := t
          simp only at hi ho
          subst hi
          by_cases he : e.ty = .semiColon
          · obtain ⟨op, ho⟩ := Option.isSome_iff_exists.mp ho
            exact .inr (.inr ⟨tName v :: args.map tArg ++ [e], _, _, r, by simp, by simp, .step ho he⟩)
          · exact .inr (.inl ⟨_, .step ho (hr e r rfl) he⟩)
    · exact .inr (.inr ⟨[t], _, _, ts, rfl, by simp, .skip hm⟩)

theorem scriptBody_parse {st st' : List Block} {ts r : List ScriptTok} {is : List ScriptStep} (h : ScriptBody st ts is st' r)
    (tmp : FScript) (acc : List FScript) : ∃ tmp', parseScripts .body (st.map punc) tmp acc ts =
      parseScripts .top (st'.map punc) tmp' (acc ++ [tmp.adding is]) r := by
  induction h generalizing tmp with
  | ends h => rw [adding_nil]; exact bodyEnds_parse h tmp acc
  | phrase hp _ ih =>
    obtain ⟨tmp', h⟩ := ih (tmp.adding _)
    exact ⟨tmp', by rw [scriptPhrase_parse hp, h, adding_adding]⟩

theorem brokenBody_parse {st : List Block} {ts : List ScriptTok} {p : Panic} (h : BrokenBody st ts p)
    (tmp : FScript) (acc : List FScript) : parseScripts .body (st.map punc) tmp acc ts = .error p := by
  induction h generalizing tmp with
  | here h => exact bodyBreaks_parse h _ tmp acc
  | phrase hp _ ih => rw [scriptPhrase_parse hp, ih]

theorem body_or (st : List Block) (ts : List ScriptTok) :
    (∃ is st' r, ScriptBody st ts is st' r ∧ r.length ≤ ts.length) ∨ ∃ p, BrokenBody st ts p := by
  induction hn : ts.length using Nat.strongRecOn generalizing ts st with
  | _ n ih =>
    rcases phrase_or st ts with ⟨w, r, rfl, h⟩ | ⟨p, h⟩ | ⟨w, is, st', r, rfl, hw, h⟩
    · exact .inl ⟨_, _, r, .ends h, by rw [← hn]; simp⟩
    · exact .inr ⟨p, .here h⟩
    · have hw := List.length_pos_iff.mpr hw
      rw [List.length_append] at hn
      rcases ih r.length (by omega) st' r rfl with ⟨js, st'', r', hb, hl⟩ | ⟨p, hb⟩
      · exact .inl ⟨_, _, r', .phrase h hb, by omega⟩
      · exact .inr ⟨p, .phrase h hb⟩

theorem header_parse (hs : List ScriptTok) (h : ∀ t ∈ hs, t.ty ≠ .openBracket) : ∀ (stack : List Instruction) (tmp : FScript)
    (acc : List FScript) (r : List ScriptTok), parseScripts .params stack tmp acc (hs ++ r) =
      parseScripts .params stack
        { tmp with arguments := tmp.arguments ++ (hs.filter (fun h => h.ty = .argument)).map (·.value) } acc r := by
  induction hs with
  | nil => intros; simp
  | cons t hs ih =>
    intro stack tmp acc r
    rw [List.cons_append]
    conv => lhs; unfold parseScripts
    dsimp only
    have ht := h t (by simp)
    have ih := ih (fun t ht => h t (List.mem_cons_of_mem _ ht))
    by_cases ha : t.ty = .argument
    · rw [if_pos ha, ih]; simp [ha]
    · rw [if_neg ha, if_neg ht, ih]; simp [ha]

theorem define_parse {t n : ScriptTok} {hs : List ScriptTok} (ht : t.ty = .define) (h : ∀ t ∈ hs, t.ty ≠ .openBracket)
    (stack : List Instruction) (tmp : FScript) (acc : List FScript) (r : List ScriptTok) :
    parseScripts .top stack tmp acc (t :: n :: hs ++ r) = parseScripts .params stack (defined n hs []) acc r := by
  rw [List.cons_append, List.cons_append, parseScripts]
  simp only [ht, if_true]
  rw [parseScripts]
  simp only
  rw [header_parse hs h]
  congr 1
  by_cases hn : n.ty = .identifier <;> simp [hn, defined]

theorem header_split (ts : List ScriptTok) : (∀ h ∈ ts, h.ty ≠ .openBracket) ∨
    ∃ hs o b, ts = hs ++ o :: b ∧ (∀ h ∈ hs, h.ty ≠ .openBracket) ∧ o.ty = .openBracket := by
  induction ts with
  | nil => exact .inl (by simp)
  | cons t ts ih =>
    by_cases h : t.ty = .openBracket
    · exact .inr ⟨[], t, ts, rfl, by simp, h⟩
    · rcases ih with ih | ⟨hs, o, b, rfl, h1, h2⟩
      · refine .inl fun x hx => ?_
        rcases List.mem_cons.mp hx with rfl | hx
        · exact h
        · exact ih x hx
      · refine .inr ⟨t :: hs, o, b, rfl, fun x hx => ?_, h2⟩
        rcases List.mem_cons.mp hx with rfl | hx
        · exact h
        · exact h1 x hx

theorem open_parse {o : ScriptTok} (ho : o.ty = .openBracket) (stack : List Instruction) (tmp : FScript) (acc : List FScript)
    (b : List ScriptTok) : parseScripts .params stack tmp acc (o :: b) = parseScripts .body stack tmp acc b := by
  rw [parseScripts]; simp [ho]

theorem scriptsOf_parse {st : List Block} {ts : List ScriptTok} {fs : List FScript} (h : ScriptsOf st ts fs) :
    ∀ (tmp : FScript) (acc : List FScript), parseScripts .top (st.map punc) tmp acc ts = .ok (some (acc ++ fs)) := by
  induction h with
  | nil => intros; simp [parseScripts]
  | skip ht _ ih => intro tmp acc; rw [parseScripts]; simp only [ht, if_false]; exact ih _ _
  | define ht h ho hb _ ih =>
    intro tmp acc
    rw [define_parse ht h, open_parse ho]
    obtain ⟨tmp', e⟩ := scriptBody_parse hb (defined _ _ []) acc
    rw [e, ih, List.append_assoc]
    simp [FScript.adding, defined]
  | @noBody _ t n hs ht h =>
    intro tmp acc
    have := define_parse (n := n) ht h (List.map punc ‹_›) tmp acc []
    rw [List.append_nil] at this
    rw [this]; simp [parseScripts]

theorem scriptsBreak_parse {st : List Block} {ts : List ScriptTok} {p : Panic} (h : ScriptsBreak st ts p) :
    ∀ (tmp : FScript) (acc : List FScript), parseScripts .top (st.map punc) tmp acc ts = .error p := by
  induction h with
  | skip ht _ ih => intro tmp acc; rw [parseScripts]; simp only [ht, if_false]; exact ih _ _
  | last ht => intro tmp acc; rw [parseScripts]; simp only [ht, if_true]; simp [parseScripts]
  | body ht h ho hb =>
    intro tmp acc
    rw [define_parse ht h, open_parse ho, brokenBody_parse hb]
  | later ht h ho hb _ ih =>
    intro tmp acc
    rw [define_parse ht h, open_parse ho]
    obtain ⟨tmp', e⟩ := scriptBody_parse hb (defined _ _ []) acc
    rw [e, ih]

theorem scripts_or (st : List Block) (ts : List ScriptTok) : (∃ fs, ScriptsOf st ts fs) ∨ ∃ p, ScriptsBreak st ts p := by
  induction hn : ts.length using Nat.strongRecOn generalizing ts st with
  | _ m ih =>
    cases ts with
    | nil => exact .inl ⟨_, .nil⟩
    | cons t ts =>
      simp only [List.length_cons] at hn
      by_cases ht : t.ty = .define
      · cases ts with
        | nil => exact .inr ⟨_, .last ht⟩
        | cons n ts =>
          rcases header_split ts with h | ⟨hs, o, b, rfl, h, ho⟩
          · exact .inl ⟨_, .noBody ht h⟩
          · rcases body_or st b with ⟨is, st', r, hb, hl⟩ | ⟨p, hb⟩
            · simp only [List.length_cons, List.length_append] at hn
              rcases ih r.length (by omega) st' r rfl with ⟨fs, h'⟩ | ⟨p, h'⟩
              · exact .inl ⟨_, .define ht h ho hb h'⟩
              · exact .inr ⟨_, .later ht h ho hb h'⟩
            · exact .inr ⟨_, .body ht h ho hb⟩
      · rcases ih ts.length (by omega) st ts rfl with ⟨fs, h⟩ | ⟨p, h⟩
        · exact .inl ⟨_, .skip ht h⟩
        · exact .inr ⟨_, .skip ht h⟩

theorem parseScripts_iff (ts : List ScriptTok) (fs : List FScript) :
    parseScripts .top [] {} [] ts = .ok (some fs) ↔ ScriptsOf [] ts fs := by
  constructor
  · intro h
    rcases scripts_or [] ts with ⟨gs, hs⟩ | ⟨p, hs⟩
    · have := scriptsOf_parse hs {} []
      rw [List.map_nil, h] at this
      simp only [List.nil_append] at this
      cases this
      exact hs
    · have := scriptsBreak_parse hs {} []
      rw [List.map_nil, h] at this
      cases this
  · intro h
    exact scriptsOf_parse h {} []

theorem parseScripts_error_iff (ts : List ScriptTok) (p : Panic) :
    parseScripts .top [] {} [] ts = .error p ↔ ScriptsBreak [] ts p := by
  constructor
  · intro h
    rcases scripts_or [] ts with ⟨gs, hs⟩ | ⟨q, hs⟩
    · have := scriptsOf_parse hs {} []
      rw [List.map_nil, h] at this
      cases this
    · have := scriptsBreak_parse hs {} []
      rw [List.map_nil, h] at this
      cases this
      exact hs
  · intro h
    exact scriptsBreak_parse h {} []

end BurnFm
