import Verif.Spec.ScriptSays
import Verif.Proofs.ScriptWarnings
import Verif.Proofs.ProgramGrammar

/-! The warnings of the compiler on any text. -/

namespace BurnFm
open Spec

theorem says_meaningful {t : ScriptTok} {w : List ScriptTok} {ws : List Warning} (hm : Meaningful t) (h : PhraseSays (t :: w) ws) :
    ws = [] := by
  cases h with
  | skipped h => exact absurd hm h
  | read _ => rfl

theorem parseW_step_args (op : Instruction) (args : List Str) : ∀ (sw : List Str) (stack : List Instruction) (tmp : FScript)
    (acc : List FScript) (r : List ScriptTok), parseScriptsW (.step op sw) stack tmp acc (args.map tArg ++ r) =
      parseScriptsW (.step op (sw ++ args)) stack tmp acc r := by
  induction args with
  | nil => simp
  | cons a as ih =>
    intro sw stack tmp acc r
    rw [List.map_cons, List.cons_append]
    conv => lhs; unfold parseScriptsW
    dsimp only
    rw [if_pos rfl, ih]
    simp

theorem parseW_if_args (args : List Str) : ∀ (sw : List Str) (stack : List Instruction) (tmp : FScript)
    (acc : List FScript) (r : List ScriptTok), parseScriptsW (.if sw) stack tmp acc (args.map tArg ++ r) =
      parseScriptsW (.if (sw ++ args)) stack tmp acc r := by
  induction args with
  | nil => simp
  | cons a as ih =>
    intro sw stack tmp acc r
    rw [List.map_cons, List.cons_append]
    conv => lhs; unfold parseScriptsW
    dsimp only
    rw [if_pos rfl, ih]
    simp

theorem parseW_elif_args (args : List Str) : ∀ (sw : List Str) (stack : List Instruction) (tmp : FScript)
    (acc : List FScript) (r : List ScriptTok), parseScriptsW (.elif sw) stack tmp acc (args.map tArg ++ r) =
      parseScriptsW (.elif (sw ++ args)) stack tmp acc r := by
  induction args with
  | nil => simp
  | cons a as ih =>
    intro sw stack tmp acc r
    rw [List.map_cons, List.cons_append]
    conv => lhs; unfold parseScriptsW
    dsimp only
    rw [if_pos rfl, ih]
    simp

theorem scriptPhrase_warns {st st' : List Block} {w r : List ScriptTok} {is : List ScriptStep} {ws : List Warning}
    (h : ScriptPhrase st w is st' r) (hs : PhraseSays w ws) (tmp : FScript) (acc : List FScript) :
    (parseScriptsW .body (st.map punc) tmp acc (w ++ r)).1 =
      ws ++ (parseScriptsW .body (st'.map punc) (tmp.adding is) acc r).1 := by
  cases h with
  | @step _ name op args e _ h1 h2 =>
    rw [List.cons_append] at hs
    have := says_meaningful (.inr ⟨rfl, by rw [show (tName name).value = name from rfl, h1]; rfl⟩) hs
    subst this
    rw [List.append_assoc, List.cons_append]
    conv => lhs; unfold parseScriptsW
    simp only [h1]
    rw [parseW_step_args, List.nil_append, List.singleton_append]
    conv => lhs; unfold parseScriptsW
    simp [h2, push_adding]
  | @cond _ t e args _ h1 h2 =>
    rw [List.cons_append] at hs
    have := says_meaningful (.inl (by simp [h1])) hs
    subst this
    rw [List.append_assoc, List.cons_append]
    conv => lhs; unfold parseScriptsW
    simp only [h1]
    rw [parseW_if_args, List.nil_append, List.singleton_append]
    conv => lhs; unfold parseScriptsW
    simp [h2, push_adding, punc]
  | @elif _ t e args _ h1 h2 =>
    rw [List.cons_append] at hs
    have := says_meaningful (.inl (by simp [h1])) hs
    subst this
    rw [List.append_assoc, List.cons_append]
    conv => lhs; unfold parseScriptsW
    simp only [h1]
    rw [parseW_elif_args, List.nil_append, List.singleton_append]
    conv => lhs; unfold parseScriptsW
    simp [h2, push_adding]
  | «else» h1 h2 =>
    have := says_meaningful (.inl (by simp [h1])) hs
    subst this
    simp only [List.cons_append, List.nil_append]
    conv => lhs; unfold parseScriptsW
    simp only [h1]
    conv => lhs; unfold parseScriptsW
    simp [h2, push_adding]
  | loop h1 h2 =>
    have := says_meaningful (.inl (by simp [h1])) hs
    subst this
    simp only [List.cons_append, List.nil_append]
    conv => lhs; unfold parseScriptsW
    simp only [h1]
    conv => lhs; unfold parseScriptsW
    simp [h2, push_adding, punc]
  | @close b _ t _ h1 h2 =>
    have := says_meaningful (.inl (by simp [h1])) hs
    subst this
    have : startsElse r = false := by rw [← Bool.not_eq_true, startsElse_iff]; exact h2
    simp only [List.cons_append, List.nil_append, List.map_cons]
    conv => lhs; unfold parseScriptsW
    simp only [h1, this]
    cases b <;> simp [punc, Block.ending, push_adding]
  | @branch b _ t _ h1 h2 =>
    have := says_meaningful (.inl (by simp [h1])) hs
    subst this
    simp only [List.cons_append, List.nil_append, List.map_cons]
    conv => lhs; unfold parseScriptsW
    simp only [h1, (startsElse_iff r).mpr h2, if_true, adding_nil]
  | @skip _ t _ h =>
    cases hs with
    | read h' => exact absurd h' h
    | skipped _ =>
      simp only [List.cons_append, List.nil_append, adding_nil]
      conv => lhs; unfold parseScriptsW
      dsimp only
      obtain ⟨ty, v⟩ := t
      simp only [Meaningful] at h
      cases ty <;> simp at h <;> simp [skipped]
      simp [h]

theorem bodyEnds_warns {st : List Block} {w r : List ScriptTok} {ws : List Warning} (h : BodyEnds st w r) (hs : EndSays w ws)
    (tmp : FScript) (acc : List FScript) :
    (parseScriptsW .body (st.map punc) tmp acc (w ++ r)).1 = ws ++ (parseScriptsW .top (st.map punc) tmp (acc ++ [tmp]) r).1 := by
  cases h with
  | close h =>
    cases hs with
    | other _ _ =>
      simp only [List.cons_append, List.nil_append, List.map_nil]
      conv => lhs; unfold parseScriptsW
      simp only [h]
  | noBracket h hu =>
    cases hs with
    | other h1 h2 => rcases h with h | h <;> contradiction
    | noBracket _ =>
      simp only [List.cons_append, List.nil_append]
      conv => lhs; unfold parseScriptsW
      rcases h with h | h <;>
      · simp only [h]
        conv => lhs; unfold parseScriptsW
        simp [hu]
  | noMore => cases hs; simp [parseScriptsW]
  | @within _ t args h =>
    have hws : ws = [] := by
      generalize args.map tArg = as at hs
      cases hs with
      | noBracket h' => rcases h with ⟨h, _⟩ | h | h <;> simp [h] at h'
      | other _ _ => rfl
    subst hws
    rw [List.append_nil]
    conv => lhs; unfold parseScriptsW
    have e : args.map tArg = args.map tArg ++ [] := by simp
    rcases h with ⟨h, ho⟩ | h | h
    · obtain ⟨op, ho⟩ := Option.isSome_iff_exists.mp ho
      simp only [h, ho]
      rw [e, parseW_step_args]; simp [parseScriptsW]
    · simp only [h]
      rw [e, parseW_if_args]; simp [parseScriptsW]
    · simp only [h]
      rw [e, parseW_elif_args]; simp [parseScriptsW]

theorem bodyBreaks_warns {ts : List ScriptTok} {p : Panic} (h : BodyBreaks ts p) (stack : List Instruction) (tmp : FScript)
    (acc : List FScript) : (parseScriptsW .body stack tmp acc ts).1 = [] := by
  cases h with
  | @step name args e r ho h1 h2 =>
    obtain ⟨op, ho⟩ := Option.isSome_iff_exists.mp ho
    rw [List.cons_append]
    conv => lhs; unfold parseScriptsW
    simp only [ho]
    rw [parseW_step_args]
    conv => lhs; unfold parseScriptsW
    simp [h1, h2]
  | @cond t e args r h h1 h2 =>
    rw [List.cons_append]
    conv => lhs; unfold parseScriptsW
    rcases h with h | h
    · simp only [h]
      rw [parseW_if_args]
      conv => lhs; unfold parseScriptsW
      simp [h1, h2]
    · simp only [h]
      rw [parseW_elif_args]
      conv => lhs; unfold parseScriptsW
      simp [h1, h2]
  | last h =>
    unfold parseScriptsW
    dsimp only
    rcases h with h | h <;> · simp only [h]; simp [parseScriptsW]

/-- The warnings after a body. -/
def warnsAfter (acc : List FScript) (tmp : FScript) : Option (List Block × List ScriptTok) → List Warning
  | none => []
  | some (st, r) => (parseScriptsW .top (st.map punc) tmp acc r).1

theorem bodySays_warns {st : List Block} {ts : List ScriptTok} {ws : List Warning} {x : Option (List Block × List ScriptTok)}
    (h : BodySays st ts ws x) (tmp : FScript) (acc : List FScript) :
    ∃ tmp' acc', (parseScriptsW .body (st.map punc) tmp acc ts).1 = ws ++ warnsAfter acc' tmp' x := by
  induction h generalizing tmp with
  | ends h hs => exact ⟨_, _, bodyEnds_warns h hs tmp acc⟩
  | breaks h => exact ⟨tmp, acc, by rw [bodyBreaks_warns h]; rfl⟩
  | phrase hp hs _ ih =>
    obtain ⟨tmp', acc', h⟩ := ih (tmp.adding _)
    exact ⟨tmp', acc', by rw [scriptPhrase_warns hp hs, h, List.append_assoc]⟩

theorem phraseSays_total {st st' : List Block} {w r : List ScriptTok} {is : List ScriptStep} (h : ScriptPhrase st w is st' r) :
    ∃ ws, PhraseSays w ws := by
  cases h with
  | step h1 h2 => exact ⟨_, .read (.inr ⟨rfl, by simp [tName, h1]⟩)⟩
  | skip h => exact ⟨_, .skipped h⟩
  | _ h1 => exact ⟨_, .read (.inl (by simp [h1]))⟩

theorem endSays_total {st : List Block} {w r : List ScriptTok} (h : BodyEnds st w r) : ∃ ws, EndSays w ws := by
  cases h with
  | close h => exact ⟨_, .other (by simp [h]) (by simp [h])⟩
  | noBracket h _ => exact ⟨_, .noBracket h⟩
  | noMore => exact ⟨_, .noMore⟩
  | within h => rcases h with ⟨h, _⟩ | h | h <;> exact ⟨_, .other (by simp [h]) (by simp [h])⟩

theorem bodySays_total (st : List Block) (ts : List ScriptTok) :
    ∃ ws x, BodySays st ts ws x ∧ ∀ st' r, x = some (st', r) → r.length ≤ ts.length := by
  induction hn : ts.length using Nat.strongRecOn generalizing ts st with
  | _ n ih =>
    rcases phrase_or st ts with ⟨w, r, rfl, h⟩ | ⟨p, h⟩ | ⟨w, is, st', r, rfl, hw, h⟩
    · obtain ⟨ws, hs⟩ := endSays_total h
      exact ⟨ws, _, .ends h hs, fun _ _ e => by cases e; rw [← hn]; simp⟩
    · exact ⟨_, _, .breaks h, fun _ _ e => by cases e⟩
    · have hw := List.length_pos_iff.mpr hw
      rw [List.length_append] at hn
      obtain ⟨ws, x, hb, hl⟩ := ih r.length (by omega) st' r rfl
      obtain ⟨ws', hs⟩ := phraseSays_total h
      exact ⟨_, x, .phrase h hs hb, fun a b e => by have := hl a b e; omega⟩

theorem header_warns (hs : List ScriptTok) (h : ∀ t ∈ hs, t.ty ≠ .openBracket) : ∀ (stack : List Instruction) (tmp : FScript)
    (acc : List FScript) (r : List ScriptTok), ∃ tmp', (parseScriptsW .params stack tmp acc (hs ++ r)).1 =
      hs.flatMap headed ++ (parseScriptsW .params stack tmp' acc r).1 := by
  induction hs with
  | nil => intro _ tmp _ _; exact ⟨tmp, by simp⟩
  | cons t hs ih =>
    intro stack tmp acc r
    rw [List.cons_append, List.flatMap_cons]
    have ht := h t (by simp)
    have ih := ih (fun t ht => h t (List.mem_cons_of_mem _ ht))
    by_cases ha : t.ty = .argument
    · obtain ⟨tmp', e⟩ := ih stack { tmp with arguments := tmp.arguments ++ [t.value] } acc r
      refine ⟨tmp', ?_⟩
      conv => lhs; unfold parseScriptsW
      simp only [ha, e, headed]
      simp
    · obtain ⟨tmp', e⟩ := ih stack tmp acc r
      refine ⟨tmp', ?_⟩
      conv => lhs; unfold parseScriptsW
      obtain ⟨ty, v⟩ := t
      cases ty <;> simp at ha ht <;> simp [headed, e]

theorem define_warns {t n : ScriptTok} {hs : List ScriptTok} (ht : t.ty = .define) (h : ∀ t ∈ hs, t.ty ≠ .openBracket)
    (stack : List Instruction) (tmp : FScript) (acc : List FScript) (r : List ScriptTok) :
    ∃ tmp', (parseScriptsW .top stack tmp acc (t :: n :: hs ++ r)).1 =
      hs.flatMap headed ++ (parseScriptsW .params stack tmp' acc r).1 := by
  rw [List.cons_append, List.cons_append, parseScriptsW]
  simp only [ht, if_true]
  rw [parseScriptsW]
  simp only
  exact header_warns hs h _ _ _ _

theorem open_warns {o : ScriptTok} (ho : o.ty = .openBracket) (stack : List Instruction) (tmp : FScript) (acc : List FScript)
    (b : List ScriptTok) : parseScriptsW .params stack tmp acc (o :: b) = parseScriptsW .body stack tmp acc b := by
  rw [parseScriptsW]; simp [ho]

theorem scriptsSay_warns {st : List Block} {ts : List ScriptTok} {ws : List Warning} (h : ScriptsSay st ts ws) :
    ∀ (tmp : FScript) (acc : List FScript), (parseScriptsW .top (st.map punc) tmp acc ts).1 = ws := by
  induction h with
  | nil => intros; simp [parseScriptsW]
  | skip ht _ ih => intro tmp acc; rw [parseScriptsW]; simp only [ht, if_false, warn_fst]; rw [ih]
  | last ht => intro tmp acc; rw [parseScriptsW]; simp only [ht, if_true]; simp [parseScriptsW]
  | @noBody st t n hs ht h =>
    intro tmp acc
    obtain ⟨tmp', e⟩ := define_warns (n := n) ht h (st.map punc) tmp acc []
    rw [List.append_nil] at e
    rw [e]; simp [parseScriptsW]
  | @breaks st t n o hs b ws ht h ho hb =>
    intro tmp acc
    obtain ⟨tmp', e⟩ := define_warns (n := n) ht h (st.map punc) tmp acc (o :: b)
    obtain ⟨t2, a2, e2⟩ := bodySays_warns hb tmp' acc
    rw [e, open_warns ho, e2]; simp [warnsAfter]
  | @define st st' t n o hs b r ws ws' ht h ho hb _ ih =>
    intro tmp acc
    obtain ⟨tmp', e⟩ := define_warns (n := n) ht h (st.map punc) tmp acc (o :: b)
    obtain ⟨t2, a2, e2⟩ := bodySays_warns hb tmp' acc
    rw [e, open_warns ho, e2]
    simp only [warnsAfter]
    rw [ih, List.append_assoc]

theorem scriptsSay_total (st : List Block) (ts : List ScriptTok) : ∃ ws, ScriptsSay st ts ws := by
  induction hn : ts.length using Nat.strongRecOn generalizing ts st with
  | _ m ih =>
    cases ts with
    | nil => exact ⟨_, .nil⟩
    | cons t ts =>
      simp only [List.length_cons] at hn
      by_cases ht : t.ty = .define
      · cases ts with
        | nil => exact ⟨_, .last ht⟩
        | cons n ts =>
          rcases header_split ts with h | ⟨hs, o, b, rfl, h, ho⟩
          · exact ⟨_, .noBody ht h⟩
          · obtain ⟨ws, x, hb, hl⟩ := bodySays_total st b
            simp only [List.length_cons, List.length_append] at hn
            cases x with
            | none => exact ⟨_, .breaks ht h ho hb⟩
            | some x =>
              obtain ⟨st', r⟩ := x
              have := hl st' r rfl
              obtain ⟨ws', h'⟩ := ih r.length (by omega) st' r rfl
              exact ⟨_, .define ht h ho hb h'⟩
      · obtain ⟨ws, h⟩ := ih ts.length (by omega) st ts rfl
        exact ⟨_, .skip ht h⟩

theorem scriptsW_iff (ts : List ScriptTok) (ws : List Warning) :
    (parseScriptsW .top [] {} [] ts).1 = ws ↔ ScriptsSay [] ts ws := by
  constructor
  · intro h
    obtain ⟨ws', hs⟩ := scriptsSay_total [] ts
    have := scriptsSay_warns hs {} []
    rw [List.map_nil, h] at this
    rw [this]; exact hs
  · intro h
    exact scriptsSay_warns h {} []

theorem blockSays_iff (s : Str) (ws : List Warning) : (compileScriptsW s).1 = ws ↔ BlockSays s ws := by
  unfold compileScriptsW
  cases hl : lexScript s with
  | error p =>
    constructor
    · rintro rfl
      exact .uncut ((lexScript_error_iff s p).mp hl).2
    · rintro (⟨h1, _⟩ | _)
      · have := (lexScript_iff s _).mpr h1
        rw [hl] at this; cases this
      · rfl
  | ok ts =>
    simp only
    constructor
    · intro h
      exact .cut ((lexScript_iff s ts).mp hl) ((scriptsW_iff ts ws).mp h)
    · rintro (⟨h1, h2⟩ | h)
      · have := (lexScript_iff s _).mpr h1
        rw [hl] at this; cases this
        exact (scriptsW_iff ts ws).mpr h2
      · have := (lexScript_error_iff s .unwrap).mpr ⟨rfl, h⟩
        rw [hl] at this; cases this

/-! ### Programs -/

/-- The warnings about some blocks. -/
def blocksWarn (bs : List Str) : List Warning := bs.flatMap fun b => (compileScriptsW b).1

theorem warned_then_ok {α β : Type} {r : Warned (Res α)} {x : α} (h : r.2 = .ok x) (k : α → Warned (Res β)) :
    (r.andThen k).1 = r.1 ++ (k x).1 := by simp [Warned.andThen, h]

theorem warned_then_error {α β : Type} {r : Warned (Res α)} {e : Panic} (h : r.2 = .error e) (k : α → Warned (Res β)) :
    (r.andThen k).1 = r.1 := by simp [Warned.andThen, h]

theorem blockW_ok {s : Str} {fs : List FScript} (h : BlockOf s fs) : (compileScriptsW s).2 = .ok fs := by
  rw [compileScriptsW_snd]; exact (blockOf_iff s fs).mpr h

theorem blockW_error {s : Str} {p : Panic} (h : BlockBreaks s p) : (compileScriptsW s).2 = .error p := by
  rw [compileScriptsW_snd]; exact (blockBreaks_iff s p).mpr h

theorem entryStarts_warns {w : List BurnTok} {e : Entry} (h : EntryStarts w e) (ret : FmpFile) (r : List BurnTok) :
    parseBurnW .top ret (w ++ r) = parseBurnW (.item e.item) ret r := by
  cases h with
  | _ h1 h2 => simp [parseBurnW, h1, h2, BurnItem.named, Entry.item]

theorem entryPhrase_warns {e e' : Entry} {w r : List BurnTok} (h : EntryPhrase e w e' r) (hw : w.length < 4) (ret : FmpFile) :
    parseBurnW (.item e.item) ret (w ++ r) = parseBurnW (.item e'.item) ret r := by
  cases h with
  | tables h1 h2 => simp [parseBurnW, h1, h2, Entry.item]
  | noColon h1 h2 =>
    rw [List.singleton_append]
    conv => lhs; unfold parseBurnW
    simp [h1, h2, Entry.item]
  | table h1 h2 h3 => simp [parseBurnW, h1, h2, h3, Entry.item]
  | script h1 h2 h3 h4 => simp at hw
  | skip h1 h2 =>
    rw [List.singleton_append]
    conv => lhs; unfold parseBurnW
    cases e <;> simp [Special] at h2 <;> simp [h1, h2, Entry.item]

theorem entryBlock_warns {e e' : Entry} {t c o b : BurnTok} {r : List BurnTok} (h : EntryPhrase e [t, c, o, b] e' r) (ret : FmpFile) :
    (parseBurnW (.item e.item) ret (t :: c :: o :: b :: r)).1 =
      (compileScriptsW b.text).1 ++ (parseBurnW (.item e'.item) ret r).1 := by
  cases h with
  | script h1 h2 h3 h4 =>
    simp only [parseBurnW, h1, h2, h3, Entry.item]
    simp only [reduceCtorEq, if_false, if_true]
    rw [warned_then_ok (blockW_ok h4)]
    simp [idx, Warned.andThen]

theorem entryEnds_warns {e : Entry} {w r : List BurnTok} (h : EntryEnds e w r) (ret : FmpFile) :
    (parseBurnW (.item e.item) ret (w ++ r)).1 = (parseBurnW .top (ret.addItem e.item) r).1 := by
  cases h with
  | closed h1 h2 h3 => simp [parseBurnW, h1, entry_keyword, h2, h3]
  | noMore => simp [parseBurnW]

theorem ending_warns {i : BurnItem} {ks : List BurnTok} {f : Failure}
    (h : Expected [some i.keyword, some .semiColon] ks f) (ret : FmpFile) : (parseBurnW (.itemEnd i) ret ks).1 = [] := by
  cases h with
  | noMore => simp [parseBurnW]
  | other h => simp [parseBurnW, h]
  | later h1 h =>
    cases h with
    | noMore => simp [parseBurnW, h1]
    | other h => simp [parseBurnW, h1, h]
    | later h2 h => cases h

theorem startsBlock_unique {ts : List BurnTok} {a b : Str} (h : StartsBlock ts a) (h' : StartsBlock ts b) : a = b := by
  cases h; cases h'; rfl

theorem entryFails_warns {e : Entry} {ts : List BurnTok} {f : Failure} (h : EntryFails e ts f) (ret : FmpFile) :
    ((∀ text, ¬ StartsBlock ts text) → (parseBurnW (.item e.item) ret ts).1 = []) ∧
    ∀ text, StartsBlock ts text → (parseBurnW (.item e.item) ret ts).1 = (compileScriptsW text).1 := by
  have nostart : ∀ {t : BurnTok} {r : List BurnTok}, t.ty ≠ .script → ∀ text, ¬ StartsBlock (t :: r) text := by
    intro t r ht text h
    cases h; contradiction
  have short : ∀ {l : List Warning} {ts : List BurnTok}, (∀ text, ¬ StartsBlock ts text) → l = [] →
      ((∀ text, ¬ StartsBlock ts text) → l = []) ∧ ∀ text, StartsBlock ts text → l = (compileScriptsW text).1 :=
    fun h1 h2 => ⟨fun _ => h2, fun text h => absurd h (h1 text)⟩
  have long : ∀ {l : List Warning} {t c o b : BurnTok} {r : List BurnTok}, t.ty = .script → c.ty = .colon → o.ty = .openSquare →
      l = (compileScriptsW b.text).1 →
      ((∀ text, ¬ StartsBlock (t :: c :: o :: b :: r) text) → l = []) ∧
      ∀ text, StartsBlock (t :: c :: o :: b :: r) text → l = (compileScriptsW text).1 := by
    intro l t c o b r h1 h2 h3 h4
    exact ⟨fun h => absurd (.intro h1 h2 h3) (h b.text), fun text h => by cases h; exact h4⟩
  cases h with
  | ending h1 h =>
    rw [← entry_keyword] at h
    refine short (nostart (by simp [h1])) ?_
    have := ending_warns h ret
    conv => lhs; unfold parseBurnW
    simp only [h1, if_true]
    exact this
  | lastName h1 => exact short (nostart (by simp [h1])) (by simp [parseBurnW, Entry.item, h1])
  | noSecond h1 h2 => exact short (nostart (by simp [h1])) (by simp [parseBurnW, Entry.item, h1, h2])
  | table h1 h =>
    refine short (nostart (by simp [h1])) ?_
    cases h with
    | noMore => simp [parseBurnW, Entry.item, h1]
    | other h => simp [parseBurnW, Entry.item, h1, h]
    | later h2 h =>
      cases h with
      | noMore => simp [parseBurnW, Entry.item, h1, h2]
      | other h => simp [parseBurnW, Entry.item, h1, h2, h]
      | later h2 h => cases h
  | script h1 h =>
    cases h with
    | noMore => exact short (fun _ h => by cases h) (by simp [parseBurnW, Entry.item, h1])
    | other h => exact short (fun _ h' => by cases h'; contradiction) (by simp [parseBurnW, Entry.item, h1, h])
    | later h2 h =>
      cases h with
      | noMore => exact short (fun _ h => by cases h) (by simp [parseBurnW, Entry.item, h1, h2])
      | other h => exact short (fun _ h' => by cases h'; contradiction) (by simp [parseBurnW, Entry.item, h1, h2, h])
      | later h3 h =>
        cases h with
        | noMore => exact short (fun _ h => by cases h) (by simp [parseBurnW, Entry.item, h1, h2, h3])
  | manyScripts h1 h2 h3 h4 h5 =>
    refine long h1 h2 h3 ?_
    simp only [parseBurnW, h1, h2, h3, Entry.item, reduceCtorEq, if_false, if_true]
    rw [warned_then_ok (blockW_ok h4)]
    simp [h5]
  | noScript h1 h2 h3 h4 =>
    refine long h1 h2 h3 ?_
    simp only [parseBurnW, h1, h2, h3, Entry.item, reduceCtorEq, if_false, if_true]
    rw [warned_then_ok (blockW_ok h4)]
    simp [idx, Warned.andThen]
  | brokenScript h1 h2 h3 h4 =>
    refine long h1 h2 h3 ?_
    simp only [parseBurnW, h1, h2, h3, Entry.item, reduceCtorEq, if_false, if_true]
    rw [warned_then_error (blockW_error h4)]

/-- The warnings after a declaration. -/
def declWarnsAfter (ret : FmpFile) : Option (List BurnTok) → List Warning
  | none => []
  | some r => (parseBurnW .top ret r).1

theorem entryBlocks_warns {e : Entry} {ts : List BurnTok} {bs : List Str} {x : Option (List BurnTok)} (h : EntryBlocks e ts bs x)
    (ret : FmpFile) : ∃ ret', (parseBurnW (.item e.item) ret ts).1 = blocksWarn bs ++ declWarnsAfter ret' x := by
  induction h with
  | ends h => exact ⟨_, entryEnds_warns h ret⟩
  | fails h hb => exact ⟨ret, (entryFails_warns h ret).1 hb⟩
  | failsAfter h hb => exact ⟨ret, by rw [(entryFails_warns h ret).2 _ hb]; simp [blocksWarn, declWarnsAfter]⟩
  | block h _ ih =>
    obtain ⟨ret', ih⟩ := ih
    exact ⟨ret', by rw [entryBlock_warns h, ih]; simp [blocksWarn]⟩
  | phrase h hw _ ih =>
    obtain ⟨ret', ih⟩ := ih
    exact ⟨ret', by rw [entryPhrase_warns h hw, ih]⟩

theorem programBlocks_warns {ts : List BurnTok} {bs : List Str} (h : ProgramBlocks ts bs) (ret : FmpFile) :
    (parseBurnW .top ret ts).1 = blocksWarn bs := by
  induction h generalizing ret with
  | nil => rfl
  | entry hs hb _ ih =>
    obtain ⟨ret', e⟩ := entryBlocks_warns hb ret
    rw [entryStarts_warns hs, e]
    simp only [declWarnsAfter]
    rw [ih]; simp [blocksWarn]
  | brokenEntry hs hb =>
    obtain ⟨ret', e⟩ := entryBlocks_warns hb ret
    rw [entryStarts_warns hs, e]; simp [declWarnsAfter]
  | scripts h1 h2 h3 h4 h5 _ ih =>
    simp only [parseBurnW, h1, h2, h3, if_true]
    rw [warned_then_ok (blockW_ok h4)]
    simp only [h5, if_true]
    rw [ih]; simp [blocksWarn]
  | brokenBlock hs hb =>
    cases hs with
    | intro h1 h2 h3 =>
      simp only [parseBurnW, h1, h2, h3, if_true]
      rw [warned_then_error (blockW_error hb)]; simp [blocksWarn]
  | @openBlock t c o b r f hs h =>
    cases hs with
    | intro h1 h2 h3 =>
      simp only [parseBurnW, h1, h2, h3, if_true]
      rcases block_or b.text with ⟨fs, hf⟩ | ⟨p, hf⟩
      · rw [warned_then_ok (blockW_ok hf)]
        cases h with
        | noMore => simp [parseBurnW, blocksWarn]
        | other h => simp [parseBurnW, h, blocksWarn]
        | later _ h => cases h
      · rw [warned_then_error (blockW_error hf)]; simp [blocksWarn]
  | @nothing ts hne hs hb =>
    cases ts with
    | nil => contradiction
    | cons t r =>
      obtain ⟨ty, v⟩ := t
      cases ty
      case table =>
        cases r with
        | nil => simp [parseBurnW, blocksWarn]
        | cons n r =>
          have : n.ty ≠ .identifier := fun h => hs [_, n] r _ rfl (.table rfl h)
          simp [parseBurnW, this, blocksWarn]
      case valueList =>
        cases r with
        | nil => simp [parseBurnW, blocksWarn]
        | cons n r =>
          have : n.ty ≠ .identifier := fun h => hs [_, n] r _ rfl (.valueList rfl h)
          simp [parseBurnW, this, blocksWarn]
      case tableOccurence =>
        cases r with
        | nil => simp [parseBurnW, blocksWarn]
        | cons n r =>
          have : n.ty ≠ .identifier := fun h => hs [_, n] r _ rfl (.occurrence rfl h)
          simp [parseBurnW, this, blocksWarn]
      case test =>
        cases r with
        | nil => simp [parseBurnW, blocksWarn]
        | cons n r =>
          have : n.ty ≠ .identifier := fun h => hs [_, n] r _ rfl (.test rfl h)
          simp [parseBurnW, this, blocksWarn]
      case relationship =>
        cases r with
        | nil => simp [parseBurnW, blocksWarn]
        | cons n r =>
          have : n.ty ≠ .colon := fun h => hs [_, n] r _ rfl (.relationship rfl h)
          simp [parseBurnW, this, blocksWarn]
      case script =>
        rcases r with _ | ⟨c, _ | ⟨o, _ | ⟨b, r⟩⟩⟩
        · simp [parseBurnW, blocksWarn]
        · by_cases hc : c.ty = .colon <;> simp [parseBurnW, blocksWarn, hc]
        · by_cases hc : c.ty = .colon <;> by_cases ho : o.ty = .openSquare <;> simp [parseBurnW, blocksWarn, hc, ho]
        · by_cases hc : c.ty = .colon
          · by_cases ho : o.ty = .openSquare
            · exact absurd (.intro rfl hc ho) (hb b.text)
            · simp [parseBurnW, blocksWarn, hc, ho]
          · simp [parseBurnW, blocksWarn, hc]
      all_goals simp [parseBurnW, blocksWarn]

theorem entryBlocks_total (e : Entry) (ts : List BurnTok) (ha : ∀ t ∈ ts, t.ty ≠ .assertionBlock) :
    ∃ bs x, EntryBlocks e ts bs x ∧ ∀ r, x = some r → ∃ pre, ts = pre ++ r := by
  induction hn : ts.length using Nat.strongRecOn generalizing ts e with
  | _ n ih =>
    rcases entry_or e ts ha with ⟨w, r, rfl, h⟩ | ⟨f, h⟩ | ⟨w, e', r, rfl, hw, h⟩
    · exact ⟨_, _, .ends h, fun _ e => by cases e; exact ⟨w, rfl⟩⟩
    · by_cases hb : ∃ text, StartsBlock ts text
      · obtain ⟨text, hb⟩ := hb
        exact ⟨_, _, .failsAfter h hb, fun _ e => by cases e⟩
      · exact ⟨_, _, .fails h (fun text h => hb ⟨text, h⟩), fun _ e => by cases e⟩
    · have hw' := List.length_pos_iff.mpr hw
      rw [List.length_append] at hn
      obtain ⟨bs, x, hb, hx⟩ := ih r.length (by omega) e' r (fun t ht => ha t (List.mem_append_right _ ht)) rfl
      have hx' : ∀ q, x = some q → ∃ pre, w ++ r = pre ++ q := by
        intro q hq
        obtain ⟨pre, rfl⟩ := hx q hq
        exact ⟨w ++ pre, by simp⟩
      by_cases h4 : w.length < 4
      · exact ⟨_, _, .phrase h h4 hb, hx'⟩
      · cases h with
        | script h1 h2 h3 h5 => exact ⟨_, _, .block (.script h1 h2 h3 h5) hb, hx'⟩
        | _ => simp at h4

theorem programBlocks_total (ts : List BurnTok) (ha : ∀ t ∈ ts, t.ty ≠ .assertionBlock) : ∃ bs, ProgramBlocks ts bs := by
  induction hn : ts.length using Nat.strongRecOn generalizing ts with
  | _ m ih =>
    by_cases hne : ts = []
    · subst hne; exact ⟨_, .nil⟩
    by_cases hs : ∃ w r e, ts = w ++ r ∧ EntryStarts w e
    · obtain ⟨w, b, e, rfl, hs⟩ := hs
      have hw : 0 < w.length := by cases hs <;> simp
      rw [List.length_append] at hn
      obtain ⟨bs, x, hb, hx⟩ := entryBlocks_total e b (fun t ht => ha t (List.mem_append_right _ ht))
      cases x with
      | none => exact ⟨_, .brokenEntry hs hb⟩
      | some r =>
        obtain ⟨pre, rfl⟩ := hx r rfl
        rw [List.length_append] at hn
        obtain ⟨bs', h'⟩ := ih r.length (by omega) r
          (fun t ht => ha t (List.mem_append_right _ (List.mem_append_right _ ht))) rfl
        exact ⟨_, .entry hs hb h'⟩
    by_cases hb : ∃ text, StartsBlock ts text
    · obtain ⟨text, hb⟩ := hb
      cases hb with
      | @intro t c o b r h1 h2 h3 =>
        rcases block_or b.text with ⟨fs, hf⟩ | ⟨p, hf⟩
        · rcases expected_or .closeSquare [] r with ⟨f, h'⟩ | ⟨z, r, rfl, hz⟩
          · exact ⟨_, .openBlock (.intro h1 h2 h3) h'⟩
          · simp only [List.length_cons] at hn
            obtain ⟨bs, h'⟩ := ih r.length (by omega) r (fun t ht => ha t (by simp [ht])) rfl
            exact ⟨_, .scripts h1 h2 h3 hf hz h'⟩
        · exact ⟨_, .brokenBlock (.intro h1 h2 h3) hf⟩
    · exact ⟨_, .nothing hne (fun w r e h1 h2 => hs ⟨w, r, e, h1, h2⟩) (fun text h => hb ⟨text, h⟩)⟩

theorem programSays_iff (ts : List BurnTok) (ha : ∀ t ∈ ts, t.ty ≠ .assertionBlock) (ws : List Warning) :
    (parseBurnW .top {} ts).1 = ws ↔ ProgramSays ts ws := by
  constructor
  · rintro rfl
    obtain ⟨bs, h⟩ := programBlocks_total ts ha
    rw [programBlocks_warns h]
    exact .intro h fun b _ => (blockSays_iff b _).mp rfl
  · rintro ⟨h, hb⟩
    rw [programBlocks_warns h]
    unfold blocksWarn
    rw [List.flatMap_congr]
    intro b hm
    exact (blockSays_iff b _).mpr (hb b hm)

end BurnFm
