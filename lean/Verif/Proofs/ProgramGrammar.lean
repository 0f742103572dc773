import Verif.Spec.ProgramGrammar
import Verif.Spec.ProgramCut
import Verif.Proofs.ProgramCut
import Verif.Proofs.ScriptGrammar
import Mathlib.Data.List.Induction

/-! The parser of programs on any tokens. -/

namespace BurnFm
open Spec

/-- The declaration as the parser keeps it. -/
def Spec.Entry.item : Entry → BurnItem
  | .table n => .table { name := n }
  | .relationship a b => .relationship { table1Name := a, table2Name := b }
  | .valueList n => .valueList { name := n }
  | .occurrence n t => .occurrence { name := n, tableActualName := t }
  | .test n s => .test { name := n, script := s }

/-- What the parser does with a declaration. -/
def addDeclared (f : FmpFile) : Declared → FmpFile
  | .entry e => f.addItem e.item
  | .scripts fs => f.addScripts fs

/-- The result of the parser for a failure. -/
def Spec.Failure.result : Failure → Res (Option FmpFile)
  | .refused => .ok none
  | .crash p => .error p

theorem entry_keyword (e : Entry) : e.item.keyword = e.ending := by cases e <;> rfl

/-! ### The scripts of a block -/

theorem blockOf_iff (s : Str) (fs : List FScript) : compileScripts s = .ok fs ↔ BlockOf s fs := by
  constructor
  · intro h
    unfold compileScripts at h
    cases hl : lexScript s with
    | error p => rw [hl] at h; cases h
    | ok ts =>
      rw [hl, ok_bind] at h
      refine ⟨ts, (lexScript_iff s ts).mp hl, ?_⟩
      cases hp : parseScripts .top [] {} [] ts with
      | error p => rw [hp] at h; cases h
      | ok o =>
        rw [hp, ok_bind] at h
        cases o with
        | none => cases h
        | some gs => cases h; exact (parseScripts_iff ts _).mp hp
  · rintro ⟨ts, h1, h2⟩
    unfold compileScripts
    rw [(lexScript_iff s ts).mpr h1, ok_bind, (parseScripts_iff ts fs).mpr h2, ok_bind]
    rfl

theorem blockBreaks_iff (s : Str) (p : Panic) : compileScripts s = .error p ↔ BlockBreaks s p := by
  constructor
  · intro h
    unfold compileScripts at h
    cases hl : lexScript s with
    | error q => rw [hl] at h; cases h; exact .inl ((lexScript_error_iff s _).mp hl)
    | ok ts =>
      rw [hl, ok_bind] at h
      refine .inr ⟨ts, (lexScript_iff s ts).mp hl, ?_⟩
      cases hp : parseScripts .top [] {} [] ts with
      | error q => rw [hp] at h; cases h; exact (parseScripts_error_iff ts _).mp hp
      | ok o =>
        rw [hp, ok_bind] at h
        cases o with
        | none =>
          rcases scripts_or [] ts with ⟨gs, hs⟩ | ⟨q, hs⟩
          · have := (parseScripts_iff ts gs).mpr hs
            rw [hp] at this; cases this
          · have := (parseScripts_error_iff ts q).mpr hs
            rw [hp] at this; cases this
        | some gs => cases h
  · rintro (⟨rfl, h⟩ | ⟨ts, h1, h2⟩)
    · unfold compileScripts
      rw [(lexScript_error_iff s .unwrap).mpr ⟨rfl, h⟩]; rfl
    · unfold compileScripts
      rw [(lexScript_iff s ts).mpr h1, ok_bind, (parseScripts_error_iff ts p).mpr h2]; rfl

/-! ### The parser -/

theorem entryStarts_parse {w : List BurnTok} {e : Entry} (h : EntryStarts w e) (ret : FmpFile) (r : List BurnTok) :
    parseBurn .top ret (w ++ r) = parseBurn (.item e.item) ret r := by
  cases h with
  | _ h1 h2 => simp [parseBurn, h1, h2, BurnItem.named, Entry.item]

theorem entryPhrase_parse {e e' : Entry} {w r : List BurnTok} (h : EntryPhrase e w e' r) (ret : FmpFile) :
    parseBurn (.item e.item) ret (w ++ r) = parseBurn (.item e'.item) ret r := by
  cases h with
  | tables h1 h2 => simp [parseBurn, h1, h2, Entry.item]
  | noColon h1 h2 =>
    rw [List.singleton_append]
    conv => lhs; unfold parseBurn
    simp [h1, h2, Entry.item]
  | table h1 h2 h3 => simp [parseBurn, h1, h2, h3, Entry.item]
  | script h1 h2 h3 h4 => simp [parseBurn, h1, h2, h3, (blockOf_iff _ _).mpr h4, Entry.item, ok_bind, idx]
  | skip h1 h2 =>
    rw [List.singleton_append]
    conv => lhs; unfold parseBurn
    cases e <;> simp [Special] at h2 <;> simp [h1, h2, Entry.item]

theorem entryEnds_parse {e : Entry} {w r : List BurnTok} (h : EntryEnds e w r) (ret : FmpFile) :
    parseBurn (.item e.item) ret (w ++ r) = parseBurn .top (ret.addItem e.item) r := by
  cases h with
  | closed h1 h2 h3 => simp [parseBurn, h1, entry_keyword, h2, h3]
  | noMore => simp [parseBurn]

theorem ending_parse {i : BurnItem} {ks : List BurnTok} {f : Failure}
    (h : Expected [some i.keyword, some .semiColon] ks f) (ret : FmpFile) : parseBurn (.itemEnd i) ret ks = f.result := by
  cases h with
  | noMore => simp [parseBurn, Failure.result]
  | other h => simp [parseBurn, Failure.result, h]
  | later h1 h =>
    cases h with
    | noMore => simp [parseBurn, Failure.result, h1]
    | other h => simp [parseBurn, Failure.result, h1, h]
    | later h2 h => cases h

theorem entryFails_parse {e : Entry} {ts : List BurnTok} {f : Failure} (h : EntryFails e ts f) (ret : FmpFile) :
    parseBurn (.item e.item) ret ts = f.result := by
  cases h with
  | ending h1 h =>
    rw [← entry_keyword] at h
    have := ending_parse h ret
    conv => lhs; unfold parseBurn
    simp only [h1, if_true]
    exact this
  | lastName h1 => simp [parseBurn, Entry.item, h1, Failure.result]
  | noSecond h1 h2 => simp [parseBurn, Entry.item, h1, h2, Failure.result]
  | table h1 h =>
    cases h with
    | noMore => simp [parseBurn, Failure.result, Entry.item, h1]
    | other h => simp [parseBurn, Failure.result, Entry.item, h1, h]
    | later h2 h =>
      cases h with
      | noMore => simp [parseBurn, Failure.result, Entry.item, h1, h2]
      | other h => simp [parseBurn, Failure.result, Entry.item, h1, h2, h]
      | later h2 h => cases h
  | script h1 h =>
    cases h with
    | noMore => simp [parseBurn, Failure.result, Entry.item, h1]
    | other h => simp [parseBurn, Failure.result, Entry.item, h1, h]
    | later h2 h =>
      cases h with
      | noMore => simp [parseBurn, Failure.result, Entry.item, h1, h2]
      | other h => simp [parseBurn, Failure.result, Entry.item, h1, h2, h]
      | later h3 h =>
        cases h with
        | noMore => simp [parseBurn, Failure.result, Entry.item, h1, h2, h3]
  | manyScripts h1 h2 h3 h4 h5 =>
    simp [parseBurn, h1, h2, h3, (blockOf_iff _ _).mpr h4, Entry.item, ok_bind, h5, Failure.result]
  | noScript h1 h2 h3 h4 =>
    simp [parseBurn, h1, h2, h3, (blockOf_iff _ _).mpr h4, Entry.item, ok_bind, idx, Failure.result, bind, Except.bind]
  | brokenScript h1 h2 h3 h4 =>
    simp [parseBurn, h1, h2, h3, (blockBreaks_iff _ _).mpr h4, Entry.item, Failure.result, bind, Except.bind]

theorem expected_or (k : BurnTokType) (ks : List (Option BurnTokType)) (ts : List BurnTok) :
    (∃ f, Expected (some k :: ks) ts f) ∨ ∃ t r, ts = t :: r ∧ t.ty = k := by
  cases ts with
  | nil => exact .inl ⟨_, .noMore⟩
  | cons t r =>
    by_cases h : t.ty = k
    · exact .inr ⟨t, r, rfl, h⟩
    · exact .inl ⟨_, .other h⟩

theorem block_or (s : Str) : (∃ fs, BlockOf s fs) ∨ ∃ p, BlockBreaks s p := by
  cases h : compileScripts s with
  | ok fs => exact .inl ⟨fs, (blockOf_iff s fs).mp h⟩
  | error p => exact .inr ⟨p, (blockBreaks_iff s p).mp h⟩

theorem blockToks_or (ts : List BurnTok) : (∃ f, Expected [some .colon, some .openSquare, none] ts f) ∨
    ∃ c o b r, ts = c :: o :: b :: r ∧ c.ty = .colon ∧ o.ty = .openSquare := by
  rcases expected_or .colon [some .openSquare, none] ts with h | ⟨c, r, rfl, hc⟩
  · exact .inl h
  · rcases expected_or .openSquare [none] r with ⟨f, h⟩ | ⟨o, r, rfl, ho⟩
    · exact .inl ⟨f, .later hc h⟩
    · cases r with
      | nil => exact .inl ⟨_, .later hc (.later ho .noMore)⟩
      | cons b r => exact .inr ⟨c, o, b, r, rfl, hc, ho⟩

theorem entry_or (e : Entry) (ts : List BurnTok) (ha : ∀ t ∈ ts, t.ty ≠ .assertionBlock) :
    (∃ w r, ts = w ++ r ∧ EntryEnds e w r) ∨ (∃ f, EntryFails e ts f) ∨
      ∃ w e' r, ts = w ++ r ∧ w ≠ [] ∧ EntryPhrase e w e' r := by
  cases ts with
  | nil => exact .inl ⟨[], [], rfl, .noMore⟩
  | cons t ts =>
    by_cases hend : t.ty = .end
    · rcases expected_or e.ending [some .semiColon] ts with ⟨f, h⟩ | ⟨k, r, rfl, hk⟩
      · exact .inr (.inl ⟨f, .ending hend h⟩)
      · rcases expected_or .semiColon [] r with ⟨f, h⟩ | ⟨s, r, rfl, hs⟩
        · exact .inr (.inl ⟨f, .ending hend (.later hk h)⟩)
        · exact .inl ⟨[t, k, s], r, rfl, .closed hend hk hs⟩
    by_cases hs : Special e t
    · cases e with
      | table => exact absurd hs id
      | valueList => exact absurd hs id
      | relationship x y =>
        replace hs : t.ty = .identifier := hs
        cases ts with
        | nil => exact .inr (.inl ⟨_, .lastName hs⟩)
        | cons c ts =>
          by_cases hc : c.ty = .colon
          · cases ts with
            | nil => exact .inr (.inl ⟨_, .noSecond hs hc⟩)
            | cons b ts => exact .inr (.inr ⟨[t, c, b], _, ts, rfl, by simp, .tables hs hc⟩)
          · exact .inr (.inr ⟨[t], _, c :: ts, rfl, by simp, .noColon hs hc⟩)
      | occurrence n x =>
        replace hs : t.ty = .table := hs
        rcases expected_or .colon [some .identifier] ts with ⟨f, h⟩ | ⟨c, r, rfl, hc⟩
        · exact .inr (.inl ⟨f, .table hs h⟩)
        · rcases expected_or .identifier [] r with ⟨f, h⟩ | ⟨b, r, rfl, hb⟩
          · exact .inr (.inl ⟨f, .table hs (.later hc h)⟩)
          · exact .inr (.inr ⟨[t, c, b], _, r, rfl, by simp, .table hs hc hb⟩)
      | test n x =>
        replace hs : t.ty = .script := by
          rcases hs with hs | hs
          · exact hs
          · exact absurd hs (ha t (by simp))
        rcases blockToks_or ts with ⟨f, h⟩ | ⟨c, o, b, r, rfl, hc, ho⟩
        · exact .inr (.inl ⟨f, .script hs h⟩)
        · rcases block_or b.text with ⟨fs, h⟩ | ⟨p, h⟩
          · rcases fs with _ | ⟨s, _ | ⟨s', fs⟩⟩
            · exact .inr (.inl ⟨_, .noScript hs hc ho h⟩)
            · exact .inr (.inr ⟨[t, c, o, b], _, r, rfl, by simp, .script hs hc ho h⟩)
            · exact .inr (.inl ⟨_, .manyScripts hs hc ho h (by simp)⟩)
          · exact .inr (.inl ⟨_, .brokenScript hs hc ho h⟩)
    · exact .inr (.inr ⟨[t], e, ts, rfl, by simp, .skip hend hs⟩)

theorem entryBody_parse {e e' : Entry} {ts r : List BurnTok} (h : EntryBody e ts e' r) (ret : FmpFile) :
    parseBurn (.item e.item) ret ts = parseBurn .top (ret.addItem e'.item) r := by
  induction h with
  | ends h => exact entryEnds_parse h ret
  | phrase hp _ ih => rw [entryPhrase_parse hp, ih]

theorem brokenEntry_parse {e : Entry} {ts : List BurnTok} {f : Failure} (h : BrokenEntry e ts f) (ret : FmpFile) :
    parseBurn (.item e.item) ret ts = f.result := by
  induction h with
  | here h => exact entryFails_parse h ret
  | phrase hp _ ih => rw [entryPhrase_parse hp, ih]

theorem entryBody_or (e : Entry) (ts : List BurnTok) (ha : ∀ t ∈ ts, t.ty ≠ .assertionBlock) :
    (∃ e' r pre, EntryBody e ts e' r ∧ ts = pre ++ r) ∨ ∃ f, BrokenEntry e ts f := by
  induction hn : ts.length using Nat.strongRecOn generalizing ts e with
  | _ n ih =>
    rcases entry_or e ts ha with ⟨w, r, rfl, h⟩ | ⟨f, h⟩ | ⟨w, e', r, rfl, hw, h⟩
    · exact .inl ⟨_, r, w, .ends h, rfl⟩
    · exact .inr ⟨f, .here h⟩
    · have hw := List.length_pos_iff.mpr hw
      rw [List.length_append] at hn
      rcases ih r.length (by omega) e' r (fun t ht => ha t (List.mem_append_right _ ht)) rfl with ⟨e'', r', pre, hb, rfl⟩ | ⟨f, hb⟩
      · exact .inl ⟨_, r', w ++ pre, .phrase h hb, by simp⟩
      · exact .inr ⟨f, .phrase h hb⟩

theorem programOf_parse {ts : List BurnTok} {ds : List Declared} (h : ProgramOf ts ds) (ret : FmpFile) :
    parseBurn .top ret ts = .ok (some (ds.foldl addDeclared ret)) := by
  induction h generalizing ret with
  | nil => rfl
  | entry hs hb _ ih => rw [entryStarts_parse hs, entryBody_parse hb, ih]; rfl
  | scripts h1 h2 h3 h4 h5 _ ih =>
    simp only [parseBurn, h1, h2, h3, (blockOf_iff _ _).mpr h4, ok_bind, h5, if_true]
    exact ih _

theorem programFails_parse {ts : List BurnTok} {f : Failure} (h : ProgramFails ts f) (ret : FmpFile) :
    parseBurn .top ret ts = f.result := by
  induction h generalizing ret with
  | @noDeclaration t r h =>
    obtain ⟨ty, v⟩ := t
    unfold parseBurn
    cases ty <;> simp at h <;> rfl
  | noName h1 h =>
    simp only [List.mem_cons, List.not_mem_nil, or_false] at h1
    cases h with
    | noMore => rcases h1 with h1 | h1 | h1 | h1 <;> simp [parseBurn, h1, Failure.result]
    | other h => rcases h1 with h1 | h1 | h1 | h1 <;> simp [parseBurn, h1, h, Failure.result]
    | later _ h => cases h
  | noColon h1 h =>
    cases h with
    | noMore => simp [parseBurn, h1, Failure.result]
    | other h => simp [parseBurn, h1, h, Failure.result]
    | later _ h => cases h
  | noBlock h1 h =>
    cases h with
    | noMore => simp [parseBurn, Failure.result, h1]
    | other h => simp [parseBurn, Failure.result, h1, h]
    | later h2 h =>
      cases h with
      | noMore => simp [parseBurn, Failure.result, h1, h2]
      | other h => simp [parseBurn, Failure.result, h1, h2, h]
      | later h3 h =>
        cases h with
        | noMore => simp [parseBurn, Failure.result, h1, h2, h3]
  | brokenBlock h1 h2 h3 h4 =>
    simp [parseBurn, h1, h2, h3, (blockBreaks_iff _ _).mpr h4, Failure.result, bind, Except.bind]
  | openBlock h1 h2 h3 h4 h =>
    simp only [parseBurn, h1, h2, h3, (blockOf_iff _ _).mpr h4, ok_bind, if_true]
    cases h with
    | noMore => simp [parseBurn, Failure.result]
    | other h => simp [parseBurn, Failure.result, h]
    | later _ h => cases h
  | entry hs hb => rw [entryStarts_parse hs, brokenEntry_parse hb]
  | afterEntry hs hb _ ih => rw [entryStarts_parse hs, entryBody_parse hb, ih]
  | afterScripts h1 h2 h3 h4 h5 _ ih =>
    simp only [parseBurn, h1, h2, h3, (blockOf_iff _ _).mpr h4, ok_bind, h5, if_true]
    exact ih _

theorem starts_or {t : BurnTok} (h : t.ty ∈ [.table, .valueList, .tableOccurence, .test]) (ts : List BurnTok) :
    (∃ f, Expected [some .identifier] ts f) ∨ ∃ n r e, ts = n :: r ∧ EntryStarts [t, n] e := by
  rcases expected_or .identifier [] ts with h' | ⟨n, r, rfl, hn⟩
  · exact .inl h'
  · simp only [List.mem_cons, List.not_mem_nil, or_false] at h
    rcases h with h | h | h | h
    · exact .inr ⟨n, r, _, rfl, .table h hn⟩
    · exact .inr ⟨n, r, _, rfl, .valueList h hn⟩
    · exact .inr ⟨n, r, _, rfl, .occurrence h hn⟩
    · exact .inr ⟨n, r, _, rfl, .test h hn⟩

theorem program_or (ts : List BurnTok) (ha : ∀ t ∈ ts, t.ty ≠ .assertionBlock) :
    (∃ ds, ProgramOf ts ds) ∨ ∃ f, ProgramFails ts f := by
  induction hn : ts.length using Nat.strongRecOn generalizing ts with
  | _ m ih =>
    have go : ∀ (w b : List BurnTok) (e : Entry), ts = w ++ b → w ≠ [] → EntryStarts w e →
        (∃ ds, ProgramOf ts ds) ∨ ∃ f, ProgramFails ts f := by
      rintro w b e rfl hw hs
      have hw := List.length_pos_iff.mpr hw
      rw [List.length_append] at hn
      rcases entryBody_or e b (fun t ht => ha t (List.mem_append_right _ ht)) with ⟨e', r, pre, hb, rfl⟩ | ⟨f, hb⟩
      · rw [List.length_append] at hn
        rcases ih r.length (by omega) r
          (fun t ht => ha t (List.mem_append_right _ (List.mem_append_right _ ht))) rfl with ⟨ds, h⟩ | ⟨f, h⟩
        · exact .inl ⟨_, .entry hs hb h⟩
        · exact .inr ⟨f, .afterEntry hs hb h⟩
      · exact .inr ⟨f, .entry hs hb⟩
    cases ts with
    | nil => exact .inl ⟨_, .nil⟩
    | cons t ts =>
      by_cases h1 : t.ty ∈ [BurnTokType.table, .valueList, .tableOccurence, .test]
      · rcases starts_or h1 ts with ⟨f, h⟩ | ⟨n, r, e, rfl, hs⟩
        · exact .inr ⟨f, .noName h1 h⟩
        · exact go [t, n] r e rfl (by simp) hs
      by_cases h2 : t.ty = .relationship
      · rcases expected_or .colon [] ts with ⟨f, h⟩ | ⟨c, r, rfl, hc⟩
        · exact .inr ⟨f, .noColon h2 h⟩
        · exact go [t, c] r _ rfl (by simp) (.relationship h2 hc)
      by_cases h3 : t.ty = .script
      · rcases blockToks_or ts with ⟨f, h⟩ | ⟨c, o, b, r, rfl, hc, ho⟩
        · exact .inr ⟨f, .noBlock h3 h⟩
        · rcases block_or b.text with ⟨fs, h⟩ | ⟨p, h⟩
          · rcases expected_or .closeSquare [] r with ⟨f, h'⟩ | ⟨z, r, rfl, hz⟩
            · exact .inr ⟨f, .openBlock h3 hc ho h h'⟩
            · simp only [List.length_cons] at hn
              rcases ih r.length (by omega) r (fun t ht => ha t (by simp [ht])) rfl with ⟨ds, h'⟩ | ⟨f, h'⟩
              · exact .inl ⟨_, .scripts h3 hc ho h hz h'⟩
              · exact .inr ⟨f, .afterScripts h3 hc ho h hz h'⟩
          · exact .inr ⟨_, .brokenBlock h3 hc ho h⟩
      · refine .inr ⟨_, .noDeclaration ?_⟩
        simp only [List.mem_cons, List.not_mem_nil, or_false, not_or] at h1 ⊢
        exact ⟨h1.1, h2, h1.2.1, h3, h1.2.2.1, h1.2.2.2⟩

theorem result_inj {f g : Failure} (h : f.result = g.result) : f = g := by
  cases f <;> cases g <;> simp [Failure.result] at h ⊢
  exact h

theorem parseBurn_iff (ts : List BurnTok) (ha : ∀ t ∈ ts, t.ty ≠ .assertionBlock) (f : FmpFile) :
    parseBurn .top {} ts = .ok (some f) ↔ ∃ ds, ProgramOf ts ds ∧ f = ds.foldl addDeclared {} := by
  constructor
  · intro h
    rcases program_or ts ha with ⟨ds, hs⟩ | ⟨g, hs⟩
    · have := programOf_parse hs {}
      rw [h] at this
      cases this
      exact ⟨ds, hs, rfl⟩
    · have := programFails_parse hs {}
      rw [h] at this
      cases g <;> cases this
  · rintro ⟨ds, h, rfl⟩
    exact programOf_parse h {}

theorem parseBurn_fails_iff (ts : List BurnTok) (ha : ∀ t ∈ ts, t.ty ≠ .assertionBlock) (g : Failure) :
    parseBurn .top {} ts = g.result ↔ ProgramFails ts g := by
  constructor
  · intro h
    rcases program_or ts ha with ⟨ds, hs⟩ | ⟨f, hs⟩
    · have := programOf_parse hs {}
      rw [h] at this
      cases g <;> cases this
    · have := programFails_parse hs {}
      rw [h] at this
      rw [result_inj this]; exact hs
  · intro h
    exact programFails_parse h {}

/-! ### The file -/

theorem declared_tables (ds : List Declared) : (ds.foldl addDeclared {}).tables = numbered 1 (ds.filterMap Declared.table?) := by
  induction ds using List.reverseRecOn with
  | nil => rfl
  | append_singleton ds d ih =>
    rw [List.foldl_append, List.filterMap_append]
    rcases d with (_ | _ | _ | _ | _) | _ <;> simp [addDeclared, Entry.item, FmpFile.addItem, FmpFile.addScripts, Declared.table?, List.filterMap_cons, ih]
    rw [numbered_length, Nat.add_comm, numbered_insert]

theorem declared_valueLists (ds : List Declared) : (ds.foldl addDeclared {}).valueLists = numbered 1 (ds.filterMap Declared.valueList?) := by
  induction ds using List.reverseRecOn with
  | nil => rfl
  | append_singleton ds d ih =>
    rw [List.foldl_append, List.filterMap_append]
    rcases d with (_ | _ | _ | _ | _) | _ <;> simp [addDeclared, Entry.item, FmpFile.addItem, FmpFile.addScripts, Declared.valueList?, List.filterMap_cons, ih]
    rw [numbered_length, Nat.add_comm, numbered_insert]

theorem declared_occurrences (ds : List Declared) :
    (ds.foldl addDeclared {}).tableOccurrences = numbered 0 (ds.filterMap Declared.occurrence?) := by
  induction ds using List.reverseRecOn with
  | nil => rfl
  | append_singleton ds d ih =>
    rw [List.foldl_append, List.filterMap_append]
    rcases d with (_ | _ | _ | _ | _) | _ <;> simp [addDeclared, Entry.item, FmpFile.addItem, FmpFile.addScripts, Declared.occurrence?, List.filterMap_cons, ih]
    rw [numbered_length]
    rename_i n t
    simpa using numbered_insert (ds.filterMap Declared.occurrence?) { name := n, tableActualName := t } 0

theorem declared_scripts (ds : List Declared) : (ds.foldl addDeclared {}).scripts = numbered 1 (ds.flatMap Declared.scripts?) := by
  induction ds using List.reverseRecOn with
  | nil => rfl
  | append_singleton ds d ih =>
    rw [List.foldl_append, List.flatMap_append]
    rcases d with (_ | _ | _ | _ | _) | _ <;> simp only [List.foldl_cons, List.foldl_nil, addDeclared, Entry.item, FmpFile.addItem, FmpFile.addScripts, ih]
    all_goals first | (rw [numbered_inserts]; simp [Declared.scripts?]; done) | simp [Declared.scripts?]

theorem declared_tests (ds : List Declared) : (ds.foldl addDeclared {}).tests = ds.filterMap Declared.test? := by
  induction ds using List.reverseRecOn with
  | nil => rfl
  | append_singleton ds d ih =>
    rw [List.foldl_append, List.filterMap_append]
    rcases d with (_ | _ | _ | _ | _) | _ <;> simp [addDeclared, Entry.item, FmpFile.addItem, FmpFile.addScripts, Declared.test?, List.filterMap_cons, ih]

theorem declared_rest (ds : List Declared) :
    (ds.foldl addDeclared {}).layouts = [] ∧ (ds.foldl addDeclared {}).dataSources = [] ∧ (ds.foldl addDeclared {}).name = [] := by
  induction ds using List.reverseRecOn with
  | nil => exact ⟨rfl, rfl, rfl⟩
  | append_singleton ds d ih =>
    rw [List.foldl_append]
    rcases d with (_ | _ | _ | _ | _) | _ <;> exact ih

theorem declaredTables_append (a b : List Declared) : declaredTables (a ++ b) = declaredTables a + declaredTables b := by
  simp [declaredTables]

theorem declaredTables_rel {d : Declared} (h : d.relationship? ≠ none) (b : List Declared) : declaredTables (d :: b) = declaredTables b := by
  rcases d with (_ | _ | _ | _ | _) | _ <;> simp [Declared.relationship?] at h
  simp [declaredTables, Declared.table?, List.filterMap_cons]

theorem relationshipIn_append (ds : List Declared) (d : Declared) (k : Nat) (r : FRelationship) :
    RelationshipIn (ds ++ [d]) k r ↔
      (RelationshipIn ds k r ∧ (d.relationship? ≠ none → k ≠ declaredTables ds + 1)) ∨
        (d.relationship? = some r ∧ k = declaredTables ds + 1) := by
  constructor
  · rintro ⟨pre, e, post, h1, h2, h3, h4⟩
    rcases List.eq_nil_or_concat post with rfl | ⟨post', x, rfl⟩
    · obtain ⟨rfl, he⟩ := List.append_inj' h1 rfl
      cases he
      exact .inr ⟨h2, h3⟩
    · rw [List.concat_eq_append] at *
      rw [← List.cons_append, ← List.append_assoc] at h1
      obtain ⟨rfl, he⟩ := List.append_inj' h1 rfl
      cases he
      refine .inl ⟨⟨pre, e, post', rfl, h2, h3, ?_⟩, ?_⟩
      · intro mid d' p hp hd
        exact h4 mid d' (p ++ [d]) (by simp [hp]) hd
      · intro hd hk
        have := h4 post' d [] rfl hd
        rw [declaredTables_append, declaredTables_rel (by simp [h2])] at hk
        omega
  · rintro (⟨⟨pre, e, post, rfl, h2, h3, h4⟩, hk⟩ | ⟨h2, h3⟩)
    · refine ⟨pre, e, post ++ [d], by simp, h2, h3, ?_⟩
      intro mid d' p hp hd hm
      rcases List.eq_nil_or_concat p with rfl | ⟨p', x, rfl⟩
      · obtain ⟨rfl, he⟩ := List.append_inj' hp rfl
        cases he
        refine hk hd ?_
        rw [declaredTables_append, declaredTables_rel (by simp [h2]), hm]
        omega
      · rw [List.concat_eq_append, ← List.cons_append, ← List.append_assoc] at hp
        obtain ⟨rfl, he⟩ := List.append_inj' hp rfl
        exact h4 mid d' p' rfl hd hm
    · refine ⟨ds, d, [], rfl, h2, h3, ?_⟩
      intro mid d' p hp
      cases mid <;> cases hp

theorem declared_relationships (ds : List Declared) (k : Nat) (r : FRelationship) :
    (ds.foldl addDeclared {}).relationships.get k = some r ↔ RelationshipIn ds k r := by
  induction ds using List.reverseRecOn with
  | nil =>
    refine ⟨fun h => (by simp [HMap.get] at h), ?_⟩
    rintro ⟨pre, e, post, h, _⟩
    cases pre <;> cases h
  | append_singleton ds d ih =>
    rw [relationshipIn_append, ← ih, List.foldl_append]
    rcases d with (_ | ⟨a, b⟩ | _ | _ | _) | _
    case entry.relationship =>
      simp only [List.foldl_cons, List.foldl_nil, addDeclared, Entry.item, FmpFile.addItem, declared_tables, numbered_length,
        HMap.get_insert, Declared.relationship?, declaredTables]
      by_cases hk : k = (ds.filterMap Declared.table?).length + 1
      · simp [hk]
      · simp [hk]
    all_goals simp [addDeclared, Entry.item, FmpFile.addItem, FmpFile.addScripts, Declared.relationship?]

theorem declaredFile_file (ds : List Declared) : DeclaredFile ds (ds.foldl addDeclared {}) where
  tables := by rw [declared_tables]; exact numbered_get _ _
  valueLists := by rw [declared_valueLists]; exact numbered_get _ _
  scripts := by rw [declared_scripts]; exact numbered_get _ _
  occurrences := by rw [declared_occurrences]; exact numbered_get _ _
  tests := declared_tests ds
  relationships := declared_relationships ds
  rest := declared_rest ds

/-! ### The lexer makes no token of an assertion -/

theorem programCut_assertions [Rt] {left s : Str} {n : Nat} {ts : List BurnTok} (h : ProgramCut left n s ts) :
    ∀ t ∈ ts, t.ty ≠ .assertionBlock := by
  have hw : ∀ {w : Str} {ts : List BurnTok}, WordTokens w ts → ∀ t ∈ ts, t.ty ≠ .assertionBlock := by
    intro w ts h
    cases h with
    | nothing => simp
    | dropped _ => simp
    | word _ h =>
      cases h with
      | keyword h =>
        simp only [burnKeywords, List.mem_cons, List.not_mem_nil, or_false, Prod.mk.injEq] at h
        rcases h with ⟨rfl, rfl⟩ | ⟨rfl, rfl⟩ | ⟨rfl, rfl⟩ | ⟨rfl, rfl⟩ | ⟨rfl, rfl⟩ | ⟨rfl, rfl⟩ | ⟨rfl, rfl⟩ <;> simp
      | _ => simp
  have hm : ∀ {n : Nat} {u left r : Str} {ts : List BurnTok}, ProgramMark n u ts left r → ∀ t ∈ ts, t.ty ≠ .assertionBlock := by
    intro n u left r ts h
    cases h with
    | mark h =>
      simp only [burnMarks, List.mem_cons, List.not_mem_nil, or_false, Prod.mk.injEq] at h
      rcases h with ⟨rfl, rfl⟩ | ⟨rfl, rfl⟩ | ⟨rfl, rfl⟩ | ⟨rfl, rfl⟩ | ⟨rfl, rfl⟩ | ⟨rfl, rfl⟩ | ⟨rfl, rfl⟩ <;> simp
    | _ => simp
  induction h with
  | ends _ => simp
  | blank _ _ _ h _ ih =>
    intro t ht
    rcases List.mem_append.mp ht with ht | ht
    · exact hw h t ht
    · exact ih t ht
  | mark _ h h' _ ih =>
    intro t ht
    rcases List.mem_append.mp ht with ht | ht
    · rcases List.mem_append.mp ht with ht | ht
      · exact hw h t ht
      · exact hm h' t ht
    · exact ih t ht

end BurnFm
