import Verif.Proofs.Burn
import Verif.Proofs.ScriptKept

/-! Programs as they should be compile without warnings; every definition is a script. -/

namespace BurnFm
open Spec

/-- Compiling a text that spells definitions prints nothing. -/
theorem compileW_defs {ds : List ScriptDef} {ts : List ScriptTok} {s : Str} (hs : ScriptText ts s)
    (hw : WrittenDefs false ds ts) : compileScriptsW s = ([], .ok (ds.map ScriptDef.script)) := by
  unfold compileScriptsW lexScript
  rw [blex_scriptText hs, List.nil_append]
  dsimp only
  rw [parseW_defs hw]
  rfl

theorem parseW_closing {i : BurnItem} {ret : FmpFile} {rest : List BurnTok} :
    parseBurnW (.item i) ret (closing i.keyword ++ rest) = parseBurnW .top (ret.addItem i) rest := by
  cases i <;> simp [closing, parseBurnW, BurnItem.keyword]

theorem parseW_table_inner {t : FTable} {ret : FmpFile} {inner rest : List BurnTok} (h : ∀ t ∈ inner, t.ty ≠ .end) :
    parseBurnW (.item (.table t)) ret (inner ++ rest) = parseBurnW (.item (.table t)) ret rest := by
  induction inner with
  | nil => rfl
  | cons x xs ih =>
    rw [List.cons_append]
    conv => lhs; unfold parseBurnW
    simp [h x (by simp), ih (fun y hy => h y (List.mem_cons_of_mem _ hy))]

theorem parseW_list_inner {t : FValueList} {ret : FmpFile} {inner rest : List BurnTok} (h : ∀ t ∈ inner, t.ty ≠ .end) :
    parseBurnW (.item (.valueList t)) ret (inner ++ rest) = parseBurnW (.item (.valueList t)) ret rest := by
  induction inner with
  | nil => rfl
  | cons x xs ih =>
    rw [List.cons_append]
    conv => lhs; unfold parseBurnW
    simp [h x (by simp), ih (fun y hy => h y (List.mem_cons_of_mem _ hy))]

theorem parseW_rel_inner {r : FRelationship} {ret : FmpFile} {inner rest : List BurnTok}
    (h : ∀ t ∈ inner, t.ty ≠ .end ∧ t.ty ≠ .colon) {e : BurnTok} (he : e.ty ≠ .colon) :
    parseBurnW (.item (.relationship r)) ret (inner ++ e :: rest) = parseBurnW (.item (.relationship r)) ret (e :: rest) := by
  induction inner with
  | nil => rfl
  | cons x xs ih =>
    rw [List.cons_append]
    conv => lhs; unfold parseBurnW
    have ih' := ih (fun y hy => h y (List.mem_cons_of_mem _ hy))
    obtain ⟨c, hc, hcc⟩ : ∃ c, (xs ++ e :: rest).head? = some c ∧ c.ty ≠ .colon := by
      cases xs with
      | nil => exact ⟨e, rfl, he⟩
      | cons y ys => exact ⟨y, rfl, (h y (by simp)).2⟩
    simp [(h x (by simp)).1, ih', hc, hcc]

theorem parseW_block {ds : List ScriptDef} {ts : List BurnTok} (h : BlockToks ds ts) {ret : FmpFile} {rest : List BurnTok} :
    parseBurnW .scriptColon ret (ts ++ rest) = parseBurnW .top (ret.addScripts (ds.map ScriptDef.script)) rest := by
  obtain ⟨hs, hw⟩ := h
  simp [parseBurnW, compileW_defs hs hw, Warned.andThen]

theorem parseW_test_block {d : ScriptDef} {ts : List BurnTok} (h : BlockToks [d] ts) {x : FTest} {ret : FmpFile}
    {rest : List BurnTok} : parseBurnW (.testColon x) ret (ts ++ rest) =
      parseBurnW (.item (.test { x with script := d.script })) ret rest := by
  obtain ⟨hs, hw⟩ := h
  simp [parseBurnW, compileW_defs hs hw, Warned.andThen, idx]

theorem parseW_decl {d : Decl} {ts : List BurnTok} (h : DeclToks d ts) {ret : FmpFile} {rest : List BurnTok} :
    parseBurnW .top ret (ts ++ rest) = parseBurnW .top (addDecl ret d) rest := by
  cases h with
  | table h =>
    have := parseW_closing (i := .table { name := ‹Str› }) (ret := ret) (rest := rest)
    simp only [List.cons_append, List.append_assoc]
    simp only [parseBurnW, if_true]
    exact (parseW_table_inner h).trans this
  | valueList h =>
    have := parseW_closing (i := .valueList { name := ‹Str› }) (ret := ret) (rest := rest)
    simp only [List.cons_append, List.append_assoc]
    simp only [parseBurnW, if_true]
    exact (parseW_list_inner h).trans this
  | relationship h =>
    rename_i a b inner
    have := parseW_closing (i := .relationship { table1Name := a, table2Name := b }) (ret := ret) (rest := rest)
    simp only [List.cons_append, List.append_assoc]
    simp only [parseBurnW, if_true, List.head?_cons]
    exact (parseW_rel_inner (e := ⟨.end, []⟩) h (by simp)).trans this
  | occurrence h =>
    rename_i n t comma
    have := parseW_closing (i := .occurrence { name := n, tableActualName := t }) (ret := ret) (rest := rest)
    rcases h with rfl | rfl
    · simp only [List.cons_append, List.nil_append]
      simp only [parseBurnW, if_true]
      exact this
    · simp only [List.cons_append, List.nil_append]
      simp only [parseBurnW, if_true]
      exact this
  | scripts h =>
    rw [List.cons_append]
    conv => lhs; unfold parseBurnW
    exact parseW_block h
  | test h hc =>
    rename_i n d ts comma
    have := parseW_closing (i := .test { name := n, script := d.script }) (ret := ret) (rest := rest)
    have e : ∀ r, parseBurnW .top ret (⟨.test, []⟩ :: ⟨.identifier, n⟩ :: ⟨.colon, []⟩ :: ⟨.script, []⟩ :: r) =
      parseBurnW (.testColon { name := n }) ret r := by intro r; simp [parseBurnW, BurnItem.named]
    simp only [List.cons_append, List.append_assoc]
    rw [e, parseW_test_block h]
    rcases hc with rfl | rfl
    · exact this
    · rw [List.cons_append, List.nil_append]
      conv => lhs; unfold parseBurnW
      simp only [reduceCtorEq, if_false]
      exact this

theorem parseW_program {ds : List Decl} {ts : List BurnTok} (h : ProgramToks ds ts) {ret : FmpFile} :
    parseBurnW .top ret ts = ([], .ok (some (ds.foldl addDecl ret))) := by
  induction h generalizing ret with
  | nil => rfl
  | cons hd _ ih => rw [parseW_decl hd, ih]; rfl

theorem compileW_program [Rt] (p : Profile) {ds : List Decl} {ts : List BurnTok} {s : Str} (h : ProgramToks ds ts)
    (hs : BurnText ts s) : compileBurnW p s = ([], .ok (ds.foldl addDecl {})) := by
  unfold compileBurnW lexBurn
  rw [plex_text hs (by intro t ht; cases ht) (fun _ => lateBlocks_program h)
    (by simpa using lateParens_program h [] (fun _ => by intro t ht; simp at ht)), List.nil_append]
  dsimp only
  rw [parseW_program h]
  rfl

/-! ### Every definition is a script -/

theorem defines_cons (t : ScriptTok) (ts : List ScriptTok) :
    defines (t :: ts) = defines ts + (if t.ty = .define then 1 else 0) := by
  unfold defines
  rw [List.countP_cons]
  simp

/-- The number of scripts that are read from the rest of a text. -/
theorem script_count (ts : List ScriptTok) : ∀ (m : ScriptMode) (stack : List Instruction) (tmp : FScript)
    (acc : List FScript) (out : List FScript), (parseScriptsW m stack tmp acc ts).2 = .ok (some out) →
    (∀ w ∈ (parseScriptsW m stack tmp acc ts).1, Local w) → EveryScriptNamed ts →
    (m = .name → ∀ t ∈ ts.head?, t.ty = .identifier) →
    out.length = acc.length + (if m = .top then 0 else 1) + defines ts := by
  induction ts with
  | nil =>
    intro m stack tmp acc out h _ _ _
    cases m <;> first
      | (cases h; done)
      | (injection h with h; injection h with h; subst h; simp [defines])
  | cons t ts ih =>
    intro m stack tmp acc out h hw hn hname
    have ih' := fun (m' : ScriptMode) stack' tmp' acc' h1 h2 h3 =>
      ih m' stack' tmp' acc' out h1 h2 (everyScriptNamed_tail hn) h3
    have nd : t.ty ≠ .define → defines (t :: ts) = defines ts := fun h => by rw [defines_cons, if_neg h]; rfl
    cases m with
    | top =>
      unfold parseScriptsW at h hw
      dsimp only at h hw
      split at h
      · rename_i hd
        rw [if_pos hd] at hw
        rw [ih' .name _ _ _ h hw (fun _ x hx => by
          cases ts with
          | nil => cases hx
          | cons t' ts =>
            injection hx with hx; subst hx
            exact hn [] t t' ts rfl hd), defines_cons, if_pos hd]
        simp; omega
      · rename_i hd
        rw [if_neg hd] at hw
        exact absurd (hw .unrecognized (by simp)) (by simp [Local])
    | name =>
      have ht : t.ty = .identifier := hname rfl t rfl
      unfold parseScriptsW at h hw
      dsimp only at h hw
      rw [ih' .params _ _ _ h hw (by simp), nd (by rw [ht]; simp)]
      simp
    | params =>
      unfold parseScriptsW at h hw
      dsimp only at h hw
      obtain ⟨ty, v⟩ := t
      cases ty
      case argument => rw [ih' _ _ _ _ h hw (by simp), nd (by simp)]
      case comma => rw [ih' _ _ _ _ h hw (by simp), nd (by simp)]
      case openParen => rw [ih' _ _ _ _ h hw (by simp), nd (by simp)]
      case closeParen => rw [ih' _ _ _ _ h hw (by simp), nd (by simp)]
      case openBracket => rw [ih' _ _ _ _ h hw (by simp), nd (by simp)]; simp
      all_goals exact absurd (hw .invalidToken (by simp)) (by simp [Local])
    | body =>
      unfold parseScriptsW at h hw
      dsimp only at h hw
      obtain ⟨ty, v⟩ := t
      cases ty
      case identifier =>
        dsimp only at h hw
        cases ho : Instruction.fromStr v with
        | none =>
          rw [ho] at h hw
          rw [ih' _ _ _ _ h (fun w hh => hw w (List.mem_cons_of_mem _ hh)) (by simp), nd (by simp)]
        | some op =>
          rw [ho] at h hw
          rw [ih' _ _ _ _ h hw (by simp), nd (by simp)]
          simp
      case closeBracket =>
        dsimp only at h hw
        rw [nd (by simp)]
        cases stack with
        | nil => rw [ih' _ _ _ _ h hw (by simp)]; simp
        | cons top below =>
          dsimp only at h hw
          split at h
          · rename_i hs
            rw [if_pos hs] at hw
            rw [ih' _ _ _ _ h hw (by simp)]
          · rename_i hs
            rw [if_neg hs] at hw
            split at h
            · rw [ih' _ _ _ _ h hw (by simp)]
            · rw [ih' _ _ _ _ h hw (by simp)]
            · cases h
      case define => exact absurd rfl (hw (.invalidScriptToken ⟨.define, v⟩) (by simp))
      case openBracket => rw [ih' _ _ _ _ h hw (by simp), nd (by simp)]
      case loop => rw [ih' _ _ _ _ h hw (by simp), nd (by simp)]; simp
      case «if» => rw [ih' _ _ _ _ h hw (by simp), nd (by simp)]; simp
      case elif => rw [ih' _ _ _ _ h hw (by simp), nd (by simp)]; simp
      case «else» => rw [ih' _ _ _ _ h hw (by simp), nd (by simp)]; simp
      all_goals rw [ih' _ _ _ _ h (fun w hh => hw w (List.mem_cons_of_mem _ hh)) (by simp), nd (by simp)]
    | loopOpen =>
      unfold parseScriptsW at h hw
      dsimp only at h hw
      split at h
      · rename_i hs
        rw [if_pos hs] at hw
        rw [ih' _ _ _ _ h hw (by simp), nd (by rw [hs]; simp)]; simp
      · rename_i hs
        rw [if_neg hs] at hw
        exact absurd (hw .expectedBrace (by simp)) (by simp [Local])
    | elseOpen =>
      unfold parseScriptsW at h hw
      dsimp only at h hw
      split at h
      · rename_i hs
        rw [if_pos hs] at hw
        rw [ih' _ _ _ _ h hw (by simp), nd (by rw [hs]; simp)]; simp
      · rename_i hs
        rw [if_neg hs] at hw
        exact absurd (hw .expectedBrace (by simp)) (by simp [Local])
    | _ =>
      unfold parseScriptsW at h hw
      dsimp only at h hw
      split at h
      · rename_i hs
        rw [if_pos hs] at hw
        rw [ih' _ _ _ _ h hw (by simp), nd (by rw [hs]; simp)]; simp
      · rename_i hs
        rw [if_neg hs] at hw
        split at h
        · rename_i hs
          rw [if_pos hs] at hw
          rw [ih' _ _ _ _ h hw (by simp), nd (by rw [hs]; simp)]; simp
        · cases h

end BurnFm
