import Verif.Proofs.BurnWarnings

/-! The warnings of a program are those of its script blocks. -/

namespace BurnFm
open Spec

/-- What the blocks of a program print: all of them if it compiles, otherwise those up to the one it fails at. -/
def Prints (bs : List Str) (r : Warned (Res (Option FmpFile))) : Prop :=
  ∃ before after, bs = before ++ after ∧ r.1 = before.flatMap (fun b => (compileScriptsW b).1) ∧
    ((∃ f, r.2 = .ok (some f)) ∧ after = [] ∧ (∀ x ∈ before, ∃ ss, compileScripts x = .ok ss) ∨
      (∀ f, r.2 ≠ .ok (some f)) ∧ ∃ init b, before = init ++ [b] ∧ ∀ x ∈ init, ∃ ss, compileScripts x = .ok ss)

theorem prints_andThen {b : Str} {bs : List Str} {k : List FScript → Warned (Res (Option FmpFile))}
    (hk : ∀ ss, Prints bs (k ss) ∨ k ss = ([], .ok none) ∨ ∃ e, k ss = ([], .error e)) :
    Prints (b :: bs) ((compileScriptsW b).andThen k) := by
  unfold Warned.andThen
  cases h : (compileScriptsW b).2 with
  | error e => exact ⟨[b], bs, rfl, by simp, .inr ⟨by simp, [], b, rfl, by simp⟩⟩
  | ok ss =>
    dsimp only
    rcases hk ss with ⟨before, after, h1, h2, h3⟩ | h1 | ⟨e, h1⟩
    · refine ⟨b :: before, after, by rw [h1]; rfl, by rw [List.flatMap_cons, h2], ?_⟩
      have hall : ∀ l : List Str, (∀ x ∈ l, ∃ ss, compileScripts x = .ok ss) → ∀ x ∈ b :: l, ∃ ss, compileScripts x = .ok ss := by
        intro l hl y hy
        rcases List.mem_cons.mp hy with rfl | hy
        · exact ⟨ss, by rw [← compileScriptsW_snd, h]⟩
        · exact hl y hy
      rcases h3 with ⟨h3, h4, h5⟩ | ⟨h3, init, x, h4, h5⟩
      · exact .inl ⟨h3, h4, hall _ h5⟩
      · exact .inr ⟨h3, b :: init, x, by rw [h4]; rfl, hall _ h5⟩
    · exact ⟨[b], bs, rfl, by rw [h1]; simp, .inr ⟨by rw [h1]; simp, [], b, rfl, by simp⟩⟩
    · exact ⟨[b], bs, rfl, by rw [h1]; simp, .inr ⟨by rw [h1]; simp, [], b, rfl, by simp⟩⟩

theorem prints_decl {bs bs' : List Str} {ts rest : List BurnTok} (h : DraftDecl bs ts)
    (hr : ∀ ret, Prints bs' (parseBurnW .top ret rest)) (ret : FmpFile) :
    Prints (bs ++ bs') (parseBurnW .top ret (ts ++ rest)) := by
  cases h with
  | other hd hn =>
    rw [parseW_decl hd]
    exact hr _
  | scripts =>
    rename_i s
    have e : parseBurnW .top ret ([⟨.script, []⟩, ⟨.colon, []⟩, ⟨.openSquare, []⟩, ⟨.script, s⟩, ⟨.closeSquare, []⟩] ++ rest) =
        (compileScriptsW s).andThen fun scripts => parseBurnW .top (ret.addScripts scripts) rest := by
      simp [parseBurnW]
    rw [e]
    exact prints_andThen fun ss => .inl (hr _)
  | test hc =>
    rename_i name s comma
    have e : ∀ r, parseBurnW .top ret (⟨.test, []⟩ :: ⟨.identifier, name⟩ :: ⟨.colon, []⟩ :: ⟨.script, []⟩ :: ⟨.colon, []⟩ ::
        ⟨.openSquare, []⟩ :: ⟨.script, s⟩ :: r) =
        (compileScriptsW s).andThen fun scripts =>
          if 1 < scripts.length then ([], .ok none)
          else Warned.andThen ([], idx scripts 0) fun x =>
            parseBurnW (.item (.test { name := name, script := x })) ret r := by
      intro r; simp [parseBurnW, BurnItem.named]
    simp only [List.cons_append, List.append_assoc]
    rw [e]
    refine prints_andThen fun ss => ?_
    split
    · exact .inr (.inl rfl)
    · unfold Warned.andThen
      cases hi : idx ss 0 with
      | error e => exact .inr (.inr ⟨e, rfl⟩)
      | ok x =>
        refine .inl ?_
        have hcl := parseW_closing (i := .test { name := name, script := x }) (ret := ret) (rest := rest)
        have e2 : parseBurnW (.item (.test { name := name, script := x })) ret
            (⟨.closeSquare, []⟩ :: (comma ++ (closing .test ++ rest))) =
            parseBurnW .top (ret.addItem (.test { name := name, script := x })) rest := by
          conv => lhs; unfold parseBurnW
          simp only [reduceCtorEq, if_false]
          rcases hc with rfl | rfl
          · exact hcl
          · rw [List.cons_append, List.nil_append]
            conv => lhs; unfold parseBurnW
            simp only [reduceCtorEq, if_false]
            exact hcl
        dsimp only
        rw [e2]
        exact hr _

theorem prints_draft {bs : List Str} {ts : List BurnTok} (h : DraftToks bs ts) (ret : FmpFile) :
    Prints bs (parseBurnW .top ret ts) := by
  induction h generalizing ret with
  | nil => exact ⟨[], [], rfl, rfl, .inl ⟨⟨_, rfl⟩, rfl, by simp⟩⟩
  | cons hd _ ih => exact prints_decl hd (fun r => ih r) ret

theorem lateBlocks_draft {bs : List Str} {ts : List BurnTok} (h : DraftToks bs ts) : LateBlocks ts := by
  cases h with
  | nil => intro t ht; cases ht
  | cons hd _ =>
    intro t ht
    cases hd with
    | other hd hn =>
      have := lateBlocks_program (.cons hd .nil)
      rw [List.append_nil] at this
      apply this
      cases hd
      case scripts => cases hn
      all_goals simpa only [List.cons_append, List.append_assoc, List.take_succ_cons, List.take_zero] using ht
    | _ =>
      simp only [List.cons_append, List.take_succ_cons, List.take_zero, List.mem_cons, List.not_mem_nil, or_false] at ht
      rcases ht with rfl | rfl <;> simp

theorem lateParens_draft {bs : List Str} {ts : List BurnTok} (h : DraftToks bs ts) : LateParens 0 ts := by
  cases h with
  | nil => intro t ht; simp at ht
  | cons hd _ =>
    cases hd with
    | other hd hn =>
      have := lateParens_program (.cons hd .nil) ‹List BurnTok› (by simp)
      rw [List.append_nil] at this
      exact this
    | _ =>
      intro t ht
      simp at ht
      rcases ht with rfl | rfl | rfl <;> simp

/-- The warnings of a program. -/
theorem compileW_draft [Rt] (p : Profile) {bs : List Str} {ts : List BurnTok} {s : Str} (h : DraftToks bs ts)
    (hs : BurnText ts s) :
    ∃ before after, bs = before ++ after ∧ (compileBurnW p s).1 = before.flatMap (fun b => (compileScriptsW b).1) ∧
      ((∃ f, (compileBurnW p s).2 = .ok f) ∧ after = [] ∧ (∀ x ∈ before, ∃ ss, compileScripts x = .ok ss) ∨
        (∀ f, (compileBurnW p s).2 ≠ .ok f) ∧ ∃ init b, before = init ++ [b] ∧ ∀ x ∈ init, ∃ ss, compileScripts x = .ok ss) := by
  have e : compileBurnW p s = ((parseBurnW .top {} ts).1, (parseBurnW .top {} ts).2 >>= unwrap) := by
    unfold compileBurnW lexBurn
    rw [plex_text hs (by intro t ht; cases ht) (fun _ => lateBlocks_draft h) (by simpa using lateParens_draft h),
      List.nil_append]
  obtain ⟨before, after, h1, h2, h3⟩ := prints_draft h {}
  refine ⟨before, after, h1, by rw [e, h2], ?_⟩
  rw [e]
  rcases h3 with ⟨⟨f, h3⟩, h4⟩ | ⟨h3, h4⟩
  · exact .inl ⟨⟨f, by rw [h3]; rfl⟩, h4⟩
  · refine .inr ⟨?_, h4⟩
    intro f hf
    obtain ⟨x, h5, h6⟩ := bind_ok.mp hf
    cases x with
    | none => cases h6
    | some y => exact h3 y h5

end BurnFm
