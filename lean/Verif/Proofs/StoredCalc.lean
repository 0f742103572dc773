import Mathlib.Data.List.Chain
import Verif.Spec.StoredCalc
import Verif.Props.CalcLayout
import Verif.Proofs.DecompileCalc
import Verif.Proofs.Digits
import Verif.Proofs.Json

/-! Stored calculations: their text consists of the words of the expression. -/

namespace BurnFm
open Spec

theorem fmStringEncrypt_ascii_length {s : Str} (h : ∀ c ∈ s, c.toNat < 128) : (fmStringEncrypt s).length = s.length := by
  unfold fmStringEncrypt
  rw [utf8_ascii h]
  simp

section
variable [Rt]

/-- A token an expression can begin with. -/
def StartTok (t : Tok) : Prop := t.ty = .identifier ∨ t.ty = .numericLiteral ∨ t.ty = .string ∨ t.ty = .openParen

/-- Which tokens follow each other in an expression. -/
def NextTok (t u : Tok) : Prop := (EndTok t → ¬StartTok u) ∧ (¬EndTok t → StartTok u)

theorem chain_infix {a b : List Tok} {t : Tok} (ha : a.IsChain NextTok) (hb : b.IsChain NextTok)
    (hal : ∀ y ∈ a.getLast?, EndTok y) (hbh : ∀ y ∈ b.head?, StartTok y) (ht : ¬EndTok t) (ht' : ¬StartTok t) :
    (a ++ t :: b).IsChain NextTok := by
  refine ha.append (List.isChain_cons.mpr ⟨fun y hy => ⟨fun h => absurd h ht, fun _ => hbh y hy⟩, hb⟩) fun x hx y hy => ?_
  simp only [List.head?_cons, Option.mem_def, Option.some.injEq] at hy
  subst hy
  exact ⟨fun _ => ht', fun h => absurd (hal x hx) h⟩

theorem getLast?_snoc {α : Type} (a : List α) (x : α) : (a ++ [x]).getLast? = some x := by simp

theorem getLast?_tail {α : Type} (a b : List α) (x c : α) : (a ++ x :: c :: b).getLast? = (c :: b).getLast? := by
  rw [List.getLast?_append, List.getLast?_cons_cons]
  simp [List.getLast?_cons]

theorem spells_chain {l : Level} {ts : List Tok} {e : Node Rt.F} (h : Spells l ts e) :
    ts.IsChain NextTok ∧ (∀ y ∈ ts.head?, StartTok y) ∧ (∀ y ∈ ts.getLast?, EndTok y) ∧ ts ≠ [] := by
  induction h with
  | number _ => simp [StartTok, EndTok]
  | «variable» _ => simp [StartTok, EndTok]
  | field _ _ => simp [StartTok, EndTok]
  | string => simp [StartTok, EndTok]
  | @paren ts e _ ih =>
    obtain ⟨h1, h2, h3, h4⟩ := ih
    refine ⟨?_, by simp [StartTok, sym], fun y hy => by rw [getLast?_snoc] at hy; injection hy with hy; subst hy; simp [EndTok, sym], by simp⟩
    have : (sym .openParen :: ts).IsChain NextTok := List.isChain_cons.mpr ⟨fun y hy => ⟨fun h => by simp [EndTok, sym] at h, fun _ => h2 y hy⟩, h1⟩
    refine this.append (List.isChain_singleton _) fun x hx y hy => ?_
    simp only [List.head?_cons, Option.mem_def, Option.some.injEq] at hy
    subst hy
    obtain ⟨b, ts, rfl⟩ := List.exists_cons_of_ne_nil h4
    rw [List.getLast?_cons_cons] at hx
    exact ⟨fun _ => by simp [StartTok, sym], fun h => absurd (h3 x hx) h⟩
  | ofFactor _ ih => exact ih
  | ofTerm _ ih => exact ih
  | ofExpr _ ih => exact ih
  | ofConcat _ ih => exact ih
  | @mul a b x y op hop _ _ iha ihb =>
    obtain ⟨a1, a2, a3, a4⟩ := iha
    obtain ⟨b1, b2, b3, b4⟩ := ihb
    obtain ⟨c, b, rfl⟩ := List.exists_cons_of_ne_nil b4
    obtain ⟨d, a, rfl⟩ := List.exists_cons_of_ne_nil a4
    refine ⟨chain_infix a1 b1 a3 b2 ?_ ?_, by simpa using a2, fun y hy => b3 y (by rw [getLast?_tail] at hy; exact hy), by simp⟩ <;>
      rcases hop with rfl | rfl <;> simp [EndTok, StartTok, sym]
  | @add a b x y op hop _ _ iha ihb =>
    obtain ⟨a1, a2, a3, a4⟩ := iha
    obtain ⟨b1, b2, b3, b4⟩ := ihb
    obtain ⟨c, b, rfl⟩ := List.exists_cons_of_ne_nil b4
    obtain ⟨d, a, rfl⟩ := List.exists_cons_of_ne_nil a4
    refine ⟨chain_infix a1 b1 a3 b2 ?_ ?_, by simpa using a2, fun y hy => b3 y (by rw [getLast?_tail] at hy; exact hy), by simp⟩ <;>
      rcases hop with rfl | rfl <;> simp [EndTok, StartTok, sym]
  | @concatenate a b x y _ _ iha ihb =>
    obtain ⟨a1, a2, a3, a4⟩ := iha
    obtain ⟨b1, b2, b3, b4⟩ := ihb
    obtain ⟨c, b, rfl⟩ := List.exists_cons_of_ne_nil b4
    obtain ⟨d, a, rfl⟩ := List.exists_cons_of_ne_nil a4
    refine ⟨chain_infix a1 b1 a3 b2 ?_ ?_, by simpa using a2, fun y hy => b3 y (by rw [getLast?_tail] at hy; exact hy), by simp⟩ <;>
      simp [EndTok, StartTok, sym]
  | @compare a b x y op hop _ _ iha ihb =>
    obtain ⟨a1, a2, a3, a4⟩ := iha
    obtain ⟨b1, b2, b3, b4⟩ := ihb
    obtain ⟨c, b, rfl⟩ := List.exists_cons_of_ne_nil b4
    obtain ⟨d, a, rfl⟩ := List.exists_cons_of_ne_nil a4
    simp only [List.mem_cons, List.not_mem_nil, or_false] at hop
    refine ⟨chain_infix a1 b1 a3 b2 ?_ ?_, by simpa using a2, fun y hy => b3 y (by rw [getLast?_tail] at hy; exact hy), by simp⟩ <;>
      rcases hop with rfl | rfl | rfl | rfl | rfl | rfl <;> simp [EndTok, StartTok, sym]

end

section
variable [LawfulRt]

theorem readable_valid {i : CalcItem} (h : i.Readable) : i.Valid fmStringEncrypt := by
  cases i with
  | symbol b t => exact h.1
  | number b v a => exact h
  | str s => show (fmStringEncrypt s).length ≤ 255; rw [fmStringEncrypt_ascii_length h.2.1]; exact h.1
  | var s => show (fmStringEncrypt s).length ≤ 255; rw [fmStringEncrypt_ascii_length fun c hc => (h.2.1 c hc).1]; exact h.1
  | skipped b => exact h.elim
  | getArg k => exact h.elim
  | intrinsic k => exact h.elim

/-- What a word begins with. -/
def BeginsLike (t : Tok) (c : Char) : Prop :=
  (StartTok t → c ≠ '=') ∧ (¬StartTok t → c ∈ specialChars ∧ c ≠ ':')

theorem readable_word {i : CalcItem} (h : i.Readable) :
    (i.token = none ∧ i.text = t!" ") ∨
    ∃ t, i.token = some t ∧ Word i.text t ∧ (t.ty = .identifier ∨ t.ty = .numericLiteral → ':' ∉ i.text) ∧
      (t.ty ∈ openEnded → ¬EndTok t) ∧ ∃ c s, i.text = c :: s ∧ BeginsLike t c := by
  cases i with
  | symbol b t =>
    obtain ⟨h1, h2⟩ := h
    rcases h2 with rfl | h2
    · exact .inl ⟨rfl, rfl⟩
    · right
      simp only [operators, List.map_cons, List.map_nil, List.mem_cons, List.not_mem_nil, or_false] at h2
      rcases h2 with rfl | rfl | rfl | rfl | rfl | rfl | rfl | rfl | rfl | rfl | rfl | rfl | rfl | rfl <;>
        simp only [CalcItem.text, CalcItem.token] <;>
        exact ⟨_, rfl, .operator (by decide), by decide, by unfold EndTok; decide, _, _, rfl, by unfold BeginsLike StartTok; decide⟩
  | number b v a =>
    right
    have hw : (CalcItem.number b v a).text = Nat.toDigits 10 v.toNat := decimal_eq v.toNat
    rw [hw]
    have hx : parseF64 (Nat.toDigits 10 v.toNat) = some (Rt.ofText (Nat.toDigits 10 v.toNat)) := by
      unfold parseF64; rw [if_pos (isFloatText_nat _)]
    have hno : ∀ c, isDigit c = false → c ∉ Nat.toDigits 10 v.toNat := fun c hc hm => by rw [toDigits_digits hm] at hc; cases hc
    have hword : Word (Nat.toDigits 10 v.toNat) ⟨.numericLiteral, Nat.toDigits 10 v.toNat⟩ := by
      have := Word.number hx (hno '+' (by decide)) (hno '-' (by decide))
      rwa [LawfulRt.nat_text _ (Nat.le_trans (Nat.le_of_lt v.toNat_lt) (by decide))] at this
    refine ⟨_, rfl, hword, fun _ => hno ':' (by decide), by simp [openEnded], ?_⟩
    obtain ⟨x, u, hxu, hd⟩ := digits_head v.toNat
    refine ⟨x, u, hxu, fun _ e => ?_, fun hn => absurd (.inr (.inl rfl)) hn⟩
    subst e; revert hd; decide
  | str s =>
    right
    obtain ⟨h1, h2, h3, h4⟩ := h
    have ht : (CalcItem.str s).text = '"' :: s ++ ['"'] := by
      simp only [CalcItem.text, literalText]
      rw [if_pos h2]; rfl
    rw [ht]
    exact ⟨_, rfl, .string h3 h4, by simp, by simp [openEnded], '"', s ++ ['"'], rfl, by simp [BeginsLike, StartTok]⟩
  | var s =>
    right
    obtain ⟨h1, h2, ⟨c, hc, hd⟩, h4⟩ := h
    have ht : (CalcItem.var s).text = s := by
      simp only [CalcItem.text, literalText]
      rw [if_pos fun c hc => (h2 c hc).1]
    rw [ht]
    cases s with
    | nil => cases hc
    | cons d s =>
      injection hc with hc
      subst hc
      refine ⟨_, rfl, .name (fun e he => (h2 e he).2) hd h4, fun _ hm => ?_, by simp [openEnded], d, s, rfl, ?_⟩
      · exact (h2 ':' hm).2.1 (by decide)
      · refine ⟨fun _ e => ?_, fun hn => absurd (.inl rfl) hn⟩
        exact (h2 d (by simp)).2.1 (by rw [e]; decide)
  | skipped b => exact h.elim
  | getArg k => exact h.elim
  | intrinsic k => exact h.elim

/-- The words of a list of items. -/
def itemWords (is : List CalcItem) : List (Str × Tok) := is.filterMap fun i => i.token.map fun t => (i.text, t)

theorem itemWords_tokens (is : List CalcItem) : (itemWords is).map (·.2) = is.filterMap (·.token) := by
  unfold itemWords
  rw [List.map_filterMap]
  congr 1
  funext i
  cases i.token <;> rfl

theorem items_laidOut (is : List CalcItem) (hr : ∀ i ∈ is, i.Readable) (hc : (is.filterMap (·.token)).IsChain NextTok)
    (hl : ∀ y ∈ (is.filterMap (·.token)).getLast?, EndTok y) : LaidOut (itemWords is) (is.flatMap (·.text)) := by
  induction is with
  | nil => exact .nil
  | cons i is ih =>
    have hr' : ∀ j ∈ is, j.Readable := fun j hj => hr j (by simp [hj])
    rcases readable_word (hr i (by simp)) with ⟨h1, h2⟩ | ⟨t, h1, h2, h3, h3', h4⟩
    · simp only [List.filterMap_cons, h1] at hc hl
      simp only [itemWords, List.filterMap_cons, h1, Option.map_none, List.flatMap_cons, h2]
      exact .space (by decide) (ih hr' hc hl)
    · simp only [List.filterMap_cons, h1] at hc hl
      simp only [itemWords, List.filterMap_cons, h1, Option.map_some, List.flatMap_cons]
      obtain ⟨hc1, hc2⟩ := List.isChain_cons.mp hc
      have hrest : ∀ y ∈ (is.filterMap (·.token)).getLast?, EndTok y := by
        intro y hy
        cases hf : is.filterMap (·.token) with
        | nil => rw [hf] at hy; cases hy
        | cons a r => rw [hf] at hy hl; exact hl y (by rw [List.getLast?_cons_cons]; exact hy)
      refine .word h2 ?_ (ih hr' hc2 hrest)
      cases is with
      | nil =>
        show t.ty ∉ openEnded
        intro ho
        exact h3' ho (hl t (by simp))
      | cons j js =>
        rw [List.flatMap_cons]
        rcases readable_word (hr' j (by simp)) with ⟨g1, g2⟩ | ⟨u, g1, g2, g3, g3', c, s, g4, g5⟩
        · rw [g2]
          refine ⟨by simp, fun ht => ?_⟩
          rw [if_neg (h3 ht)]
          exact .inl rfl
        · rw [g4]
          have hn : NextTok t u := hc1 u (by simp [g1])
          refine ⟨fun ho => g5.1 (hn.2 (h3' ho)), fun ht => ?_⟩
          rw [if_neg (h3 ht)]
          have he : EndTok t := by rcases ht with ht | ht <;> simp [EndTok, ht]
          exact .inr (g5.2 (hn.1 he))

end

end BurnFm
