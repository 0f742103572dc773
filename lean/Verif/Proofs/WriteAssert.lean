import Verif.Proofs.Counting
import Verif.Props.VmData
import Verif.Props.CalcEval

/-! Lemmas on values that are written and then compared. -/

namespace BurnFm
open Spec

/-- The first field with a name, by position and by search. -/
theorem firstFieldIdx_find {fields : List DField} {name : Str} {j : Nat} {f : DField} (h : firstFieldIdx fields name = .ok j)
    (hf : fields[j]? = some f) : fields.find? (fun x => x.name == name) = some f := by
  have key : ∀ (l : List DField) (n : Nat) (e : DField × Nat),
      ((l.zipIdx n).filter (fun e => e.1.name == name))[0]? = some e →
        n ≤ e.2 ∧ l[e.2 - n]? = some e.1 ∧ l.find? (fun x => x.name == name) = some e.1 := by
    intro l
    induction l with
    | nil => intro n e h; cases h
    | cons a l ih =>
      intro n e h
      rw [List.zipIdx_cons, List.filter_cons] at h
      by_cases ha : a.name = name
      · rw [if_pos (by simpa using ha)] at h
        injection h with h
        subst h
        exact ⟨Nat.le_refl _, by simp, by rw [List.find?_cons_of_pos (by simpa using ha)]⟩
      · rw [if_neg (by simpa using ha)] at h
        obtain ⟨h1, h2, h3⟩ := ih (n + 1) e h
        refine ⟨by omega, ?_, ?_⟩
        · rw [show e.2 - n = (e.2 - (n + 1)) + 1 by omega, List.getElem?_cons_succ]; exact h2
        · rw [List.find?_cons_of_neg (by simpa using ha)]; exact h3
  unfold firstFieldIdx at h
  obtain ⟨e, h1, h2⟩ := bind_ok.mp h
  cases h2
  obtain ⟨-, h3, h4⟩ := key fields 0 e (idx_ok.mp h1)
  rw [Nat.sub_zero] at h3
  rw [h3] at hf
  rw [h4, ← hf]

/-- A value written through the current occurrence is in its current record. -/
theorem written_value {db db' : Database} {occ f v : Str} (hcur : SMap.get db.indices occ = some db.handle)
    (h : db.writeCell occ f v = .ok (some db')) : ValueAt db' db'.handle f v := by
  obtain ⟨i, o, id, t, j, g, hi, ho, hc, ht, hj, hg, hlt, rfl⟩ := writeCell_ok h
  rw [hcur] at hi
  cases hi
  have h1 := (List.getElem?_eq_some_iff.mp ht).1
  have h2 := (List.getElem?_eq_some_iff.mp hg).1
  refine ⟨o, _, id, _, ho, List.getElem?_set_self h1, hc, firstFieldIdx_find (j := j) ?_ (List.getElem?_set_self h2),
    List.getElem?_set_self hlt⟩
  rw [Props.firstFieldIdx_names _ t.fields f, hj]
  exact map_set_same hg rfl

theorem isQuoted_quotes (s : Str) : isQuoted ('"' :: s ++ ['"']) = true := by
  unfold isQuoted
  simp only [List.getLast?_concat]
  simp

/-- `a == "t"`, for a word `a` that evaluates to the text `"s"`. -/
theorem evalCalc_equals [Rt] {env : CalcEnv} {a : Str} {tok : Tok} {e : Node Rt.F} {s t : Str} (ha : Word a tok)
    (he : Spells .factor [tok] e) {fuel : Nat} (hv : evalNode env fuel e = .ok ('"' :: s ++ ['"']))
    (hq : '"' ∉ t) (hal : ∃ c ∈ t, Alnum c) (hf : 40 ≤ fuel) :
    evalCalc env fuel (a ++ t!" == \"" ++ t ++ t!"\"") = .ok (boolText (s == t)) := by
  have key := Props.calc_text_evaluates [(a, tok), (t!"==", sym .eq), ('"' :: t ++ ['"'], ⟨.string, '"' :: t ++ ['"']⟩)]
    (by
      intro w h
      simp only [List.mem_cons, List.not_mem_nil, or_false] at h
      rcases h with rfl | rfl | rfl
      · exact ha
      · exact .operator (by decide)
      · exact .string hq hal)
    (.comparison e .eq (.stringLiteral ('"' :: t ++ ['"'])))
    (Spells.compare (a := [_]) (b := [_]) (by decide) (.ofConcat (.ofExpr (.ofTerm (.ofFactor he))))
      (.ofExpr (.ofTerm (.ofFactor .string)))) env fuel (by simpa using hf)
  simp only [List.map_cons, List.map_nil, spaced] at key
  rw [show a ++ t!" == \"" ++ t ++ t!"\"" = a ++ ' ' :: (t!"==" ++ ' ' :: ('"' :: t ++ ['"'])) by simp]
  refine key.trans ?_
  rw [evalNode, if_pos (show isComparison TokenType.eq = true from rfl), hv]
  simp only [evalNode, ev_pure, ev_ok_bind]
  show Except.ok (boolText _) = _
  congr 2
  rw [Bool.eq_iff_iff]
  simp

end BurnFm
