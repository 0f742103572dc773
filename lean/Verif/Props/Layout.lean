import Verif.Spec.Layout
import Verif.Model.LayoutMgr
import Verif.Proofs.SMap

/-! Property C26: `generate_layout_mgr` and `lookup`. -/

namespace BurnFm.Props

/-- C26: with distinct layout names, looking up the name of any layout gives its table occurrence. The list
is in any order, so this holds for every iteration order of the map. -/
theorem layout_lookup (layouts : HMap FLayout) (hd : Spec.DistinctLayoutNames layouts)
    (e : Nat × FLayout) (he : e ∈ layouts) :
    LayoutMgr.lookup (generateLayoutMgr [] layouts) e.2.name = some e.2.tableOccurrence := by
  unfold LayoutMgr.lookup generateLayoutMgr LayoutMgr.addMapping
  rw [SMap.get_foldl_insert layouts (fun e => e.2.name) (fun e => e.2.tableOccurrence)]
  have : layouts.reverse.find? (fun x => x.2.name == e.2.name) = some e := by
    have hd : (layouts.reverse.map (·.2.name)).Nodup := by
      rw [List.map_reverse]; exact (List.reverse_perm _).nodup_iff.mpr hd
    have he : e ∈ layouts.reverse := List.mem_reverse.mpr he
    generalize layouts.reverse = l at hd he
    induction l with
    | nil => cases he
    | cons a l ih =>
      rw [List.map_cons, List.nodup_cons] at hd
      rw [List.find?_cons]
      rcases List.mem_cons.mp he with rfl | he
      · simp
      · have : a.2.name ≠ e.2.name := fun h => hd.1 (List.mem_map.mpr ⟨e, he, h.symm⟩)
        have hb : (a.2.name == e.2.name) = false := by simpa using this
        rw [hb]
        exact ih hd.2 he
  rw [this]; rfl

/-- C26: a name that no layout has is not found. -/
theorem layout_lookup_unknown (layouts : HMap FLayout) (name : Str) (h : ∀ e ∈ layouts, e.2.name ≠ name) :
    LayoutMgr.lookup (generateLayoutMgr [] layouts) name = none := by
  unfold LayoutMgr.lookup generateLayoutMgr LayoutMgr.addMapping
  rw [SMap.get_foldl_insert layouts (fun e => e.2.name) (fun e => e.2.tableOccurrence)]
  have : layouts.reverse.find? (fun x => x.2.name == name) = none := by
    rw [List.find?_eq_none]
    intro x hx
    simpa using h x (List.mem_reverse.mp hx)
  rw [this]; rfl

/-- C26: two iteration orders of the same layout map answer every lookup alike. -/
theorem layout_order_irrelevant (l₁ l₂ : HMap FLayout) (hp : l₁.Perm l₂) (hd : Spec.DistinctLayoutNames l₁)
    (name : Str) :
    LayoutMgr.lookup (generateLayoutMgr [] l₁) name = LayoutMgr.lookup (generateLayoutMgr [] l₂) name := by
  by_cases h : ∃ e ∈ l₁, e.2.name = name
  · obtain ⟨e, he, rfl⟩ := h
    rw [layout_lookup l₁ hd e he, layout_lookup l₂ ((hp.map _).nodup_iff.mp hd) e (hp.mem_iff.mp he)]
  · have h1 : ∀ e ∈ l₁, e.2.name ≠ name := fun e he hn => h ⟨e, he, hn⟩
    rw [layout_lookup_unknown l₁ name h1, layout_lookup_unknown l₂ name (fun e he => h1 e (hp.mem_iff.mpr he))]

/-- Three layouts, two of them on one occurrence. -/
example : Spec.DistinctLayoutNames [(4, ⟨t!"people", 1⟩), (2, ⟨t!"pets", 3⟩), (9, ⟨t!"list", 1⟩)] := by
  unfold Spec.DistinctLayoutNames; decide
example : LayoutMgr.lookup (generateLayoutMgr [] [(4, ⟨t!"people", 1⟩), (2, ⟨t!"pets", 3⟩), (9, ⟨t!"list", 1⟩)])
    t!"pets" = some 3 := by decide
/-- Without distinct names the iteration order decides. -/
example : LayoutMgr.lookup (generateLayoutMgr [] [(1, ⟨t!"a", 1⟩), (2, ⟨t!"a", 2⟩)]) t!"a" ≠
    LayoutMgr.lookup (generateLayoutMgr [] [(2, ⟨t!"a", 2⟩), (1, ⟨t!"a", 1⟩)]) t!"a" := by decide

end BurnFm.Props
