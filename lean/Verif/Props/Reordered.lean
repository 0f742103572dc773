import Verif.Proofs.Reordered
import Verif.Props.FileContents

/-! Property C79: the order in which a file describes its tables, layouts, scripts and data sources. -/

namespace BurnFm.Props
open Spec

/-- C79: two files that describe the same tables, fields, layouts, scripts and data sources, in any order, and the same
occurrences and criteria in the same order, decompile to the same component under each number. Both files may contain
anything else, and mix the five parts in any way. Partial: in both files the tables come before their fields and the names
of the scripts before their code (else see `order_refuted`), and the numbers of tables are not 128 apart in the wrong
order. -/
theorem description_order_irrelevant_partial (p : Profile) (buf buf' : Bytes) (raws raws' : List Raw) (d d' : FileDef)
    (hf : RawFileOf buf raws) (hd : Describes fmStringEncrypt encodeName raws d) (hok : d.WellFormed fmStringEncrypt)
    (hf' : RawFileOf buf' raws') (hd' : Describes fmStringEncrypt encodeName raws' d') (hn : WellNumbered d'.tables)
    (h : d.Reordered d') :
    ∃ (f f' : FmpFile) (fuel₀ : Nat), (∀ fuel, fuel₀ ≤ fuel → decompile p buf fuel = .ok (some f)) ∧
      (∀ fuel, fuel₀ ≤ fuel → decompile p buf' fuel = .ok (some f')) ∧ SameComponents f f' := by
  obtain ⟨n, h1⟩ := file_recovered_partial p buf raws d hf hd hok
  obtain ⟨n', h2⟩ := file_recovered_partial p buf' raws' d' hf' hd' (reordered_wellFormed h hok hn)
  exact ⟨d.file, d'.file, max n n', fun fuel hle => h1 fuel (by omega), fun fuel hle => h2 fuel (by omega),
    reordered_components h hok⟩

/-! A file with the contents of `exampleFile` in another order -/

def reorderedFile : FileDef :=
  { exampleFile with
    tables := [⟨1, [(16, t!"old"), (16, t!"people")], [⟨1, [(16, t!"name")]⟩]⟩]
    scripts := [exampleScripts[2], exampleScripts[0], exampleScripts[1]]
    sources := [exampleSources[1], exampleSources[0]] }

def reorderedItems : List Item :=
  [.push 4, .push 1, .push 7, .push 2, .kv 2 [0, 129], .kv 5 [1], .kv 16 (fmStringEncrypt t!"Main"), .pop, .pop, .pop, .pop,
   .push 17, .push 1, .push 7, .push 3, .kv 16 (fmStringEncrypt t!"d"), .pop,
   .push 1, .kv 16 (fmStringEncrypt t!"ab"), .pop, .push 2, .kv 16 (fmStringEncrypt t!"c"), .pop, .pop, .pop,
   .push 5,
   .push 3, .push 4, .segment 2 ((exampleRecord 1 141 ++ exampleRecord 2 1).drop 30),
   .segment 1 ((exampleRecord 1 141 ++ exampleRecord 2 1).take 30), .pop, .pop,
   .push 1, .kv 4 (exampleRecord 1 141 ++ exampleRecord 7 1),
   .push 5, .push 1, .push 128, .kv 1 (fmStringEncrypt t!"n"), .pop, .push 129, .push 5, .kv 5 (Spec.calcBytes fmStringEncrypt exampleCalc), .pop,
   .pop, .pop, .pop, .pop,
   .push 2, .segment 4 (exampleRecord 0 1 ++ exampleRecord 1 141), .pop, .pop, .pop,
   .push 32, .push 1, .push 1, .data (encodeName t!"prices"), .data (encodeName t!"stock_list"), .pop, .pop,
   .push 5, .push 4, .kv 16 [1], .pop, .push 1, .kv 130 (exampleLocation.bytes fmStringEncrypt), .kvE 2 (fmStringEncrypt t!"Admin"), .pop, .pop, .pop,
   .push 3, .push 17, .push 5, .push 0, .kv 2 [0, 0, 0, 0, 0, 0, 1], .kv 16 (fmStringEncrypt t!"a"), .push 251, .data [0, 0, 2], .pop, .pop,
   .push 0, .kv 2 [0, 0, 0, 0, 0, 0, 1], .kv 16 (fmStringEncrypt t!"b"), .push 251, .data [0, 0, 1], .pop, .pop, .pop, .pop,
   .push 251, .push 5, .push 1, .push 3, .kv 1 [4, 0, 0, 1, 0, 0, 2], .pop, .pop, .pop, .pop,
   .push 16, .push 5, .push 129, .kv 16 (fmStringEncrypt t!"old"), .kv 16 (fmStringEncrypt t!"people"), .pop, .pop, .pop, .pop,
   .push 129, .push 3, .push 5, .push 1, .kv 16 (fmStringEncrypt t!"name"), .pop, .pop, .pop, .pop]

theorem example_reordered : exampleFile.Reordered reorderedFile where
  tables := by
    refine ⟨_, .refl _, .cons ⟨rfl, fun k => ?_, _, .refl _, .cons ⟨rfl, fun _ => rfl⟩ .nil⟩ .nil⟩
    by_cases h : (16 == k) = true
    · have : k = 16 := (by simpa using h : 16 = k).symm
      subst this
      rfl
    · simp [lastAttr, List.filter_cons, h]
  occurrences := rfl
  criteria := rfl
  layouts := .refl _
  scripts := (List.perm_append_comm (l₁ := exampleScripts.take 2) (l₂ := exampleScripts.drop 2))
  sources := .swap _ _ _

set_option maxRecDepth 20000 in
theorem reorderedItems_ok : RawFileOf (itemFile reorderedItems) (itemRaws [] reorderedItems) ∧
    Describes fmStringEncrypt encodeName (itemRaws [] reorderedItems) reorderedFile :=
  ⟨itemFile_raw _ (by decide) (by decide) (by decide), ⟨by rfl, by rfl, by rfl, by rfl, by rfl⟩⟩

/-- The scripts, data sources and parts of the example in another order. -/
example (p : Profile) : ∃ (f f' : FmpFile) (fuel : Nat), decompile p (itemFile exampleItems) fuel = .ok (some f) ∧
    decompile p (itemFile reorderedItems) fuel = .ok (some f') ∧ SameComponents f f' := by
  obtain ⟨f, f', n, h1, h2, h3⟩ := description_order_irrelevant_partial p _ _ _ _ _ _ exampleFile_ok.1 exampleFile_ok.2.1
    exampleFile_ok.2.2 reorderedItems_ok.1 reorderedItems_ok.2 (by
      refine ⟨by simp [reorderedFile], ?_⟩
      intro t ht
      simp [reorderedFile] at ht
      subst ht
      simp) example_reordered
  exact ⟨f, f', n, h1 n (Nat.le_refl _), h2 n (Nat.le_refl _), h3⟩

end BurnFm.Props
