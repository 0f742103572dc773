import Verif.Proofs.Contents
import Verif.Spec.AssemblerOutput

/-! What the assembler prints. -/

namespace BurnFm

open Spec (Item printedAll entersLine recordLines)

theorem result_bind {α β : Type} (x : Printed α) (f : α → Printed β) : (x >>= f).result = x.result >>= fun a => (f a).result := by
  show (Printed.andThen x f).result = _
  unfold Printed.andThen
  cases x.result <;> rfl

theorem result_unprinted {α : Type} (r : Res α) : (unprinted r).result = r := rfl
theorem result_println (l : AsmLine) : (println l).result = .ok () := rfl
theorem result_pure {α : Type} (a : α) : (pure a : Printed α).result = .ok a := rfl

theorem result_foldlM {α σ : Type} (g : σ → α → Printed σ) (l : List α) (s : σ) :
    (l.foldlM g s).result = l.foldlM (fun s a => (g s a).result) s := by
  induction l generalizing s with
  | nil => rfl
  | cons a l ih => rw [List.foldlM_cons, List.foldlM_cons, result_bind]; simp only [ih]

theorem kvE_result (s : Asm) (k : UInt32) (v : Bytes) : (emitKvEP s k v).result = emitKvE s k v := by
  unfold emitKvEP emitKvE
  simp only [result_bind, result_unprinted, result_println, ok_bind]

theorem kv_result (s : Asm) (k : UInt8) (v : Bytes) : (emitKvP s k v).result = emitKv s k v := by
  unfold emitKvP emitKv
  dsimp only
  generalize (if k = 16 then 0x6 else if k = 216 then 0x6 else calcSmallKvIns v : UInt8) = ins
  rw [result_bind, result_unprinted]
  congr 1
  funext t
  split
  · simp only [result_bind, result_unprinted]
  · split
    · simp only [result_bind, result_unprinted, result_println, ok_bind]
    · rfl

theorem push_result (s : Asm) (d : UInt32) : (emitPushP s d).result = emitPush s d := by
  unfold emitPushP emitPush
  simp only [result_bind, result_unprinted, result_println, ok_bind]

theorem sections_result (p : Profile) (f : FmpFile) (s : Asm) : (emitSectionsP p f s).result = emitSections p f s := by
  unfold emitSectionsP emitSections emitInitBlobsP emitInitBlobs emitTableMetadataP emitTableMetadata emitRelationshipDataP
    emitRelationshipData emitLayoutDataP emitLayoutData emitEmptyDirP emitEmptyDir emitScriptDataP emitScriptData
  simp only [result_bind, result_unprinted, result_println, ok_bind, result_foldlM, kv_result, kvE_result, push_result]

theorem assembleP_result (p : Profile) (f : FmpFile) : (assembleP p f).result = assemble p f := by
  unfold assembleP assemble
  simp only [result_bind, result_unprinted, sections_result, result_pure]
  rfl

/-- `f` prints the lines `ls`, or some of the first of them if it panics. -/
def PrintsLines (f : Asm → Printed Asm) (ls : List AsmLine) : Prop :=
  ∀ s, (f s).lines <+: ls ∧ ∀ t, (f s).result = .ok t → (f s).lines = ls

theorem lines_bind {α β : Type} (x : Printed α) (f : α → Printed β) : (x >>= f).lines =
    match x.result with
    | .ok a => x.lines ++ (f a).lines
    | .error _ => x.lines := by
  show (Printed.andThen x f).lines = _
  unfold Printed.andThen
  cases x.result <;> rfl

theorem PrintsLines.bind {f g : Asm → Printed Asm} {a b : List AsmLine} (hf : PrintsLines f a) (hg : PrintsLines g b) :
    PrintsLines (fun s => f s >>= g) (a ++ b) := by
  intro s
  dsimp only
  rw [lines_bind, result_bind]
  obtain ⟨h1, h2⟩ := hf s
  cases h : (f s).result with
  | error e =>
    refine ⟨List.IsPrefix.trans h1 (List.prefix_append _ _), fun t ht => ?_⟩
    cases ht
  | ok t =>
    dsimp only
    rw [h2 t h]
    obtain ⟨g1, g2⟩ := hg t
    refine ⟨(List.prefix_append_right_inj _).mpr g1, fun u hu => ?_⟩
    rw [g2 u hu]

theorem PrintsLines.pre {α : Type} {r : Res α} {a : α} {g : α → Asm → Printed Asm} {ls : List AsmLine} (hr : r = .ok a)
    (hg : PrintsLines (g a) ls) : PrintsLines (fun s => unprinted r >>= fun a => g a s) ls := by
  intro s
  dsimp only
  rw [lines_bind, result_bind, hr]
  exact hg s

theorem PrintsLines.line (l : AsmLine) {g : Asm → Printed Asm} {ls : List AsmLine} (hg : PrintsLines g ls) :
    PrintsLines (fun s => println l >>= fun _ => g s) (l :: ls) := by
  intro s
  dsimp only
  rw [lines_bind, result_bind]
  obtain ⟨g1, g2⟩ := hg s
  refine ⟨?_, fun t ht => ?_⟩
  · exact (List.prefix_append_right_inj [l]).mpr g1
  · show [l] ++ _ = _
    rw [g2 t ht]; rfl

theorem PrintsLines.fold {α : Type} {g : Asm → α → Printed Asm} {ls : α → List AsmLine} (l : List α)
    (hg : ∀ a ∈ l, PrintsLines (fun s => g s a) (ls a)) : PrintsLines (fun s => l.foldlM g s) (l.flatMap ls) := by
  induction l with
  | nil => intro s; exact ⟨List.prefix_rfl, fun _ _ => rfl⟩
  | cons a l ih =>
    intro s
    dsimp only
    rw [List.foldlM_cons, List.flatMap_cons]
    exact ((hg a (by simp)).bind (ih (fun b hb => hg b (by simp [hb])))) s

theorem PrintsLines.quiet (f : Asm → Res Asm) : PrintsLines (fun s => unprinted (f s)) [] := fun _ => ⟨List.prefix_rfl, fun _ _ => rfl⟩

theorem numberBytes_eq {n : Nat} (h : n < 384) : putPathInt (UInt32.ofNat n) = Spec.numberBytes n := by
  have : ∀ n, n < 384 → putPathInt (UInt32.ofNat n) = Spec.numberBytes n := by decide +kernel
  exact this n h

theorem PrintsLines.push {d : Nat} (h : d < 384) : PrintsLines (fun s => emitPushP s (UInt32.ofNat d)) [entersLine d] := by
  unfold emitPushP
  have e : (if (putPathInt (UInt32.ofNat d)).length = 1 then 0x20 else if (putPathInt (UInt32.ofNat d)).length = 2 then 0x28 else 0x48 : UInt8)
      = if d < 128 then 0x20 else 0x28 := by
    rw [numberBytes_eq h]
    unfold Spec.numberBytes
    split <;> rfl
  dsimp only
  rw [e, numberBytes_eq h]
  exact PrintsLines.line _ (.bind (.quiet _) (.bind (.quiet _) (.quiet emitNoop)))

theorem PrintsLines.pop : PrintsLines (fun s => unprinted (emitPop s)) [] := .quiet _

theorem PrintsLines.kvE {k : Nat} (h : k < 384) (v : Bytes) : PrintsLines (fun s => emitKvEP s (UInt32.ofNat k) v) [.pushing (Spec.numberBytes k)] := by
  unfold emitKvEP
  rw [numberBytes_eq h]
  exact PrintsLines.bind (a := []) (.quiet _) (.line _ (.bind (.quiet _) (.bind (.quiet _) (.quiet _))))

theorem smallIns {v : Bytes} (h : v.length ≤ 255) :
    (v.length < 10 → 1 ≤ calcSmallKvIns v ∧ calcSmallKvIns v ≤ 5) ∧ (10 ≤ v.length → calcSmallKvIns v = 6) := by
  have : ∀ n, n ≤ 255 → (n < 10 → (1 : UInt8) ≤ (if UInt8.ofNat ((n + 1 + 1) / 2) > 5 then 6 else UInt8.ofNat ((n + 1 + 1) / 2)) ∧
      (if UInt8.ofNat ((n + 1 + 1) / 2) > 5 then 6 else UInt8.ofNat ((n + 1 + 1) / 2)) ≤ (5 : UInt8)) ∧
      (10 ≤ n → (if UInt8.ofNat ((n + 1 + 1) / 2) > 5 then 6 else UInt8.ofNat ((n + 1 + 1) / 2)) = (6 : UInt8)) := by decide +kernel
  exact this _ h

/-- Values with a one-byte number. -/
theorem PrintsLines.kv {k : UInt8} {v : Bytes} (hk : k = 216 ∨ k.toNat < 128 ∧ k ≠ 16) (hl : v.length ≤ 255) (path : DirPath) :
    PrintsLines (fun s => emitKvP s k v) (recordLines path (.kv k.toNat v)) := by
  unfold emitKvP
  dsimp only
  by_cases hs : k ≠ 216 ∧ v.length < 10
  · have hk : k.toNat < 128 ∧ k ≠ 16 := by rcases hk with h | h; exact absurd h hs.1; exact h
    have e : recordLines path (.kv k.toNat v) = [] := by
      unfold recordLines
      dsimp only
      rw [if_neg, if_neg (by omega)]
      rintro (h | h)
      · omega
      · omega
    simp only [e, if_neg hk.2, if_neg hs.1, if_pos ((smallIns hl).1 hs.2)]
    exact PrintsLines.bind (a := []) (b := []) (.quiet _) (.bind (a := []) (b := []) (.quiet _) (.quiet _))
  · have e : recordLines path (.kv k.toNat v) = [.value k v (lenByte v)] := by
      unfold recordLines
      dsimp only
      rw [if_pos]
      · rw [UInt8.ofNat_toNat]; rfl
      · by_cases h : k = 216
        · subst h; exact .inl rfl
        · rcases hk with hk | hk
          · exact absurd hk h
          · exact .inr ⟨hk.1, by have : ¬ v.length < 10 := fun hh => hs ⟨h, hh⟩
                                 omega⟩
    have e2 : (if k = 16 then 0x6 else if k = 216 then 0x6 else calcSmallKvIns v : UInt8) = 6 := by
      by_cases h16 : k = 16
      · rw [if_pos h16]
      · rw [if_neg h16]
        by_cases h : k = 216
        · rw [if_pos h]
        · rw [if_neg h]
          exact (smallIns hl).2 (by have : ¬ v.length < 10 := fun hh => hs ⟨h, hh⟩
                                    omega)
    simp only [e, e2, if_neg (by decide : ¬ ((1 : UInt8) ≤ 6 ∧ (6 : UInt8) ≤ 5)), if_true]
    exact PrintsLines.bind (a := []) (b := [_]) (.quiet _) (.bind (a := []) (b := [_]) (.quiet _) (.line _
      (.bind (a := []) (b := []) (.quiet _) (.quiet _))))

theorem printedAll_append (path : DirPath) (a b : List Item) : printedAll path (a ++ b) = printedAll path a ++ printedAll path b := by
  induction a with
  | nil => simp [printedAll]
  | cons i a ih => simp [printedAll, ih]

theorem printedAll_records {α : Type} (path : DirPath) (l : List α) (w : α → Spec.What) :
    printedAll path (l.map fun a => .record (w a)) = l.flatMap fun a => recordLines path (w a) := by
  induction l with
  | nil => simp [printedAll]
  | cons a l ih => simp [printedAll, Item.printed, ih]

theorem printedAll_dirs {α : Type} (path : DirPath) (l : List α) (n : α → Nat) :
    printedAll path (l.map fun a => .dir (n a) []) = l.flatMap fun a => [entersLine (n a)] := by
  induction l with
  | nil => simp [printedAll]
  | cons a l ih => simp [printedAll, Item.printed, ih]

theorem PrintsLines.cast {f : Asm → Printed Asm} {a b : List AsmLine} (h : PrintsLines f a) (e : a = b) : PrintsLines f b := e ▸ h

theorem prints_blobs : PrintsLines emitInitBlobsP (entersLine 2 :: printedAll [2] Spec.maker) := by
  unfold emitInitBlobsP
  have k : ∀ {key : UInt8} {v : Bytes} (hk : key = 216 ∨ key.toNat < 128 ∧ key ≠ 16), v.length ≤ 255 →
      PrintsLines (fun s => emitKvP s key v) (recordLines [2] (.kv key.toNat v)) := fun hk h => PrintsLines.kv hk h [2]
  exact PrintsLines.cast (.bind (.push (d := 2) (by decide)) (.bind (k (key := 3) (by decide) (by decide +kernel))
    (.bind (k (key := 5) (by decide) (by decide +kernel))
    (.bind (k (key := 6) (by decide) (by decide +kernel)) (.bind (k (key := 8) (by decide) (by decide +kernel))
    (.bind (k (key := 9) (by decide) (by decide +kernel)) (.bind (k (key := 11) (by decide) (by decide +kernel))
    (.bind (k (key := 24) (by decide) (by decide +kernel)) .pop)))))))) (by decide +kernel)

theorem prints_tables (p : Profile) (f : FmpFile) (h : Spec.InRange f) : PrintsLines (fun s => emitTableMetadataP p f s >>= emitRelationshipDataP p f)
    (entersLine 3 :: printedAll [3] (Spec.tablePart f)) := by
  have ht : PrintsLines (emitTableMetadataP p f) ([entersLine 3] ++ ([entersLine 16] ++ ([entersLine 1] ++ ([entersLine 1] ++ (f.tables.flatMap (fun _ => []) ++ ([] ++
      ([entersLine 3] ++ (f.tables.flatMap (fun t => [.table (beBytes t.1)]) ++ ([] ++
      (recordLines [3, 16, 1] (.kv (4 : UInt8).toNat (beBytes f.tables.length)) ++
      (recordLines [3, 16, 1] (.kv (216 : UInt8).toNat (fmStringEncrypt t!"hello")) ++ ([.pushing (Spec.numberBytes 129)] ++
      ([.pushing (Spec.numberBytes 130)] ++ ([entersLine 5] ++ (f.tables.flatMap (fun t => [entersLine (128 + t.1)] ++ []) ++ ([] ++ ([] ++ []))))))))))))))))) := by
    unfold emitTableMetadataP
    exact .bind (.push (d := 3) (by decide)) (.bind (.push (d := 16) (by decide)) (.bind (.push (d := 1) (by decide)) (.bind (.push (d := 1) (by decide))
      (.bind (.fold _ fun t _ => .quiet _) (.bind .pop (.bind (.push (d := 3) (by decide))
      (.bind (.fold _ fun t ht => .pre (putInt_small p (by have := h.tableIds t ht; omega)) (.line _ (.quiet _))) (.bind .pop
      (.pre (putInt_small p h.tableCount) (.bind (.kv (k := 4) (v := beBytes f.tables.length) (by decide) (show (4 : Nat) ≤ 255 by decide) [3, 16, 1]) (.bind (.kv (k := 216) (by decide) (by decide +kernel) [3, 16, 1])
      (.bind (.kvE (k := 129) (by decide) _) (.bind (.kvE (k := 130) (by decide) _) (.bind (.push (d := 5) (by decide))
      (.bind (.fold _ fun t ht => .pre (tableDir_small p (h.tableIds t ht)) (.bind (.push (by have := h.tableIds t ht; omega)) .pop))
      (.bind .pop (.bind .pop .pop)))))))))))))))))
  have ho : PrintsLines (emitRelationshipDataP p f) ([entersLine 17] ++ ([entersLine 1] ++ (recordLines [3, 17, 1] (.kv (0 : UInt8).toNat [3, 208, 0, 9]) ++
      ([entersLine 1] ++ (f.tableOccurrences.flatMap (fun _ => []) ++ ([] ++ ([entersLine 3] ++ (f.tableOccurrences.flatMap (fun _ => []) ++
      ([] ++ ([entersLine 8] ++ ([] ++ ([] ++ ([] ++ []))))))))))))) := by
    unfold emitRelationshipDataP
    exact .bind (.push (d := 17) (by decide)) (.bind (.push (d := 1) (by decide)) (.bind (.kv (k := 0) (by decide) (by decide) [3, 17, 1])
      (.bind (.push (d := 1) (by decide)) (.bind (.fold _ fun t _ => .quiet _) (.bind .pop (.bind (.push (d := 3) (by decide))
      (.bind (.fold _ fun t ht => .pre (putInt_small p (h.occurrenceIds t ht)) (.quiet _)) (.bind .pop (.bind (.push (d := 8) (by decide))
      (.bind .pop (.bind .pop (.bind .pop .pop))))))))))))
  refine PrintsLines.cast (.bind ht ho) ?_
  simp only [Spec.tablePart, printedAll, Item.printed, printedAll_records, printedAll_dirs]
  have e1 : ∀ n, recordLines [3, 16, 1] (.kv (4 : UInt8).toNat (beBytes n)) = [] := fun _ => rfl
  have e2 : ∀ n, recordLines [3, 16, 1] (.kv 4 (Spec.fourBytes n)) = [] := fun _ => rfl
  have e3 : recordLines [3, 17, 1] (.kv (0 : UInt8).toNat [3, 208, 0, 9]) = [] := rfl
  have e4 : recordLines [3, 17, 1] (.kv 0 [3, 208, 0, 9]) = [] := rfl
  have e5 : recordLines [3, 16, 1] (.kv 129 (Spec.obscured t!"admin")) = [.pushing (Spec.numberBytes 129)] := by decide +kernel
  have e6 : recordLines [3, 16, 1] (.kv 130 (Spec.obscured t!"admin")) = [.pushing (Spec.numberBytes 130)] := by decide +kernel
  have e7 : recordLines [3, 16, 1] (.kv (216 : UInt8).toNat (fmStringEncrypt t!"hello")) =
    recordLines [3, 16, 1] (.kv 216 (Spec.obscured t!"hello")) := rfl
  have e8 : ∀ a b : Bytes, recordLines [3, 16, 1, 1] (.longKv a b) = [] := fun _ _ => rfl
  have e9 : ∀ a b : Bytes, recordLines [3, 16, 1, 3] (.longKv a b) = [.table a] := fun _ _ => rfl
  have e10 : ∀ (q : DirPath) (a : Bytes), recordLines q (.data a) = [] := fun _ _ => rfl
  have e11 : ∀ {α : Type} (l : List α), (l.flatMap fun _ => ([] : List AsmLine)) = [] := by intro α l; induction l <;> simp_all
  rw [e1, e3, e7]
  simp only [e2, e4, e5, e6, e8, e9, e10, e11, fourBytes_eq, List.nil_append, List.append_nil, List.cons_append, List.append_assoc]

theorem prints_counted (n dir a : Nat) (v : Nat) (hn : n < 384) (hd : dir < 384) (ha : a < 384) : PrintsLines (fun s => do
      let s ← emitPushP s (UInt32.ofNat n)
      let s ← emitPushP s (UInt32.ofNat a)
      let s ← emitKvP s 0 [1, UInt8.ofNat v]
      let s ← emitPushP s (UInt32.ofNat dir)
      let s ← unprinted (emitPop s)
      let s ← unprinted (emitPop s)
      unprinted (emitPop s)) [entersLine n, entersLine a, entersLine dir] :=
  PrintsLines.cast (.bind (.push hn) (.bind (.push ha) (.bind (.kv (k := 0) (v := [1, UInt8.ofNat v]) (by decide) (show (2 : Nat) ≤ 255 by decide) [])
    (.bind (.push hd) (.bind .pop (.bind .pop .pop)))))) rfl

theorem prints_dir (d : Nat) (h : d < 384) : PrintsLines (emitEmptyDirP (UInt32.ofNat d)) [entersLine d] := PrintsLines.bind (.push h) .pop

theorem prints_sections (p : Profile) (f : FmpFile) (h : Spec.InRange f) :
    PrintsLines (emitSectionsP p f) (printedAll [] (Spec.contents f)) := by
  have e : emitSectionsP p f = fun s => unprinted (emitNoop s) >>= fun s => emitInitBlobsP s >>= fun s =>
      (emitTableMetadataP p f s >>= emitRelationshipDataP p f) >>= fun s => emitLayoutDataP f s >>= fun s => emitEmptyDirP 6 s >>= fun s =>
      emitScriptDataP f s >>= fun s => emitEmptyDirP 23 s >>= fun s => emitEmptyDirP 6 s >>= fun s => emitEmptyDirP 25 s >>= emitEmptyDirP 65 := by
    have assoc : ∀ {α β γ : Type} (x : Printed α) (g : α → Printed β) (k : β → Printed γ), x >>= g >>= k = x >>= fun a => g a >>= k := by
      intro α β γ x g k
      show Printed.andThen (Printed.andThen x g) k = Printed.andThen x (fun a => Printed.andThen (g a) k)
      unfold Printed.andThen
      cases x.result with
      | error e => rfl
      | ok a => cases h : (g a).result <;> simp [h]
    funext s
    simp only [assoc]
    rfl
  rw [e]
  refine PrintsLines.cast (.bind (.quiet emitNoop) (.bind prints_blobs (.bind (prints_tables p f h) (.bind (prints_counted 4 5 1 f.layouts.length (by decide) (by decide) (by decide))
    (.bind (prints_dir 6 (by decide)) (.bind (prints_counted 17 1 1 f.scripts.length (by decide) (by decide) (by decide))
    (.bind (prints_dir 23 (by decide)) (.bind (prints_dir 6 (by decide)) (.bind (prints_dir 25 (by decide)) (prints_dir 65 (by decide)))))))))))  ?_
  have c : ∀ (q : DirPath) (n : Nat), recordLines q (.kv 0 [1, UInt8.ofNat n]) = [] := fun _ _ => rfl
  simp only [Spec.contents, Spec.counted, printedAll, Item.printed, List.nil_append, List.append_nil, List.cons_append, c]

theorem assembleP_lines (p : Profile) (f : FmpFile) (h : Spec.InRange f) :
    (assembleP p f).lines <+: printedAll [] (Spec.contents f) ∧
      ∀ buf, (assembleP p f).result = .ok buf → (assembleP p f).lines = printedAll [] (Spec.contents f) := by
  have quiet : ∀ {α : Type} (r : Res α) {g : α → Printed Bytes} {ls : List AsmLine},
      (∀ a, (g a).lines <+: ls ∧ ∀ b, (g a).result = .ok b → (g a).lines = ls) →
      (unprinted r >>= g).lines <+: ls ∧ ∀ b, (unprinted r >>= g).result = .ok b → (unprinted r >>= g).lines = ls := by
    intro α r g ls hg
    rw [lines_bind, result_bind, result_unprinted]
    cases r with
    | error e => exact ⟨List.nil_prefix, fun b hb => by cases hb⟩
    | ok a => exact hg a
  have loud : ∀ {s : Asm} {g : Asm → Printed Bytes}, (∀ a, (g a).lines <+: [] ∧ ∀ b, (g a).result = .ok b → (g a).lines = []) →
      (emitSectionsP p f s >>= g).lines <+: printedAll [] (Spec.contents f) ∧
        ∀ b, (emitSectionsP p f s >>= g).result = .ok b → (emitSectionsP p f s >>= g).lines = printedAll [] (Spec.contents f) := by
    intro s g hg
    rw [lines_bind, result_bind]
    obtain ⟨h1, h2⟩ := prints_sections p f h s
    cases e : (emitSectionsP p f s).result with
    | error x => exact ⟨h1, fun b hb => by cases hb⟩
    | ok t =>
      dsimp only
      have : (g t).lines = [] := List.prefix_nil.mp (hg t).1
      rw [this, List.append_nil, h2 t e]
      exact ⟨List.prefix_rfl, fun _ _ => rfl⟩
  unfold assembleP
  exact quiet _ fun _ => quiet _ fun _ => quiet _ fun _ => quiet _ fun _ => quiet _ fun _ => loud fun _ => quiet _ fun _ => quiet _ fun _ =>
    quiet _ fun _ => quiet _ fun _ => ⟨List.prefix_rfl, fun _ _ => rfl⟩

end BurnFm
