import Verif.Proofs.AssembleOrder
import Verif.Spec.Contents

/-! The records of an assembled file, as the tree of its specification. -/

namespace BurnFm

open Spec (Item shownAll)

def Draws (path : DirPath) (rs : List Spec.Record) (is : List Item) : Prop :=
  Spec.events path rs = shownAll path is ∧ Spec.finalPath path rs = path

theorem shownAll_append (path : DirPath) (a b : List Item) : shownAll path (a ++ b) = shownAll path a ++ shownAll path b := by
  induction a with
  | nil => simp [shownAll]
  | cons i a ih => simp [shownAll, ih]

theorem Draws.append {path : DirPath} {a b : List Spec.Record} {is js : List Item} (h1 : Draws path a is) (h2 : Draws path b js) :
    Draws path (a ++ b) (is ++ js) := by
  refine ⟨?_, ?_⟩
  · rw [events_cat, h1.2, shownAll_append, h1.1, h2.1]
  · rw [finalPath_cat, h1.2, h2.2]

theorem Draws.dir {path : DirPath} {a : List Spec.Record} {is : List Item} (n : Nat) (h : Draws (path ++ [n]) a is) :
    Draws path ([.push n] ++ (a ++ [.pop])) [.dir n is] := by
  refine ⟨?_, ?_⟩
  · rw [events_cat, events_cat]
    simp only [Spec.events, Spec.finalPath, h.1, h.2, List.dropLast_concat, shownAll, Item.shown]
    simp
  · rw [finalPath_cat, finalPath_cat]
    simp [Spec.finalPath, h.2]

theorem Draws.nil (path : DirPath) : Draws path [] [] := ⟨by simp [Spec.events, shownAll], rfl⟩

theorem Draws.fold {α : Type} {path : DirPath} {rs : α → List Spec.Record} {is : α → Item} (l : List α) (h : ∀ a, Draws path (rs a) [is a]) :
    Draws path (l.flatMap rs) (l.map is) := by
  induction l with
  | nil => exact .nil _
  | cons a l ih => rw [List.flatMap_cons, List.map_cons]; exact (h a).append ih

theorem Draws.kv (path : DirPath) (k : UInt8) {n : Nat} {v w : Bytes} (hn : k.toNat = n) (hv : v = w) :
    Draws path [.kv k v] [.record (.kv n w)] := by subst hv hn; exact ⟨by simp [Spec.events, shownAll, Item.shown], rfl⟩
theorem Draws.kvE (path : DirPath) (k : Nat) {v w : Bytes} (hv : v = w) : Draws path [.kvE k v] [.record (.kv k w)] := by
  subst hv; exact ⟨by simp [Spec.events, shownAll, Item.shown], rfl⟩
theorem Draws.longKv (path : DirPath) {k v k' v' : Bytes} (hk : k = k') (hv : v = v') : Draws path [.longKv k v] [.record (.longKv k' v')] := by
  subst hk hv; exact ⟨by simp [Spec.events, shownAll, Item.shown], rfl⟩
theorem Draws.data (path : DirPath) {v w : Bytes} (hv : v = w) : Draws path [.data v] [.record (.data w)] := by
  subst hv; exact ⟨by simp [Spec.events, shownAll, Item.shown], rfl⟩

theorem fourBytes_eq (n : Nat) : beBytes n = Spec.fourBytes n := by
  unfold beBytes Spec.fourBytes; rfl

theorem Draws.empty (path : DirPath) (n : Nat) : Draws path (dirRecords n) [.dir n []] := Draws.dir n (.nil _)

theorem draws_maker (path : DirPath) : Draws path blobRecords [.dir 2 Spec.maker] :=
  Draws.dir (a := [.kv 3 initBlob3] ++ ([.kv 5 initBlob5] ++ ([.kv 6 initBlob6] ++ ([.kv 8 initBlob8] ++ ([.kv 9 initBlob9] ++
    ([.kv 11 initBlob11] ++ [.kv 24 initBlob24]))))))
    2 ((Draws.kv _ 3 rfl (by decide +kernel)).append ((Draws.kv _ 5 rfl (by decide +kernel)).append ((Draws.kv _ 6 rfl (by decide +kernel)).append
      ((Draws.kv _ 8 rfl (by decide +kernel)).append ((Draws.kv _ 9 rfl (by decide +kernel)).append ((Draws.kv _ 11 rfl (by decide +kernel)).append
        (Draws.kv _ 24 rfl (by decide +kernel))))))))

theorem draws_tables (path : DirPath) (f : FmpFile) : Draws path (tableRecords f ++ occurrenceRecords f) [.dir 3 (Spec.tablePart f)] := by
  have e : tableRecords f ++ occurrenceRecords f =
      [.push 3] ++ ((([.push 16] ++ (([.push 1] ++ ((
        ([.push 1] ++ (f.tables.flatMap (fun t => [.longKv (encodeText t.2.name ++ [0, 0, 0]) [2, 128, UInt8.ofNat t.1]]) ++ [.pop])) ++
        (([.push 3] ++ (f.tables.flatMap (fun t => [.longKv (beBytes t.1) (beBytes t.1)]) ++ [.pop])) ++
        ([.kv 4 (beBytes f.tables.length)] ++ ([.kv 216 (fmStringEncrypt t!"hello")] ++ ([.kvE 129 [59, 62, 55, 51, 52]] ++
        ([.kvE 130 [59, 62, 55, 51, 52]] ++
        ([.push 5] ++ (f.tables.flatMap (fun t => [.push (128 + t.1)] ++ ([] ++ [.pop])) ++ [.pop])))))))) ++ [.pop])) ++ [.pop])) ++
      ([.push 17] ++ (([.push 1] ++ (([.kv 0 [3, 208, 0, 9]] ++
        (([.push 1] ++ (f.tableOccurrences.flatMap (fun t => [.data (encodeText (t.2.name ++ ['\x00', '\x00']))]) ++ [.pop])) ++
        (([.push 3] ++ (f.tableOccurrences.flatMap (fun t => [.data (beBytes t.1)]) ++ [.pop])) ++
        ([.push 8] ++ ([] ++ [.pop]))))) ++ [.pop])) ++ [.pop]))) ++ [.pop]) := by
    simp only [tableRecords, occurrenceRecords, List.append_assoc, List.nil_append]
  rw [e]
  refine Draws.dir 3 (.append (js := [.dir 17 _]) (is := [.dir 16 _]) (.dir 16 (.dir 1 ?_)) (.dir 17 (.dir 1 ?_)))
  · exact .append (is := [.dir 1 _]) (.dir 1 (.fold _ fun t => .longKv _ rfl rfl)) (.append (is := [.dir 3 _])
      (.dir 3 (.fold _ fun t => .longKv _ (fourBytes_eq _) (fourBytes_eq _)))
      (.append (is := [_]) (.kv _ 4 rfl (fourBytes_eq _)) (.append (is := [_]) (.kv _ 216 rfl rfl) (.append (is := [_]) (.kvE _ 129 (by decide +kernel))
        (.append (is := [_]) (.kvE _ 130 (by decide +kernel)) (.dir 5 (.fold _ fun t => .dir _ (.nil _))))))))
  · exact .append (is := [_]) (.kv _ 0 rfl rfl) (.append (is := [.dir 1 _]) (.dir 1 (.fold _ fun t => .data _ rfl))
      (.append (is := [.dir 3 _]) (.dir 3 (.fold _ fun t => .data _ (fourBytes_eq _))) (.dir 8 (.nil _))))

theorem draws_layouts (path : DirPath) (f : FmpFile) : Draws path (layoutRecords f) [.dir 4 (Spec.counted f.layouts.length 5)] :=
  Draws.dir (a := [.push 1] ++ (([.kv 0 [1, UInt8.ofNat f.layouts.length]] ++ ([.push 5] ++ ([] ++ [.pop]))) ++ [.pop])) 4
    (.dir 1 (.append (is := [_]) (.kv _ 0 rfl rfl) (.dir 5 (.nil _))))

theorem draws_scripts (path : DirPath) (f : FmpFile) : Draws path (scriptRecords f) [.dir 17 (Spec.counted f.scripts.length 1)] :=
  Draws.dir (a := [.push 1] ++ (([.kv 0 [1, UInt8.ofNat f.scripts.length]] ++ ([.push 1] ++ ([] ++ [.pop]))) ++ [.pop])) 17
    (.dir 1 (.append (is := [_]) (.kv _ 0 rfl rfl) (.dir 1 (.nil _))))

theorem draws_file (f : FmpFile) : Spec.events [] (fileRecords f) = shownAll [] (Spec.contents f) := by
  have e : fileRecords f = blobRecords ++ ((tableRecords f ++ occurrenceRecords f) ++ (layoutRecords f ++ (dirRecords 6 ++ (scriptRecords f ++
    (dirRecords 23 ++ (dirRecords 6 ++ (dirRecords 25 ++ dirRecords 65))))))) := by simp only [fileRecords, List.append_assoc]
  rw [e]
  exact ((draws_maker []).append ((draws_tables [] f).append ((draws_layouts [] f).append ((Draws.empty [] 6).append ((draws_scripts [] f).append
    ((Draws.empty [] 23).append ((Draws.empty [] 6).append ((Draws.empty [] 25).append (Draws.empty [] 65))))))))).1

theorem ReadsTo.unique {p : Profile} {code : Bytes} {loc bound o : Nat} {path : DirPath} {chs : List Chunk}
    (h : ReadsTo p code loc bound o path chs) : ∀ {chs' : List Chunk}, ReadsTo p code loc bound o path chs' → chs = chs' := by
  induction h with
  | done hb => intro chs' h'; cases h' with
    | done => rfl
    | cons h1 _ _ => omega
  | cons h1 h2 _ ih =>
    intro chs' h'
    cases h' with
    | done => omega
    | cons _ g2 g3 =>
      rw [h2] at g2
      injection g2 with g2
      injection g2 with e1 e2 e3
      subst e1 e2 e3
      rw [ih g3]

theorem FileReads.unique {p : Profile} {buf : Bytes} {n i : Nat} {chs : List Chunk} (h : FileReads p buf n i chs) :
    ∀ {chs' : List Chunk}, FileReads p buf n i chs' → chs = chs' := by
  induction h with
  | done => intro chs' h'; cases h' with
    | done => rfl
    | sector h1 => exact absurd rfl h1
  | sector h1 _ _ h4 _ ih =>
    intro chs' h'
    cases h' with
    | done => exact absurd rfl h1
    | sector _ _ _ g4 g5 => rw [h4.unique g4, ih g5]

theorem slash_of_utf8 {s : Str} (h : (47 : UInt8) ∈ utf8 s) : '/' ∈ s := by
  unfold utf8 at h
  rw [List.mem_flatMap] at h
  obtain ⟨c, hc, h⟩ := h
  have : c = '/' := by
    have big : ∀ n, 128 ≤ n → n < 256 → (47 : UInt8) ≠ UInt8.ofNat n := by
      intro n h1 h2 e
      have := congrArg UInt8.toNat e
      rw [UInt8.toNat_ofNat'] at this
      simp at this
      omega
    unfold String.utf8EncodeChar at h
    dsimp only at h
    split at h
    · rename_i hv
      rw [List.mem_singleton] at h
      have := congrArg UInt8.toNat h
      rw [UInt8.toNat_ofNat'] at this
      simp at this
      apply Char.ext
      apply UInt32.toNat_inj.mp
      show c.toNat = 47
      have hv : c.toNat ≤ 127 := hv
      omega
    · split at h
      · simp only [List.mem_cons, List.not_mem_nil, or_false] at h
        rcases h with h | h <;> exact absurd h (big _ (by omega) (by omega))
      · split at h
        · simp only [List.mem_cons, List.not_mem_nil, or_false] at h
          rcases h with h | h | h <;> exact absurd h (big _ (by omega) (by omega))
        · simp only [List.mem_cons, List.not_mem_nil, or_false] at h
          rcases h with h | h | h | h <;> exact absurd h (big _ (by omega) (by omega))
  exact this ▸ hc


theorem recordsIn_append (path : DirPath) (a b : List Spec.Event) :
    Spec.recordsIn path (a ++ b) = Spec.recordsIn path a ++ Spec.recordsIn path b := by
  unfold Spec.recordsIn; rw [List.filterMap_append]

theorem recordsIn_filler (path : DirPath) (hp : path ≠ []) (n : Nat) : Spec.recordsIn path (List.replicate n ⟨[], .data []⟩) = [] := by
  unfold Spec.recordsIn
  rw [List.filterMap_eq_nil_iff]
  intro e he
  rw [(List.mem_replicate.mp he).2, if_neg]
  intro h; exact hp h.1.symm

theorem shownAll_records {α : Type} (path : DirPath) (l : List α) (w : α → Spec.What) :
    shownAll path (l.map fun a => .record (w a)) = l.map fun a => ⟨path, w a⟩ := by
  induction l with
  | nil => simp [shownAll]
  | cons a l ih => simp [shownAll, Item.shown, ih]

theorem recordsIn_map {α : Type} (dir path : DirPath) (l : List α) (w : α → Spec.What) (h : ∀ a, w a ≠ .push ∧ w a ≠ .pop) :
    Spec.recordsIn dir (l.map fun a => ⟨path, w a⟩) = if path = dir then l.map w else [] := by
  induction l with
  | nil => simp [Spec.recordsIn]
  | cons a l ih =>
    unfold Spec.recordsIn at ih ⊢
    rw [List.map_cons, List.filterMap_cons, ih]
    by_cases e : path = dir
    · simp [e, h a]
    · simp [e]

theorem recordsIn_dirs {α : Type} (dir path : DirPath) (l : List α) (n : α → Nat) :
    Spec.recordsIn dir (shownAll path (l.map fun a => .dir (n a) [])) = [] := by
  induction l with
  | nil => simp [shownAll, Spec.recordsIn]
  | cons a l ih =>
    rw [List.map_cons, shownAll, recordsIn_append, ih]
    simp [Item.shown, shownAll, Spec.recordsIn]

/-- The records of the parts of a compiled file that depend on the schema. -/
theorem recordsIn_contents (f : FmpFile) (path : DirPath) :
    Spec.recordsIn path (shownAll [] (Spec.contents f)) =
      (if path = [2] then Spec.recordsIn [2] (shownAll [2] Spec.maker) else []) ++
      ((if path = [3, 16, 1, 1] then f.tables.map (fun t => .longKv (encodeText t.2.name ++ [0, 0, 0]) [2, 128, UInt8.ofNat t.1]) else []) ++
      ((if path = [3, 16, 1, 3] then f.tables.map (fun t => .longKv (Spec.fourBytes t.1) (Spec.fourBytes t.1)) else []) ++
      ((if path = [3, 16, 1] then [.kv 4 (Spec.fourBytes f.tables.length), .kv 216 (Spec.obscured t!"hello"), .kv 129 (Spec.obscured t!"admin"),
        .kv 130 (Spec.obscured t!"admin")] else []) ++
      ((if path = [3, 17, 1] then [.kv 0 [3, 208, 0, 9]] else []) ++
      ((if path = [3, 17, 1, 1] then f.tableOccurrences.map (fun o => .data (encodeText (o.2.name ++ ['\x00', '\x00']))) else []) ++
      ((if path = [3, 17, 1, 3] then f.tableOccurrences.map (fun o => .data (Spec.fourBytes o.1)) else []) ++
      ((if path = [4, 1] then [.kv 0 [1, UInt8.ofNat f.layouts.length]] else []) ++
      (if path = [17, 1] then [.kv 0 [1, UInt8.ofNat f.scripts.length]] else [])))))))) := by
  have cons : ∀ (e : Spec.Event) (es : List Spec.Event), Spec.recordsIn path (e :: es) =
      (if path = e.path ∧ e.what ≠ .push ∧ e.what ≠ .pop then [e.what] else []) ++ Spec.recordsIn path es := by
    intro e es
    unfold Spec.recordsIn
    rw [List.filterMap_cons]
    by_cases h : e.path = path ∧ e.what ≠ .push ∧ e.what ≠ .pop
    · rw [if_pos h, if_pos ⟨h.1.symm, h.2⟩]; rfl
    · rw [if_neg h, if_neg (fun h' => h ⟨h'.1.symm, h'.2⟩)]; rfl
  have nil : Spec.recordsIn path [] = [] := rfl
  have push : ∀ q es, Spec.recordsIn path (⟨q, .push⟩ :: es) = Spec.recordsIn path es := fun q es => by rw [cons]; simp
  have pop : ∀ q es, Spec.recordsIn path (⟨q, .pop⟩ :: es) = Spec.recordsIn path es := fun q es => by rw [cons]; simp
  have maker : Spec.recordsIn path (shownAll [2] Spec.maker) = if path = [2] then Spec.recordsIn [2] (shownAll [2] Spec.maker) else [] := by
    by_cases h : path = [2]
    · rw [if_pos h, h]
    · rw [if_neg h]
      simp only [Spec.maker, shownAll, Item.shown, List.cons_append, List.nil_append, cons, nil, h, false_and, if_false]
  have kv : ∀ q k v es, Spec.recordsIn path (⟨q, .kv k v⟩ :: es) = (if path = q then [.kv k v] else []) ++ Spec.recordsIn path es :=
    fun q k v es => by rw [cons]; simp
  simp only [Spec.contents, Spec.tablePart, Spec.counted, shownAll, Item.shown, List.nil_append, List.append_nil, List.cons_append, push, pop,
    kv, recordsIn_append, nil, shownAll_records, recordsIn_dirs, maker]
  rw [recordsIn_map _ _ _ _ (by simp), recordsIn_map _ _ _ _ (by simp), recordsIn_map _ _ _ _ (by simp), recordsIn_map _ _ _ _ (by simp)]
  simp only [eq_comm (b := path), List.append_assoc]
  by_cases h : path = [3, 16, 1]
  · subst h; rfl
  · simp only [h, if_false, List.nil_append]

end BurnFm

namespace BurnFm

theorem foldlM_key {α β σ : Type} {h : σ → β → Res σ} (key : α → β) {l m : List α} (e : l.map key = m.map key) (s : σ) :
    l.foldlM (fun s a => h s (key a)) s = m.foldlM (fun s a => h s (key a)) s := by
  rw [← List.foldlM_map, e, List.foldlM_map]

/-- The header of an assembled file. -/
theorem assemble_header {p : Profile} {f : FmpFile} {buf : Bytes} (h : assemble p f = .ok buf) (i : Nat) (hi : i < 4095) :
    buf[i]? = if 3082 ≤ i ∧ i < 3082 + (utf8 (f.name ++ ['/'])).length then (utf8 (f.name ++ ['/']))[i - 3082]? else headerInit[i]? := by
  unfold assemble at h
  simp only [bind_ok] at h
  obtain ⟨s0, h0, s1, h1, s2, h2, s3, h3, s4, h4, s5, h5, s6, h6, s7, h7, s8, h8, s9, h9, h10⟩ := h
  cases h10
  rw [splice_eq] at h0
  have l0 := write_length h0
  have w0 := fun i => write_get h0 i
  dsimp only at l0 w0
  rw [headerInit_length] at l0
  obtain ⟨a1, a2, a3, a4, a5⟩ := blank_spec h1 h2
  obtain ⟨b1, b2, b3, b4, b5⟩ := blank_spec h3 h4
  obtain ⟨c1, c2, c3⟩ := Framed.sections p f _ _ h5
  obtain ⟨d1, d2, d3, d4, d5⟩ := blank_spec h6 h7
  obtain ⟨e1, e2, e3, e4, e5⟩ := blank_spec h8 h9
  dsimp only at c1 c2 c3 e1 e2 e3 e4 e5
  rw [l0.1] at a1 a2 a3 a4 a5
  rw [a2] at b1 b2 b3 b4 b5
  rw [b2] at c1
  rw [c1] at d1 d2 d3 d4 d5
  rw [d2] at e1 e2 e3 e4 e5
  simp only [Nat.reduceAdd] at *
  rw [b1] at c2 c3
  rw [e3 _ (by omega), d3 _ (by omega), c3 _ (by omega), b3 _ (by omega), a3 _ (by omega), w0]
  by_cases hl : i < 3082
  · rw [if_pos hl, if_neg (by omega)]
  · rw [if_neg hl]
    by_cases hm : i < 3082 + (utf8 (f.name ++ ['/'])).length
    · rw [if_pos hm, if_pos ⟨by omega, hm⟩]
    · rw [if_neg hm, if_neg (by omega)]

theorem encodeText_append (a b : Str) : encodeText (a ++ b) = encodeText a ++ encodeText b := by
  unfold encodeText; rw [List.flatMap_append]

theorem map_pair {α β γ : Type} (x : α → β) (y : α → γ) {l m : List α} (h1 : l.map x = m.map x) (h2 : l.map y = m.map y) :
    l.map (fun a => (x a, y a)) = m.map (fun a => (x a, y a)) := by
  induction l generalizing m with
  | nil => cases m <;> simp at h1 ⊢
  | cons a l ih =>
    cases m with
    | nil => simp at h1
    | cons b m =>
      simp only [List.map_cons, List.cons.injEq] at h1 h2 ⊢
      exact ⟨by rw [h1.1, h2.1], ih h1.2 h2.2⟩

theorem map_via {α β γ : Type} (x : α → β) (y : α → γ) {l m : List α} (h : ∀ a ∈ l, ∀ b ∈ m, x a = x b → y a = y b) (h1 : l.map x = m.map x) :
    l.map y = m.map y := by
  induction l generalizing m with
  | nil => cases m <;> simp at h1 ⊢
  | cons a l ih =>
    cases m with
    | nil => simp at h1
    | cons b m =>
      simp only [List.map_cons, List.cons.injEq] at h1 ⊢
      exact ⟨h a (by simp) b (by simp) h1.1, ih (fun a ha b hb => h a (by simp [ha]) b (by simp [hb])) h1.2⟩

/-- Names without a slash are told apart by the header. -/
theorem header_name {x : Bytes} {a b : Str} (ha : '/' ∉ a) (hb : '/' ∉ b) (h1 : utf8 a ++ [47] <+: x) (h2 : utf8 b ++ [47] <+: x) : a = b := by
  have key : ∀ {u v : Bytes}, (47 : UInt8) ∉ v → u ++ [47] <+: x → v ++ [47] <+: x → u.length ≤ v.length → u = v := by
    intro u v hv g1 g2 hl
    have e : u <+: v := List.prefix_of_prefix_length_le (List.IsPrefix.trans (List.prefix_append _ _) g1)
      (List.IsPrefix.trans (List.prefix_append _ _) g2) hl
    obtain ⟨t, rfl⟩ := e
    cases t with
    | nil => simp
    | cons c t =>
      exfalso
      have e2 : u ++ [47] <+: u ++ (c :: t) ++ [47] := List.prefix_of_prefix_length_le g1 g2 (by simp)
      rw [List.append_assoc, List.prefix_append_right_inj] at e2
      simp at e2
      exact hv (by simp [e2])
  have ha' : (47 : UInt8) ∉ utf8 a := fun h => ha (slash_of_utf8 h)
  have hb' : (47 : UInt8) ∉ utf8 b := fun h => hb (slash_of_utf8 h)
  rcases Nat.le_total (utf8 a).length (utf8 b).length with h | h
  · exact utf8_injective (key hb' h1 h2 h)
  · exact (utf8_injective (key ha' h2 h1 h)).symm

end BurnFm
