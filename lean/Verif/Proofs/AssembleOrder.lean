import Verif.Proofs.AssembleRecords

/-! What an assembled file says about the order of its tables and occurrences. -/

namespace BurnFm

theorem emitRecords_idx {rs : List Spec.Record} : ∀ {s t : Asm}, emitRecords s rs = .ok t → t.idx = s.idx + recSize rs := by
  induction rs with
  | nil => intro s t h; cases h; rfl
  | cons r rs ih =>
    intro s t h
    unfold emitRecords at h
    rw [List.foldlM_cons, bind_ok] at h
    obtain ⟨s1, h1, h2⟩ := h
    have := ih h2
    rw [emitRecord_eq] at h1
    have hl := write_length h1
    rw [show recSize (r :: rs) = recSize ([r] ++ rs) from rfl, recSize_append]
    simp only [recSize, List.map_cons, List.map_nil, List.sum_cons, List.sum_nil] at this ⊢
    omega

theorem Decodes.unique {p : Profile} {code : Bytes} {loc o o' : Nat} {path path' : DirPath} {chs : List Chunk}
    (h : Decodes p code loc o path chs o' path') : ∀ {chs' : List Chunk} {path'' : DirPath},
      Decodes p code loc o path chs' o' path'' → chs = chs' := by
  have mono : ∀ {o o' : Nat} {path path' : DirPath} {chs : List Chunk}, Decodes p code loc o path chs o' path' → o ≤ o' := by
    intro o o' path path' chs h
    induction h with
    | nil => exact Nat.le_refl _
    | cons _ h1 _ ih => omega
  induction h with
  | nil o path =>
    intro chs' path'' h'
    cases h' with
    | nil => rfl
    | cons _ h1 h2 => have := mono h2; omega
  | cons h1 h2 h3 ih =>
    intro chs' path'' h'
    cases h' with
    | nil => have := mono h3; omega
    | cons g1 g2 g3 =>
      rw [h1] at g1
      injection g1 with g1
      injection g1 with e1 e2 e3
      subst e1 e2 e3
      rw [ih g3]

theorem assemble_events {p q : Profile} {f : FmpFile} {buf : Bytes} (hr : Spec.InRange f) (h : assemble p f = .ok buf) :
    ∃ chs path, Decodes q buf 8192 8213 [] chs (8213 + recSize (fileRecords f)) path ∧
      eventsOf chs = Spec.events [] (fileRecords f) := by
  obtain ⟨s, t, h1, h2, h3, h4, h5, h6, h7, h8, h9, h10, h11, h12, _⟩ := assemble_spec h
  obtain ⟨u, g1, g2⟩ := bind_ok.mp ((emitSections_eq p f hr s).symm.trans h1)
  obtain ⟨q1, q2, q3⟩ := (quiet_file f hr).spec
  rw [emitNoop_eq] at g1
  obtain ⟨k1, k2, k3⟩ := write_length g1
  simp only [List.length_cons, List.length_nil] at k2
  have hi := emitRecords_idx g2
  have hend : t.idx ≤ 12287 := by
    have : fileRecords f = (blobRecords ++ (tableRecords f ++ (occurrenceRecords f ++ (layoutRecords f ++ (dirRecords 6 ++ (scriptRecords f ++
      (dirRecords 23 ++ (dirRecords 6 ++ (dirRecords 25 ++ [.push 65]))))))))) ++ [.pop] := by
      simp [fileRecords, dirRecords]
    rw [this] at g2
    have := emitRecords_end g2
    omega
  obtain ⟨chs, d1, d2, d3⟩ := emitRecords_decodes q 8192 q1 [] buf g2 (take_eq_of_get fun i hi => h6 i (by omega))
  have hu : u.idx = 8213 := by omega
  rw [hi, hu] at d1
  exact ⟨chs, _, d1, d2⟩

theorem events_cat (a b : List Spec.Record) : ∀ path : DirPath,
    Spec.events path (a ++ b) = Spec.events path a ++ Spec.events (Spec.finalPath path a) b := by
  induction a with
  | nil => intro path; rfl
  | cons r a ih =>
    intro path
    rw [List.cons_append, events_append path r (a ++ b), events_append path r a, finalPath_append path r a, ih, List.append_assoc]

theorem finalPath_cat (a b : List Spec.Record) : ∀ path : DirPath,
    Spec.finalPath path (a ++ b) = Spec.finalPath (Spec.finalPath path a) b := by
  induction a with
  | nil => intro path; rfl
  | cons r a ih =>
    intro path
    rw [List.cons_append, finalPath_append path r (a ++ b), finalPath_append path r a, ih]

/-- The events of a directory. -/
def eventsIn (dir : DirPath) (es : List Spec.Event) : List Spec.What := (es.filter (·.path = dir)).map (·.what)

theorem eventsIn_append (dir : DirPath) (a b : List Spec.Event) : eventsIn dir (a ++ b) = eventsIn dir a ++ eventsIn dir b := by
  simp [eventsIn]

/-- Records that stay in their directory. -/
theorem flat_events {α : Type} (l : List α) (r : α → Spec.Record) (path : DirPath) (w : α → Spec.What)
    (h : ∀ a ∈ l, Spec.events path [r a] = [⟨path, w a⟩]) (h2 : ∀ a ∈ l, Spec.finalPath path [r a] = path) :
    Spec.events path (l.flatMap fun a => [r a]) = l.map (fun a => ⟨path, w a⟩) ∧
      Spec.finalPath path (l.flatMap fun a => [r a]) = path := by
  induction l with
  | nil => exact ⟨rfl, rfl⟩
  | cons a l ih =>
    obtain ⟨i1, i2⟩ := ih (fun b hb => h b (by simp [hb])) (fun b hb => h2 b (by simp [hb]))
    rw [List.flatMap_cons, events_cat, finalPath_cat, h a (by simp), h2 a (by simp), i1, i2]
    exact ⟨rfl, rfl⟩

theorem flat_dirs (l : List (Nat × FTable)) (path : DirPath) :
    (∀ e ∈ Spec.events path (l.flatMap fun t => [.push (128 + t.1)] ++ [.pop]), e.path = path ∨ path.length < e.path.length) ∧
      Spec.finalPath path (l.flatMap fun t => [.push (128 + t.1)] ++ [.pop]) = path := by
  induction l with
  | nil => exact ⟨by simp [Spec.events], rfl⟩
  | cons a l ih =>
    have e1 : Spec.finalPath path ([Spec.Record.push (128 + a.1)] ++ [.pop]) = path := by simp [Spec.finalPath]
    have e2 := finalPath_cat ([Spec.Record.push (128 + a.1)] ++ [.pop]) (l.flatMap fun t => [.push (128 + t.1)] ++ [.pop]) path
    rw [e1] at e2
    rw [List.flatMap_cons, events_cat, e1, e2]
    refine ⟨?_, ih.2⟩
    intro e he
    rw [List.mem_append] at he
    rcases he with he | he
    · simp [Spec.events] at he
      rcases he with rfl | rfl
      · exact .inr (by simp)
      · exact .inl (by simp)
    · exact ih.1 e he

theorem eventsIn_none {dir : DirPath} {es : List Spec.Event} (h : ∀ e ∈ es, e.path ≠ dir) : eventsIn dir es = [] := by
  unfold eventsIn
  rw [List.filter_eq_nil_iff.mpr (by simpa using h)]
  rfl

theorem eventsIn_map {α : Type} (dir path : DirPath) (l : List α) (w : α → Spec.What) :
    eventsIn dir (l.map fun a => ⟨path, w a⟩) = if path = dir then l.map w else [] := by
  unfold eventsIn
  split
  · rename_i h
    rw [List.filter_eq_self.mpr (by simp [h]), List.map_map]
    rfl
  · rename_i h
    rw [List.filter_eq_nil_iff.mpr (by simp [h])]
    rfl

/-- The records `rs`, read in directory `path`, lead to `path'` and show `out` in `dir`. -/
def Shows (dir path : DirPath) (rs : List Spec.Record) (path' : DirPath) (out : List Spec.What) : Prop :=
  eventsIn dir (Spec.events path rs) = out ∧ Spec.finalPath path rs = path'

theorem Shows.append {dir p q r : DirPath} {a b : List Spec.Record} {x y : List Spec.What} (h1 : Shows dir p a q x)
    (h2 : Shows dir q b r y) : Shows dir p (a ++ b) r (x ++ y) := by
  obtain ⟨h1, rfl⟩ := h1
  obtain ⟨h2, rfl⟩ := h2
  refine ⟨?_, finalPath_cat a b p⟩
  rw [events_cat, eventsIn_append, h1, h2]

theorem Shows.flat {α : Type} {dir path : DirPath} (l : List α) (r : α → Spec.Record) (w : α → Spec.What)
    (h : ∀ a ∈ l, Spec.events path [r a] = [⟨path, w a⟩]) (h2 : ∀ a ∈ l, Spec.finalPath path [r a] = path) :
    Shows dir path (l.flatMap fun a => [r a]) path (if path = dir then l.map w else []) := by
  obtain ⟨a1, a2⟩ := flat_events l r path w h h2
  exact ⟨by rw [a1, eventsIn_map], a2⟩

theorem Shows.dirs {dir path : DirPath} (l : List (Nat × FTable)) (h1 : dir ≠ path) (h2 : dir.length ≤ path.length) :
    Shows dir path (l.flatMap fun t => [.push (128 + t.1)] ++ [.pop]) path [] := by
  obtain ⟨a1, a2⟩ := flat_dirs l path
  refine ⟨eventsIn_none fun e he hd => ?_, a2⟩
  rcases a1 e he with h | h
  · exact h1 (hd ▸ h)
  · rw [hd] at h; omega

theorem tables_in_order (f : FmpFile) : eventsIn [3, 16, 1, 3] (Spec.events [] (fileRecords f)) =
    .push :: f.tables.map (fun t => .longKv (beBytes t.1) (beBytes t.1)) := by
  have ht : Shows [3, 16, 1, 3] [] (tableRecords f) [3] ([.push] ++ (f.tables.map (fun t => .longKv (beBytes t.1) (beBytes t.1)) ++ [])) :=
    Shows.append (q := [3, 16, 1, 1]) (a := [.push 3, .push 16, .push 1, .push 1]) (x := []) ⟨rfl, rfl⟩ <|
    Shows.append (x := []) (Shows.flat f.tables _ (fun t => .longKv (encodeText t.2.name ++ [0, 0, 0]) [2, 128, UInt8.ofNat t.1])
      (fun _ _ => rfl) (fun _ _ => rfl)) <|
    Shows.append (q := [3, 16, 1, 3]) (a := [.pop, .push 3]) ⟨rfl, rfl⟩ <|
    Shows.append (Shows.flat f.tables _ (fun t => .longKv (beBytes t.1) (beBytes t.1)) (fun _ _ => rfl) (fun _ _ => rfl)) <|
    Shows.append (q := [3, 16, 1, 5]) (a := [.pop, .kv 4 (beBytes f.tables.length), .kv 216 (fmStringEncrypt t!"hello"),
        .kvE 129 [59, 62, 55, 51, 52], .kvE 130 [59, 62, 55, 51, 52], .push 5]) (x := []) ⟨rfl, rfl⟩ <|
    Shows.append (x := []) (Shows.dirs f.tables (by decide) (by decide)) ⟨rfl, rfl⟩
  have ho : Shows [3, 16, 1, 3] [3] (occurrenceRecords f) [] [] :=
    Shows.append (q := [3, 17, 1, 1]) (a := [.push 17, .push 1, .kv 0 [3, 208, 0, 9], .push 1]) (x := []) ⟨rfl, rfl⟩ <|
    Shows.append (x := []) (Shows.flat f.tableOccurrences _ (fun t => .data (encodeText (t.2.name ++ ['\x00', '\x00'])))
      (fun _ _ => rfl) (fun _ _ => rfl)) <|
    Shows.append (q := [3, 17, 1, 3]) (a := [.pop, .push 3]) (x := []) ⟨rfl, rfl⟩ <|
    Shows.append (x := []) (Shows.flat f.tableOccurrences _ (fun t => .data (beBytes t.1)) (fun _ _ => rfl) (fun _ _ => rfl)) ⟨rfl, rfl⟩
  have hd : ∀ d, Shows [3, 16, 1, 3] [] (dirRecords d) [] [] := fun d => ⟨by simp [dirRecords, Spec.events, eventsIn], rfl⟩
  have hb : Shows [3, 16, 1, 3] [] blobRecords [] [] := ⟨rfl, rfl⟩
  have hl : Shows [3, 16, 1, 3] [] (layoutRecords f) [] [] := ⟨rfl, rfl⟩
  have hs : Shows [3, 16, 1, 3] [] (scriptRecords f) [] [] := ⟨rfl, rfl⟩
  have := (hb.append (ht.append (ho.append (hl.append ((hd 6).append (hs.append ((hd 23).append ((hd 6).append
    ((hd 25).append (hd 65)))))))))).1
  simpa [fileRecords] using this

theorem occurrences_in_order (f : FmpFile) : eventsIn [3, 17, 1, 3] (Spec.events [] (fileRecords f)) =
    .push :: f.tableOccurrences.map (fun t => .data (beBytes t.1)) := by
  have ht : Shows [3, 17, 1, 3] [] (tableRecords f) [3] [] :=
    Shows.append (q := [3, 16, 1, 1]) (a := [.push 3, .push 16, .push 1, .push 1]) (x := []) ⟨rfl, rfl⟩ <|
    Shows.append (x := []) (Shows.flat f.tables _ (fun t => .longKv (encodeText t.2.name ++ [0, 0, 0]) [2, 128, UInt8.ofNat t.1])
      (fun _ _ => rfl) (fun _ _ => rfl)) <|
    Shows.append (q := [3, 16, 1, 3]) (a := [.pop, .push 3]) (x := []) ⟨rfl, rfl⟩ <|
    Shows.append (x := []) (Shows.flat f.tables _ (fun t => .longKv (beBytes t.1) (beBytes t.1)) (fun _ _ => rfl) (fun _ _ => rfl)) <|
    Shows.append (q := [3, 16, 1, 5]) (a := [.pop, .kv 4 (beBytes f.tables.length), .kv 216 (fmStringEncrypt t!"hello"),
        .kvE 129 [59, 62, 55, 51, 52], .kvE 130 [59, 62, 55, 51, 52], .push 5]) (x := []) ⟨rfl, rfl⟩ <|
    Shows.append (x := []) (Shows.dirs f.tables (by decide) (by decide)) ⟨rfl, rfl⟩
  have ho : Shows [3, 17, 1, 3] [3] (occurrenceRecords f) [] ([.push] ++ (f.tableOccurrences.map (fun t => .data (beBytes t.1)) ++ [])) :=
    Shows.append (q := [3, 17, 1, 1]) (a := [.push 17, .push 1, .kv 0 [3, 208, 0, 9], .push 1]) (x := []) ⟨rfl, rfl⟩ <|
    Shows.append (x := []) (Shows.flat f.tableOccurrences _ (fun t => .data (encodeText (t.2.name ++ ['\x00', '\x00'])))
      (fun _ _ => rfl) (fun _ _ => rfl)) <|
    Shows.append (q := [3, 17, 1, 3]) (a := [.pop, .push 3]) ⟨rfl, rfl⟩ <|
    Shows.append (Shows.flat f.tableOccurrences _ (fun t => .data (beBytes t.1)) (fun _ _ => rfl) (fun _ _ => rfl)) ⟨rfl, rfl⟩
  have hd : ∀ d, Shows [3, 17, 1, 3] [] (dirRecords d) [] [] := fun d => ⟨by simp [dirRecords, Spec.events, eventsIn], rfl⟩
  have hb : Shows [3, 17, 1, 3] [] blobRecords [] [] := ⟨rfl, rfl⟩
  have hl : Shows [3, 17, 1, 3] [] (layoutRecords f) [] [] := ⟨rfl, rfl⟩
  have hs : Shows [3, 17, 1, 3] [] (scriptRecords f) [] [] := ⟨rfl, rfl⟩
  have := (hb.append (ht.append (ho.append (hl.append ((hd 6).append (hs.append ((hd 23).append ((hd 6).append
    ((hd 25).append (hd 65)))))))))).1
  simpa [fileRecords] using this

theorem beBytes_inj {a b : Nat} (ha : a < 2 ^ 24) (hb : b < 2 ^ 24) (h : beBytes a = beBytes b) : a = b := by
  unfold beBytes at h
  simp only [List.cons.injEq, and_true] at h
  obtain ⟨_, h1, h2, h3⟩ := h
  have e1 := congrArg UInt8.toNat h1
  have e2 := congrArg UInt8.toNat h2
  have e3 := congrArg UInt8.toNat h3
  simp only [UInt8.toNat_ofNat'] at e1 e2 e3
  omega

end BurnFm
