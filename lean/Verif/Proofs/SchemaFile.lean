import Verif.Proofs.SchemaFold
import Verif.Proofs.AssembleRecords
import Verif.Proofs.Terminates

/-! Decompiling a file with a schema. -/

namespace BurnFm

theorem isEntry_cases {path : List Nat} (h : Spec.isEntry path = true) :
    (∃ x, path = [3, 16, 5, x]) ∨ ∃ d f, 128 ≤ d ∧ path = [d, 3, 5, f] := by
  unfold Spec.isEntry at h
  simp only [Bool.and_eq_true, beq_iff_eq, Bool.or_eq_true, decide_eq_true_eq] at h
  obtain ⟨h1, h2 | h2⟩ := h
  · exact .inl ⟨_, take3_eq h1 h2⟩
  · match path, h1 with
    | [x, y, z, w], _ =>
      simp at h2
      obtain ⟨⟨h2, rfl⟩, rfl⟩ := h2
      exact .inr ⟨x, w, h2, rfl⟩

/-- Chunks about tables do not make the decompiler panic when the events do not, and chunks elsewhere in `other`
directories never do. -/
theorem dispatch_success {p : Profile} {st : DState} {ch : Chunk} (hs : Shape ch)
    (hok : ∀ w, meaning ch = some w → Spec.describesSchema ⟨ch.path, w⟩ = true → OkStep st.file.tables ⟨ch.path, w⟩)
    (hp : classify ch.path = .other ∨ Spec.isEntry ch.path = true) :
    ∃ st', dispatch p st ch.path ch = .ok st' ∧ st'.segments = st.segments := by
  rcases hp with hp | hp
  · exact ⟨st, by unfold dispatch; rw [hp], rfl⟩
  have hd : ∀ w, (w = .push ∨ ∃ k v, w = .kv k v) → Spec.describesSchema ⟨ch.path, w⟩ = true := by
    rintro w (rfl | ⟨k, v, rfl⟩) <;> unfold Spec.describesSchema <;> simp [hp]
  rcases isEntry_cases hp with ⟨x, hx⟩ | ⟨d, f, hd1, hx⟩
  · have hc : classify ch.path = .tableMeta x := by rw [hx, classify_tableMeta]
    unfold dispatch
    rw [hc]
    dsimp only
    unfold armTableMeta
    rcases hs.cases with ⟨h1, h2, h3⟩ | ⟨h1, k, v, h2, h3, h4⟩ | ⟨h1, h2, h3, h4, h5⟩
    · have ok := hok _ h2 (hd _ (.inl rfl))
      simp only [OkStep, hc] at ok
      rw [if_pos h1]
      split
      · exact ⟨st, rfl, rfl⟩
      · unfold usub; rw [if_pos ok]; exact ⟨_, rfl, rfl⟩
    · have ok := hok _ h4 (hd _ (.inr ⟨_, _, rfl⟩))
      simp only [OkStep, hc] at ok
      rw [if_neg (by rw [h1]; simp), h2]
      unfold usub
      rw [if_pos ok.1, ok_bind]
      by_cases hk : k = 16
      · simp only [Option.getD_some, hk, if_true, ok.2 hk]
        exact ⟨_, rfl, rfl⟩
      · simp only [Option.getD_some, hk, if_false]
        exact ⟨_, rfl, rfl⟩
    · rw [if_neg h1, h3]
      exact ⟨st, rfl, rfl⟩
  · have hc : classify ch.path = .field d f := by rw [hx, classify_field _ hd1]
    unfold dispatch
    rw [hc]
    dsimp only
    unfold armField
    rw [if_neg (by omega)]
    dsimp only
    rcases hs.cases with ⟨h1, h2, h3⟩ | ⟨h1, k, v, h2, h3, h4⟩ | ⟨h1, h2, h3, h4, h5⟩
    · rw [if_pos h1]
      exact ⟨_, rfl, rfl⟩
    · have ok := hok _ h4 (hd _ (.inr ⟨_, _, rfl⟩))
      simp only [OkStep, hc] at ok
      obtain ⟨tb, o1, o2⟩ := ok
      rw [if_neg (by rw [h1]; simp)]
      cases fieldSetter (ch.refSimple.getD 0) (fmStringDecrypt (dataOr ch)) with
      | none => exact ⟨_, rfl, rfl⟩
      | some g =>
        dsimp only
        rw [o1]
        dsimp only
        rw [if_pos o2]
        exact ⟨_, rfl, rfl⟩
    · rw [if_neg h1, h3]
      have : ∀ s, fieldSetter ((none : Option Nat).getD 0) s = none := fun s => rfl
      rw [this]
      exact ⟨_, rfl, rfl⟩

theorem Steps.cons_inv {T T' : HMap FTable} {e : Spec.Event} {es : List Spec.Event} (h : Steps T (e :: es) T') :
    OkStep T e ∧ Steps (tstep T e) es T' := by
  cases h with
  | cons h1 h2 => exact ⟨h1, h2⟩

theorem okStep_meta {T : HMap FTable} {x : Nat} {w : Spec.What} (h : OkStep T ⟨[3, 16, 5, x], w⟩)
    (hd : Spec.describesSchema ⟨[3, 16, 5, x], w⟩ = true) : 128 ≤ x := by
  simp only [OkStep, classify_tableMeta] at h
  unfold Spec.describesSchema at hd
  cases w <;> simp at hd h
  · exact h.1
  · exact h

theorem run_success {p : Profile} {chs : List Chunk} (hs : ∀ ch ∈ chs, Shape ch)
    (hp : ∀ ch ∈ chs, classify ch.path = .other ∨ Spec.isEntry ch.path = true) :
    ∀ {st : DState} {T : HMap FTable}, Steps st.file.tables ((eventsOf chs).filter Spec.describesSchema) T →
      ∃ st', runChunks p st chs = .ok st' ∧ st'.segments = st.segments ∧ st'.file.tables = T := by
  induction chs with
  | nil => intro st T h; cases h; exact ⟨st, rfl, rfl, rfl⟩
  | cons ch chs ih =>
    intro st T h
    have e : eventsOf (ch :: chs) = ((meaning ch).map fun w => (⟨ch.path, w⟩ : Spec.Event)).toList ++ eventsOf chs := by
      unfold eventsOf
      rw [List.filterMap_cons]
      cases meaning ch <;> rfl
    rw [e, List.filter_append] at h
    have hok : ∀ w, meaning ch = some w → Spec.describesSchema ⟨ch.path, w⟩ = true → OkStep st.file.tables ⟨ch.path, w⟩ := by
      intro w hw hd
      rw [hw] at h
      simp only [Option.map_some, Option.toList_some, List.filter_cons, hd, if_true, List.filter_nil, List.cons_append, List.nil_append] at h
      exact h.cons_inv.1
    obtain ⟨st', h1, h2⟩ := dispatch_success (p := p) (st := st) (hs ch (by simp)) hok (hp ch (by simp))
    have h3 := dispatch_tables (hs ch (by simp)) h1 (fun w x hw hd hx => by
      have := hok w hw hd
      rw [hx] at this hd
      exact okStep_meta this hd)
    have h4 : Steps st'.file.tables ((eventsOf chs).filter Spec.describesSchema) T := by
      rw [h3]
      cases hm : meaning ch with
      | none => rw [hm] at h; exact h
      | some w =>
        rw [hm] at h
        dsimp only
        simp only [Option.map_some, Option.toList_some, List.filter_cons, List.filter_nil] at h
        split
        · rename_i hd
          rw [if_pos hd] at h
          exact h.cons_inv.2
        · rename_i hd
          rw [if_neg hd] at h
          exact h
    obtain ⟨u, i1, i2, i3⟩ := ih (fun c hc => hs c (by simp [hc])) (fun c hc => hp c (by simp [hc])) h4
    refine ⟨u, ?_, i2.trans h2, i3⟩
    rw [runChunks_cons, h1, ok_bind, i1]

theorem entry_describes (enc : Str → Bytes) (dir : List Nat) (attrs : List (Nat × Str)) (h : Spec.isEntry dir = true) :
    ∀ e ∈ Spec.entry enc dir attrs, Spec.describesSchema e = true := by
  intro e he
  unfold Spec.entry at he
  rcases List.mem_cons.mp he with rfl | he
  · simp [Spec.describesSchema, h]
  · obtain ⟨a, _, rfl⟩ := List.mem_map.mp he
    simp [Spec.describesSchema, h]

theorem isEntry_table (x : Nat) : Spec.isEntry [3, 16, 5, x] = true := by simp [Spec.isEntry]
theorem isEntry_field {d : Nat} (f : Nat) (h : 128 ≤ d) : Spec.isEntry [d, 3, 5, f] = true := by simp [Spec.isEntry, h]

theorem shape_readsTo {p : Profile} {code : Bytes} {loc bound o : Nat} {path : DirPath} {chs : List Chunk}
    (h : ReadsTo p code loc bound o path chs) : ∀ ch ∈ chs, Shape ch := by
  induction h with
  | done => simp
  | cons _ h2 _ ih =>
    intro ch hch
    rcases List.mem_cons.mp hch with rfl | hch
    · exact getChunk_shape h2
    · exact ih ch hch

theorem shape_fileReads {p : Profile} {buf : Bytes} {n i : Nat} {chs : List Chunk} (h : FileReads p buf n i chs) :
    ∀ ch ∈ chs, Shape ch := by
  induction h with
  | done => simp
  | sector _ _ _ h4 _ ih =>
    intro ch hch
    rcases List.mem_append.mp hch with hch | hch
    · exact shape_readsTo h4 ch hch
    · exact ih ch hch

/-- Records, the directories they are in, and those of their events that are about tables. -/
def Says : DirPath → List Spec.Record → DirPath → List Spec.Event → Prop
  | path, rs, path', es => Spec.finalPath path rs = path' ∧ (Spec.events path rs).filter Spec.describesSchema = es ∧
      ∀ e ∈ Spec.events path rs, classify e.path = .other ∨ Spec.isEntry e.path = true

theorem Says.nil (path : DirPath) : Says path [] path [] := ⟨rfl, rfl, by simp [Spec.events]⟩

theorem Says.append {path path' path'' : DirPath} {a b : List Spec.Record} {es es' : List Spec.Event} (h1 : Says path a path' es)
    (h2 : Says path' b path'' es') : Says path (a ++ b) path'' (es ++ es') := by
  obtain ⟨a1, a2, a3⟩ := h1
  obtain ⟨b1, b2, b3⟩ := h2
  subst a1
  refine ⟨?_, ?_, ?_⟩
  · have : ∀ (a b : List Spec.Record) (path : DirPath), Spec.finalPath path (a ++ b) = Spec.finalPath (Spec.finalPath path a) b := by
      intro a
      induction a with
      | nil => intro b path; rfl
      | cons r a ih => intro b path; cases r <;> simp only [List.cons_append, Spec.finalPath] <;> exact ih b _
    rw [this, b1]
  · have : ∀ (a b : List Spec.Record) (path : DirPath),
        Spec.events path (a ++ b) = Spec.events path a ++ Spec.events (Spec.finalPath path a) b := by
      intro a
      induction a with
      | nil => intro b path; rfl
      | cons r a ih => intro b path; cases r <;> simp only [List.cons_append, Spec.finalPath, Spec.events] <;> rw [ih b _]
    rw [this, List.filter_append, a2, b2]
  · intro e he
    have : ∀ (a b : List Spec.Record) (path : DirPath),
        Spec.events path (a ++ b) = Spec.events path a ++ Spec.events (Spec.finalPath path a) b := by
      intro a
      induction a with
      | nil => intro b path; rfl
      | cons r a ih => intro b path; cases r <;> simp only [List.cons_append, Spec.finalPath, Spec.events] <;> rw [ih b _]
    rw [this] at he
    rcases List.mem_append.mp he with he | he
    · exact a3 e he
    · exact b3 e he

theorem Says.fold {α : Type} {path : DirPath} {rs : α → List Spec.Record} {es : α → List Spec.Event} (l : List α)
    (h : ∀ a ∈ l, Says path (rs a) path (es a)) : Says path (l.flatMap rs) path (l.flatMap es) := by
  induction l with
  | nil => exact .nil _
  | cons a l ih => rw [List.flatMap_cons, List.flatMap_cons]; exact (h a (by simp)).append (ih (fun b hb => h b (by simp [hb])))

theorem says_other_push {path : DirPath} (d : Nat) (h : classify (path ++ [d]) = .other) (h2 : Spec.isEntry (path ++ [d]) = false) :
    Says path [.push d] (path ++ [d]) [] := by
  refine ⟨rfl, ?_, ?_⟩
  · simp [Spec.events, Spec.describesSchema, h2]
  · simp [Spec.events, h]

theorem says_pop {path : DirPath} (h : classify path.dropLast = .other) : Says path [.pop] path.dropLast [] := by
  refine ⟨rfl, ?_, ?_⟩
  · simp [Spec.events, Spec.describesSchema]
  · simp [Spec.events, h]

theorem says_attr {enc : Str → Bytes} {path : DirPath} (a : Nat × Str) (h : Spec.isEntry path = true) :
    Says path [Spec.attrRecord enc a] path [⟨path, .kv a.1 (enc a.2)⟩] := by
  unfold Spec.attrRecord
  split
  · rename_i hlt
    refine ⟨rfl, ?_, ?_⟩
    · have : (UInt8.ofNat a.1).toNat = a.1 := by rw [UInt8.toNat_ofNat']; omega
      simp [Spec.events, Spec.describesSchema, h, this]
    · simp [Spec.events, h]
  · refine ⟨rfl, ?_, ?_⟩
    · simp [Spec.events, Spec.describesSchema, h]
    · simp [Spec.events, h]

theorem says_entry {enc : Str → Bytes} {path : DirPath} (d : Nat) (attrs : List (Nat × Str)) (h : Spec.isEntry (path ++ [d]) = true)
    (h2 : classify path = .other) : Says path (.push d :: attrs.map (Spec.attrRecord enc) ++ [.pop]) path (Spec.entry enc (path ++ [d]) attrs) := by
  have e1 : Says path [.push d] (path ++ [d]) [⟨path ++ [d], .push⟩] := by
    refine ⟨rfl, ?_, ?_⟩
    · simp [Spec.events, Spec.describesSchema, h]
    · simp [Spec.events, h]
  have e2 : Says (path ++ [d]) (attrs.map (Spec.attrRecord enc)) (path ++ [d])
      (attrs.map fun a => ⟨path ++ [d], .kv a.1 (enc a.2)⟩) := by
    have := Says.fold (path := path ++ [d]) attrs (fun a _ => says_attr (enc := enc) a h)
    rw [← List.map_eq_flatMap, ← List.map_eq_flatMap] at this
    exact this
  have e3 : Says (path ++ [d]) [.pop] path [] := by
    have := says_pop (path := path ++ [d]) (by rw [List.dropLast_concat]; exact h2)
    rwa [List.dropLast_concat] at this
  have := (e1.append e2).append e3
  rw [List.append_nil] at this
  exact this

theorem says_schema (enc : Str → Bytes) (ts : List Spec.TableDef) :
    Says [] (Spec.schemaRecords enc ts) [] (Spec.tableEvents enc ts ++ Spec.fieldEvents enc ts) := by
  have p1 : Says [] [.push 3, .push 16, .push 5] [3, 16, 5] [] :=
    (says_other_push (path := []) 3 rfl rfl).append ((says_other_push (path := [3]) 16 rfl rfl).append (says_other_push (path := [3, 16]) 5 rfl rfl))
  have p2 : Says [3, 16, 5] [.pop, .pop, .pop] [] [] :=
    (says_pop (path := [3, 16, 5]) rfl).append ((says_pop (path := [3, 16]) rfl).append (says_pop (path := [3]) rfl))
  have h1 : Says [3, 16, 5] (ts.flatMap fun t => .push (128 + t.id) :: t.attrs.map (Spec.attrRecord enc) ++ [.pop]) [3, 16, 5]
      (Spec.tableEvents enc ts) :=
    Says.fold ts fun t _ => says_entry (path := [3, 16, 5]) (128 + t.id) t.attrs (isEntry_table _) rfl
  have h2 : Says [] (ts.flatMap fun t => [.push (128 + t.id), .push 3, .push 5] ++
      t.fields.flatMap (fun f => .push f.id :: f.attrs.map (Spec.attrRecord enc) ++ [.pop]) ++ [.pop, .pop, .pop]) [] (Spec.fieldEvents enc ts) := by
    refine Says.fold ts fun t _ => ?_
    have hne : 128 + t.id ≠ 3 := by omega
    have c1 : classify [128 + t.id] = .other := by simp [classify]
    have c2 : classify [128 + t.id, 3] = .other := by simp [classify]
    have c3 : classify [128 + t.id, 3, 5] = .other := by simp [classify]
    have q1 : Says [] [.push (128 + t.id), .push 3, .push 5] [128 + t.id, 3, 5] [] :=
      (says_other_push (path := []) (128 + t.id) c1 rfl).append ((says_other_push (path := [128 + t.id]) 3 c2 rfl).append
        (says_other_push (path := [128 + t.id, 3]) 5 c3 rfl))
    have q2 : Says [128 + t.id, 3, 5] [.pop, .pop, .pop] [] [] :=
      (says_pop (path := [128 + t.id, 3, 5]) c2).append ((says_pop (path := [128 + t.id, 3]) c1).append (says_pop (path := [128 + t.id]) rfl))
    have q3 := Says.fold (path := [128 + t.id, 3, 5]) t.fields fun f _ =>
      says_entry (enc := enc) (path := [128 + t.id, 3, 5]) f.id f.attrs (isEntry_field f.id (by omega)) c3
    have := (q1.append q3).append q2
    rw [List.nil_append, List.append_nil] at this
    exact this
  have := ((p1.append h1).append p2).append h2
  rw [List.nil_append, List.append_nil] at this
  exact this

end BurnFm
