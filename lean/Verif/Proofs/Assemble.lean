import Verif.Proofs.Assembler
import Verif.Proofs.Terminates

/-! Helper lemmas about whole assembled files. -/

namespace BurnFm

/-- The buffer keeps its size, and nothing before the old index changes. -/
def Frame (s t : Asm) : Prop :=
  t.buf.length = s.buf.length ∧ s.idx ≤ t.idx ∧ ∀ i : Nat, i < s.idx → t.buf[i]? = s.buf[i]?

def Framed (f : Asm → Res Asm) : Prop := ∀ s t, f s = .ok t → Frame s t

theorem Frame.trans {a b c : Asm} (h : Frame a b) (g : Frame b c) : Frame a c :=
  ⟨g.1.trans h.1, Nat.le_trans h.2.1 g.2.1, fun i hi => (g.2.2 i (by have := h.2.1; omega)).trans (h.2.2 i hi)⟩

theorem Frame.rfl (a : Asm) : Frame a a := ⟨Eq.refl _, Nat.le_refl _, fun _ _ => Eq.refl _⟩

theorem Framed.bind {f g : Asm → Res Asm} (hf : Framed f) (hg : Framed g) : Framed (fun s => f s >>= g) := by
  intro s t h
  obtain ⟨u, h1, h2⟩ := bind_ok.mp h
  exact (hf _ _ h1).trans (hg _ _ h2)

theorem Framed.pre {α : Type} {r : Res α} {g : α → Asm → Res Asm} (hg : ∀ a, Framed (g a)) :
    Framed (fun s => r >>= fun a => g a s) := by
  intro s t h
  obtain ⟨u, h1, h2⟩ := bind_ok.mp h
  exact hg u _ _ h2

theorem Framed.fold {α : Type} {g : Asm → α → Res Asm} (hg : ∀ a, Framed (fun s => g s a)) (l : List α) :
    Framed (fun s => l.foldlM g s) := by
  induction l with
  | nil => intro s t h; cases h; exact .rfl _
  | cons a l ih =>
    intro s t h
    dsimp only at h
    rw [List.foldlM_cons] at h
    obtain ⟨u, h1, h2⟩ := bind_ok.mp h
    exact (hg a _ _ h1).trans (ih _ _ h2)

theorem write_get {s t : Asm} {e : Bytes} {g : Nat} (h : s.write e g = .ok t) (i : Nat) :
    t.buf[i]? = if i < s.idx then s.buf[i]? else if i < s.idx + e.length then e[i - s.idx]? else s.buf[i]? := by
  obtain ⟨h1, h2, h3⟩ := write_length h
  unfold Asm.write at h
  rw [if_pos h3] at h
  cases h
  dsimp only
  have hl : (s.buf.take s.idx).length = s.idx := by simp; omega
  split
  · rename_i hi
    rw [List.append_assoc, List.getElem?_append_left (by omega), List.getElem?_take_of_lt hi]
  · rename_i hi
    split
    · rename_i hi2
      rw [List.append_assoc, List.getElem?_append_right (by omega), hl, List.getElem?_append_left (by omega)]
    · rename_i hi2
      rw [List.getElem?_append_right (by simp only [List.length_append, hl]; omega), List.getElem?_drop]
      simp only [List.length_append, hl]
      congr 1; omega

theorem Framed.write (e : Bytes) (g : Nat) : Framed (fun s => s.write e g) := by
  intro s t h
  obtain ⟨h1, h2, h3⟩ := write_length h
  refine ⟨h1, by omega, fun i hi => ?_⟩
  rw [write_get h, if_pos hi]

theorem Framed.push (d : UInt32) : Framed (fun s => emitPush s d) := by
  intro s t h; exact Framed.write _ _ _ _ ((emitPush_eq s d).symm.trans h)
theorem Framed.pop : Framed emitPop := by
  intro s t h; exact Framed.write _ _ _ _ ((emitPop_eq s).symm.trans h)
theorem Framed.noop : Framed emitNoop := by
  intro s t h; exact Framed.write _ _ _ _ ((emitNoop_eq s).symm.trans h)
theorem Framed.kv (k : UInt8) (v : Bytes) : Framed (fun s => emitKv s k v) := by
  intro s t h; exact Framed.write _ _ _ _ ((emitKv_eq s k v).symm.trans h)
theorem Framed.kvE (k : UInt32) (v : Bytes) : Framed (fun s => emitKvE s k v) := by
  intro s t h; exact Framed.write _ _ _ _ ((emitKvE_eq s k v).symm.trans h)
theorem Framed.longKv (k v : Bytes) : Framed (fun s => emitLongKv s k v) := by
  intro s t h; exact Framed.write _ _ _ _ ((emitLongKv_eq s k v).symm.trans h)
theorem Framed.data (v : Bytes) : Framed (fun s => emitData1B s v) := by
  intro s t h; exact Framed.write _ _ _ _ ((emitData1B_eq s v).symm.trans h)

theorem Framed.initBlobs : Framed emitInitBlobs := by
  unfold emitInitBlobs
  exact .bind (.push _) (.bind (.kv _ _) (.bind (.kv _ _) (.bind (.kv _ _) (.bind (.kv _ _) (.bind (.kv _ _)
    (.bind (.kv _ _) (.bind (.kv _ _) .pop)))))))

theorem Framed.tableMetadata (p : Profile) (f : FmpFile) : Framed (emitTableMetadata p f) := by
  unfold emitTableMetadata
  exact .bind (.push _) (.bind (.push _) (.bind (.push _) (.bind (.push _)
    (.bind (.fold (fun _ => .longKv _ _) _) (.bind .pop (.bind (.push _)
    (.bind (.fold (fun _ => .pre fun _ => .longKv _ _) _) (.bind .pop (.pre fun _ =>
    .bind (.kv _ _) (.bind (.kv _ _) (.bind (.kvE _ _) (.bind (.kvE _ _) (.bind (.push _)
    (.bind (.fold (fun _ => .pre fun _ => .bind (.push _) .pop) _) (.bind .pop (.bind .pop .pop))))))))))))))))

theorem Framed.relationshipData (p : Profile) (f : FmpFile) : Framed (emitRelationshipData p f) := by
  unfold emitRelationshipData
  exact .bind (.push _) (.bind (.push _) (.bind (.kv _ _) (.bind (.push _)
    (.bind (.fold (fun _ => .data _) _) (.bind .pop (.bind (.push _)
    (.bind (.fold (fun _ => .pre fun _ => .data _) _) (.bind .pop (.bind (.push _) (.bind .pop (.bind .pop
      (.bind .pop .pop))))))))))))

theorem Framed.emptyDir (d : UInt32) : Framed (emitEmptyDir d) := .bind (.push _) .pop

theorem Framed.sections (p : Profile) (f : FmpFile) : Framed (emitSections p f) :=
  .bind .noop (.bind .initBlobs (.bind (.tableMetadata p f) (.bind (.relationshipData p f)
    (.bind (.bind (.push _) (.bind (.push _) (.bind (.kv _ _) (.bind (.push _) (.bind .pop (.bind .pop .pop))))))
    (.bind (.emptyDir _)
    (.bind (.bind (.push _) (.bind (.push _) (.bind (.kv _ _) (.bind (.push _) (.bind .pop (.bind .pop .pop))))))
    (.bind (.emptyDir _) (.bind (.emptyDir _) (.bind (.emptyDir _) (.emptyDir _))))))))))

theorem headerInit_length : headerInit.length = 4095 := by
  simp only [headerInit, List.length_append, List.length_replicate, List.length_cons, List.length_nil]

/-- Appending a blank sector whose link is `n`. -/
theorem blank_spec {p : Profile} {s t u : Asm} {n : Nat} (h : appendBlank p s = .ok t) (h2 : setNext n t = .ok u) :
    u.idx = s.buf.length + 1 ∧ u.buf.length = s.buf.length + 4096 ∧
    (∀ i : Nat, i < s.buf.length → u.buf[i]? = s.buf[i]?) ∧
    (∀ i : Nat, s.buf.length ≤ i → i < s.buf.length + 4096 → i < s.buf.length + 9 ∨ s.buf.length + 13 ≤ i → u.buf[i]? = some 0) ∧
    (∀ k, k < 4 → u.buf[s.buf.length + 9 + k]? = (beBytes n)[k]?) := by
  unfold appendBlank at h
  obtain ⟨i, h3, h4⟩ := bind_ok.mp h
  unfold usub at h3
  rw [if_pos (by rw [List.length_append, List.length_replicate]; omega)] at h3
  injection h3 with h3
  subst h3
  injection h4 with h4
  subst h4
  unfold setNext at h2
  obtain ⟨v, h5, h6⟩ := bind_ok.mp h2
  injection h6 with h6
  subst h6
  rw [splice_eq] at h5
  have hl := write_length h5
  have hg := fun i => write_get h5 i
  dsimp only at hl hg ⊢
  have hbe : (beBytes n).length = 4 := rfl
  simp only [List.length_append, List.length_replicate, hbe] at hl hg ⊢
  refine ⟨by omega, by omega, ?_, ?_, ?_⟩
  · intro i hi
    rw [hg, if_pos (by omega), List.getElem?_append_left hi]
  · intro i h1 h2 h3
    rw [hg]
    have e : (s.buf ++ List.replicate 4096 0)[i]? = some 0 := by
      rw [List.getElem?_append_right h1, List.getElem?_replicate_of_lt (by omega)]
    rcases h3 with h3 | h3
    · rw [if_pos (by omega), e]
    · rw [if_neg (by omega), if_neg (by omega), e]
  · intro k hk
    rw [hg, if_neg (by omega), if_pos (by omega)]
    rw [show s.buf.length + 9 + k - (s.buf.length + 4096 - 4095 + 8) = k by omega]

theorem be32_of {buf : Bytes} {o n : Nat} (h : ∀ k, k < 4 → buf[o + k]? = (beBytes n)[k]?) (hn : n < 256) : Spec.be32 buf o = n := by
  unfold Spec.be32
  simp only [List.getD_eq_getElem?_getD]
  rw [show o = o + 0 from rfl, h 0 (by omega), Nat.add_assoc o 0, Nat.add_assoc o 0, Nat.add_assoc o 0, h (0 + 1) (by omega), h (0 + 2) (by omega),
    h (0 + 3) (by omega)]
  simp [beBytes]
  omega

/-- The parts of an assembled file. `s` is the assembler before the chunks are written, `t` after. -/
theorem assemble_spec {p : Profile} {f : FmpFile} {buf : Bytes} (h : assemble p f = .ok buf) :
    ∃ s t, emitSections p f s = .ok t ∧ s.idx = 8212 ∧ s.buf.length = 12287 ∧
      buf.length = 20479 ∧ t.buf.length = 12287 ∧ (∀ i : Nat, i < 12287 → buf[i]? = t.buf[i]?) ∧
      (∀ i : Nat, 8212 ≤ i → i < 12287 → s.buf[i]? = some 0) ∧
      (∀ i : Nat, 12287 ≤ i → i < 20479 → i < 12296 ∨ 12300 ≤ i → buf[i]? = some 0) ∧
      Spec.be32 buf 4104 = 4 ∧ Spec.be32 buf 8200 = 3 ∧ Spec.be32 buf 12296 = 4 ∧ Spec.be32 buf 16392 = 0 ∧
      (∀ i : Nat, i < (utf8 (f.name ++ ['/'])).length → buf[3082 + i]? = (utf8 (f.name ++ ['/']))[i]?) ∧
      3082 + (utf8 (f.name ++ ['/'])).length ≤ 4095 := by
  unfold assemble at h
  simp only [bind_ok] at h
  obtain ⟨s0, h0, s1, h1, s2, h2, s3, h3, s4, h4, s5, h5, s6, h6, s7, h7, s8, h8, s9, h9, h10⟩ := h
  cases h10
  rw [splice_eq] at h0
  have l0 := write_length h0
  have w0 := fun i => write_get h0 i
  dsimp only at l0 w0
  rw [headerInit_length] at l0
  obtain ⟨a1, a2, a3, a4, a5⟩ := blank_spec h1 h2
  obtain ⟨b1, b2, b3, b4, b5⟩ := blank_spec h3 h4
  obtain ⟨c1, c2, c3⟩ := Framed.sections p f _ _ h5
  obtain ⟨d1, d2, d3, d4, d5⟩ := blank_spec h6 h7
  obtain ⟨e1, e2, e3, e4, e5⟩ := blank_spec h8 h9
  dsimp only at c1 c2 c3 e1 e2 e3 e4 e5
  rw [l0.1] at a1 a2 a3 a4 a5
  rw [a2] at b1 b2 b3 b4 b5
  rw [b2] at c1
  rw [c1] at d1 d2 d3 d4 d5
  rw [d2] at e1 e2 e3 e4 e5
  simp only [Nat.reduceAdd] at *
  rw [b1] at c2 c3
  refine ⟨_, s5, h5, by dsimp only; omega, b2, by omega, c1, ?_, ?_, ?_, ?_, ?_, ?_, ?_, ?_, by omega⟩
  · intro i hi; rw [e3 i (by omega), d3 i (by omega)]
  · intro i hi hi2
    dsimp only
    rw [b4 i (by omega) (by omega) (by omega)]
  · intro i h1 h2 h3
    by_cases h4 : i < 16383
    · rw [e3 i h4, d4 i (by omega) (by omega) (by omega)]
    · by_cases h5 : i < 16392 ∨ 16396 ≤ i
      · rw [e4 i (by omega) (by omega) (by omega)]
      · have := e5 (i - 16392) (by omega)
        rw [show 16392 + (i - 16392) = i by omega] at this
        rw [this]
        have : i = 16392 ∨ i = 16393 ∨ i = 16394 ∨ i = 16395 := by omega
        rcases this with rfl | rfl | rfl | rfl <;> rfl
  · refine be32_of (fun k hk => ?_) (by omega)
    rw [e3 _ (by omega), d3 _ (by omega), c3 _ (by omega), b3 _ (by omega)]
    exact a5 k hk
  · refine be32_of (fun k hk => ?_) (by omega)
    rw [e3 _ (by omega), d3 _ (by omega), c3 _ (by omega)]
    exact b5 k hk
  · refine be32_of (fun k hk => ?_) (by omega)
    rw [e3 _ (by omega)]
    exact d5 k hk
  · exact be32_of e5 (by omega)
  · intro i hi
    rw [e3 _ (by omega), d3 _ (by omega), c3 _ (by omega), b3 _ (by omega), a3 _ (by omega), w0, if_neg (by omega), if_pos (by omega), Nat.add_sub_cancel_left]

end BurnFm
