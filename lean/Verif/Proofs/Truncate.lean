import Verif.Props.Chunk
import Verif.Model.Decompiler

/-! The decompiler reads nothing before sector 1, and never looks at where the file ends. -/

namespace BurnFm

theorem slice_more {b x : Bytes} {i j : Nat} (more : Bytes) (h : slice b i j = .ok x) : slice (b ++ more) i j = .ok x := by
  unfold slice at h ⊢
  split at h
  · rename_i hij
    have : i ≤ j ∧ j ≤ (b ++ more).length := ⟨hij.1, by rw [List.length_append]; omega⟩
    rw [if_pos this]
    cases h
    rw [List.drop_append_of_le_length (by omega), List.take_append_of_le_length (by rw [List.length_drop]; omega)]
  · cases h

theorem getSector_agree {a a' c d : Bytes} (hl : a.length = a'.length) {s : Nat} (hs : a.length ≤ s) {sec : Sector}
    (h : getSector (a ++ c) s = .ok sec) : getSector (a' ++ (c ++ d)) s = .ok sec := by
  unfold getSector at h ⊢
  obtain ⟨b, hb, h⟩ := bind_ok.mp h
  have hle : s ≤ (a ++ c).length := by
    unfold slice at hb
    split at hb
    · omega
    · cases hb
  have hb' : slice (a' ++ (c ++ d)) s (a' ++ (c ++ d)).length = .ok (b ++ d) := by
    unfold slice at hb ⊢
    rw [if_pos (by omega)] at hb
    rw [if_pos (by simp at hle ⊢; omega)]
    cases hb
    have e1 : (a ++ c).drop s = c.drop (s - a.length) := by rw [List.drop_append, List.drop_eq_nil_of_le hs, List.nil_append]
    have e2 : (a' ++ (c ++ d)).drop s = c.drop (s - a.length) ++ d := by
      rw [List.drop_append, List.drop_eq_nil_of_le (by omega), List.nil_append, ← hl,
        List.drop_append_of_le_length (by simp at hle; omega)]
    have e3 : (a ++ c).length - s = (c.drop (s - a.length)).length := by simp; omega
    have e4 : (a' ++ (c ++ d)).length - s = (c.drop (s - a.length) ++ d).length := by simp at hle ⊢; omega
    rw [e1, e2, e3, e4, List.take_length, List.take_length]
  rw [hb', ok_bind]
  obtain ⟨x0, h0, h⟩ := bind_ok.mp h
  obtain ⟨x1, h1, h⟩ := bind_ok.mp h
  obtain ⟨x2, h2, h⟩ := bind_ok.mp h
  obtain ⟨x3, h3, h⟩ := bind_ok.mp h
  obtain ⟨x4, h4, h⟩ := bind_ok.mp h
  have i0 : idx (b ++ d) 0 = .ok x0 := by
    have := idx_ok.mp h0
    exact idx_of (by rw [List.getElem?_append_left (List.getElem?_eq_some_iff.mp this).1]; exact this)
  have i1 : idx (b ++ d) 1 = .ok x1 := by
    have := idx_ok.mp h1
    exact idx_of (by rw [List.getElem?_append_left (List.getElem?_eq_some_iff.mp this).1]; exact this)
  have i4 : ∃ y, slice (b ++ d) 20 (b ++ d).length = .ok y := by
    unfold slice at h4 ⊢
    split at h4
    · rw [if_pos (by rw [List.length_append]; omega)]
      exact ⟨_, rfl⟩
    · cases h4
  obtain ⟨y, i4⟩ := i4
  rw [i0, ok_bind, i1, ok_bind, slice_more d h2, ok_bind, slice_more d h3, ok_bind, i4, ok_bind]
  exact h

theorem getChunk_agree {p : Profile} {a a' c d : Bytes} (hl : a.length = a'.length) {o o' loc : Nat} (ho : a.length ≤ o)
    (h2 : 2 ≤ (a ++ c).length) {path path' : DirPath} {ch : Chunk} (h : getChunk p (a ++ c) o path loc = .ok (.ok ch o' path')) :
    getChunk p (a' ++ (c ++ d)) o path loc = .ok (.ok ch o' path') ∧ o ≤ o' := by
  have hlt : o < (a ++ c).length := by
    obtain ⟨b, body, hb, _⟩ := getChunk_ok h
    exact (List.getElem?_eq_some_iff.mp hb).1
  have hle : o ≤ o' := by
    obtain ⟨b, body, _, hbody, hoff, _⟩ := getChunk_ok h
    rcases progress_body hbody with h1 | ⟨_, h1, _⟩ <;> omega
  refine ⟨?_, hle⟩
  have hs : a ++ c = (a ++ c.take (o - a.length)) ++ c.drop (o - a.length) := by
    rw [List.append_assoc, List.take_append_drop]
  have hlen : (a ++ c.take (o - a.length)).length = o := by simp at hlt ⊢; omega
  have hlen' : (a' ++ c.take (o - a.length)).length = o := by simp at hlt ⊢; omega
  have key := Props.chunk_context_independent p p (a ++ c.take (o - a.length)) (a' ++ c.take (o - a.length)) (c.drop (o - a.length)) d
    loc loc (o' - o) path path' ch (by rw [← hs, hlen, Nat.add_sub_cancel' hle]; exact h) (by simp at h2 hlt ⊢; omega)
  rw [hlen', Nat.add_sub_cancel' hle] at key
  rw [← key]
  congr 1
  rw [List.append_assoc, List.append_assoc, ← List.append_assoc (c.take _), List.take_append_drop]

theorem sectorLoop_agree {p : Profile} {a a' c d : Bytes} (hl : a.length = a'.length) (h2 : 2 ≤ (a ++ c).length) {start bound : Nat} :
    ∀ (fuel o : Nat) (path : DirPath) (st : DState) (r : Option DState), a.length ≤ o →
      sectorLoop p (a ++ c) start bound fuel o path st = .ok r → sectorLoop p (a' ++ (c ++ d)) start bound fuel o path st = .ok r
  | 0, _, _, _, _, _, h => h
  | fuel + 1, o, path, st, r, ho, h => by
    unfold sectorLoop at h ⊢
    split at h
    · rename_i hb
      rw [if_pos hb]
      obtain ⟨x, hx, h⟩ := bind_ok.mp h
      cases x with
      | invalid => cases h
      | ok ch o' path' =>
        obtain ⟨h1, h3⟩ := getChunk_agree (d := d) hl ho h2 hx
        rw [h1, ok_bind]
        obtain ⟨st', h4, h⟩ := bind_ok.mp h
        simp only [h4, ok_bind]
        exact sectorLoop_agree hl h2 fuel o' path' st' r (by omega) h
    · rename_i hb
      rw [if_neg hb]
      exact h

theorem fileLoop_agree {p : Profile} {a a' c d : Bytes} (hl : a.length = a'.length) (ha : a.length = 4096) {n : Nat} :
    ∀ (fuel i : Nat) (st : DState) (r : Option DState),
      fileLoop p (a ++ c) n fuel i st = .ok r → fileLoop p (a' ++ (c ++ d)) n fuel i st = .ok r
  | 0, _, _, _, h => h
  | fuel + 1, i, st, r, h => by
    unfold fileLoop at h ⊢
    split at h
    · rename_i hi
      rw [if_pos hi]
      exact h
    · rename_i hi
      rw [if_neg hi]
      obtain ⟨sec, hs, h⟩ := bind_ok.mp h
      dsimp only
      rw [getSector_agree (d := d) hl (by omega) hs, ok_bind]
      split at h
      · cases h
      · rename_i hn
        rw [if_neg hn]
        obtain ⟨x, hx, h⟩ := bind_ok.mp h
        rw [sectorLoop_agree hl (by simp; omega) fuel _ _ _ _ (by omega) hx, ok_bind]
        cases x with
        | none => exact h
        | some st' => exact fileLoop_agree hl ha fuel sec.next st' r h

theorem decompile_agree {p : Profile} {a a' c d : Bytes} (hl : a.length = a'.length) (ha : a.length = 4096) {fuel : Nat}
    {r : Option FmpFile} (h : decompile p (a ++ c) fuel = .ok r) : decompile p (a' ++ (c ++ d)) fuel = .ok r := by
  unfold decompile at h ⊢
  obtain ⟨first, h1, h⟩ := bind_ok.mp h
  obtain ⟨x, hx, h⟩ := bind_ok.mp h
  rw [getSector_agree (d := d) hl (by omega) h1, ok_bind, fileLoop_agree hl ha fuel _ _ _ hx, ok_bind]
  exact h

theorem decompile_first {p : Profile} {buf : Bytes} {fuel : Nat} {r : Option FmpFile} (h : decompile p buf fuel = .ok r) :
    ∃ sec, getSector buf 4096 = .ok sec := by
  unfold decompile at h
  obtain ⟨first, h1, _⟩ := bind_ok.mp h
  exact ⟨first, h1⟩

theorem getSector_length {buf : Bytes} {s : Nat} (h : ∃ sec, getSector buf s = .ok sec) : s + 20 ≤ buf.length := by
  obtain ⟨sec, h⟩ := h
  unfold getSector at h
  obtain ⟨b, hb, h⟩ := bind_ok.mp h
  obtain ⟨_, _, h⟩ := bind_ok.mp h
  obtain ⟨_, _, h⟩ := bind_ok.mp h
  obtain ⟨_, _, h⟩ := bind_ok.mp h
  obtain ⟨_, _, h⟩ := bind_ok.mp h
  obtain ⟨_, h20, _⟩ := bind_ok.mp h
  unfold slice at hb h20
  split at hb
  · cases hb
    split at h20
    · rename_i h'
      rw [List.length_take, List.length_drop] at h'
      omega
    · cases h20
  · cases hb

theorem decompile_length {p : Profile} {buf : Bytes} {fuel : Nat} {r : Option FmpFile} (h : decompile p buf fuel = .ok r) :
    4096 ≤ buf.length := by
  have := getSector_length (decompile_first h)
  omega

end BurnFm
