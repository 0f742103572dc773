import Verif.Proofs.DecompilerLines
import Verif.Props.FileContents

/-! Property C134: what the decompiler writes to the terminal. -/

namespace BurnFm.Props
open Spec (MeetsUnknown)

/-- C134: writing lines does not change what is decompiled. -/
theorem lines_do_not_matter (p : Profile) (buf : Bytes) (fuel : Nat) : (decompileSaid p buf fuel).2 = decompile p buf fuel :=
  decompileSaid_result p buf fuel

/-- C134: an unknown code is reported exactly when reading comes to a byte that begins no chunk. The line names its opcode. Its
two other numbers are computed from the sector and the offset: 4096 divided by the distance from the beginning of the sector, and the
beginning of the sector. -/
theorem unknown_code_reported (p : Profile) (buf : Bytes) (b l : Nat) (c : UInt8) :
    (∃ fuel ls, decompileSaid p buf fuel = (ls ++ [.unknownCode b l c], .error .unwrap)) ↔
    ∃ j o x, MeetsUnknown p buf j o x ∧ b = 4096 / (o - j * 4096) ∧ l = j * 4096 ∧ c.toNat = Spec.opcode x := by
  constructor
  · rintro ⟨fuel, ls, h⟩
    unfold decompileSaid at h
    cases hg : getSector buf 4096 with
    | error e =>
      rw [hg] at h
      injection h with h1 _
      exact absurd h1 (by simp)
    | ok sec =>
      rw [hg] at h
      dsimp only at h
      rw [show sec.next = Spec.nextSector buf 1 from getSector_link hg] at h
      rcases fileSaid_cases p buf (Spec.nextSector buf 1) fuel 2 {} with hn | ⟨ls', chs, j, o, st', x, hr, _, h3, h4, h5, h6⟩
      · exfalso
        have hm : (.unknownCode b l c : DecLine) ∈ (fileSaid p buf (Spec.nextSector buf 1) fuel 2 {}).1 := by
          rcases hx : fileSaid p buf (Spec.nextSector buf 1) fuel 2 {} with ⟨l1, _ | _ | st⟩
          all_goals
            rw [hx] at h
            injection h with h1 h2
            subst h1
            simp
        exact absurd (hn _ hm) (by simp [DecLine.isUnknown])
      · rw [hr] at h
        injection h with h1 _
        have := (List.append_inj' h1 rfl).2
        injection this with this _
        unfold unknownLine at this
        injection this with e1 e2 e3
        refine ⟨j, o, x, ⟨getSector_bound hg, chs, h3, ⟨st', h4⟩, h5, h6⟩, e1.symm, e2.symm, ?_⟩
        rw [← e3, opcode_strip]
  · rintro ⟨j, o, x, ⟨h1, chs, h2, ⟨st', h3⟩, h4, h5⟩, rfl, rfl, hc⟩
    obtain ⟨fuel₀, hs⟩ := fileSaid_stops h2 h4 h5
    obtain ⟨ls, hl⟩ := hs fuel₀ {} st' (Nat.le_refl _) h3
    obtain ⟨sec, g1, g2⟩ := getSector_of (start := 4096) (buf := buf) (by omega)
    refine ⟨fuel₀, ls, ?_⟩
    unfold decompileSaid
    rw [g1]
    dsimp only
    rw [show sec.next = Spec.nextSector buf 1 from g2, hl]
    dsimp only
    unfold unknownLine
    rw [show stripDelay x = c from by rw [← UInt8.toNat_inj, opcode_strip, hc]]

/-- C134: such a line is the last one, and it is followed by a panic: there is none if the file is decompiled. -/
theorem unknown_code_last (p : Profile) (buf : Bytes) (fuel b l : Nat) (c : UInt8)
    (h : .unknownCode b l c ∈ (decompileSaid p buf fuel).1) :
    ∃ before, (decompileSaid p buf fuel).1 = before ++ [.unknownCode b l c] ∧ (∀ b' l' c', .unknownCode b' l' c' ∉ before) ∧
      decompile p buf fuel = .error .unwrap := by
  rw [← decompileSaid_result]
  unfold decompileSaid at h ⊢
  cases hg : getSector buf 4096 with
  | error e => rw [hg] at h; cases h
  | ok sec =>
    rw [hg] at h
    dsimp only at h ⊢
    rcases fileSaid_cases p buf sec.next fuel 2 {} with hn | ⟨ls', chs, j, o, st', x, hr, h2, _⟩
    · exfalso
      have hm : (.unknownCode b l c : DecLine) ∈ (fileSaid p buf sec.next fuel 2 {}).1 := by
        rcases hx : fileSaid p buf sec.next fuel 2 {} with ⟨l1, _ | _ | st⟩
        all_goals
          rw [hx] at h
          exact h
      exact absurd (hn _ hm) (by simp [DecLine.isUnknown])
    · rw [hr] at h ⊢
      dsimp only at h ⊢
      have hk : ∀ b' l' c', (.unknownCode b' l' c' : DecLine) ∉ ls' := fun b' l' c' hm => absurd (h2 _ hm) (by simp [DecLine.isUnknown])
      rcases List.mem_append.mp h with h | h
      · exact absurd h (hk _ _ _)
      · rw [List.mem_singleton] at h
        exact ⟨ls', by rw [h], hk, rfl⟩

/-- A file with `k` empty chunks in its first sector, then a byte that begins no chunk. -/
def unknownFile (k : Nat) : Bytes :=
  Spec.zeros 4096 ++ (Spec.zeros 11 ++ 2 :: Spec.zeros 4084) ++ Spec.zeros 20 ++ List.replicate k 0x80 ++ [0x18]

theorem getChunk_noop {p : Profile} {buf : Bytes} {o loc : Nat} {path : DirPath} (h : buf[o]? = some 0x80) :
    getChunk p buf o path loc = .ok (.ok ⟨.noop, 0x80, none, none, path, none, none⟩ (o + 1) path) := by
  unfold getChunk
  rw [idx_of h, ok_bind]
  rfl

theorem reads_noops {p : Profile} {buf : Bytes} {loc bound : Nat} {path : DirPath} : ∀ (n o : Nat), o + n ≤ bound →
    (∀ k, k < n → buf[o + k]? = some 0x80) →
    Spec.ReadsInto p buf loc bound o path (List.replicate n ⟨.noop, 0x80, none, none, path, none, none⟩) (o + n) path := by
  intro n
  induction n with
  | zero => intro o _ _; exact .here
  | succ n ih =>
    intro o hb hk
    have := ih (o + 1) (by omega) (fun k h => by
      have := hk (k + 1) (by omega)
      rwa [show o + (k + 1) = o + 1 + k by omega] at this)
    rw [show o + 1 + n = o + (n + 1) by omega] at this
    exact .cons (by omega) (getChunk_noop (by simpa using hk 0 (by omega))) this

theorem handled_noops (p : Profile) : ∀ (n : Nat) (st : DState),
    (List.replicate n (⟨.noop, 0x80, none, none, [], none, none⟩ : Chunk)).foldlM (fun st ch => dispatch p st ch.path ch) st = .ok st := by
  intro n
  induction n with
  | zero => intro st; rfl
  | succ n ih =>
    intro st
    rw [List.replicate_succ, List.foldlM_cons]
    exact ih st

theorem size_zeros (n : Nat) : (Spec.zeros n).length = n := List.length_replicate

theorem unknownFile_meets (p : Profile) (k : Nat) (hk : k < 4076) : MeetsUnknown p (unknownFile k) 2 (8212 + k) 0x18 := by
  have hl : (unknownFile k).length = 8212 + k + 1 := by simp [unknownFile, size_zeros]; omega
  have hpre : ∀ i, i < k → (unknownFile k)[8212 + i]? = some 0x80 := by
    intro i hi
    unfold unknownFile
    rw [List.getElem?_append_left (by simp [size_zeros]; omega), List.getElem?_append_right (by simp [size_zeros]),
      List.getElem?_replicate_of_lt (by simp [size_zeros]; omega)]
  have hn : Spec.nextSector (unknownFile k) 1 = 2 := by
    unfold Spec.nextSector unknownFile Spec.be32
    simp only [List.append_assoc, List.getD_eq_getElem?_getD]
    have e : ∀ i, 4096 ≤ i → i < 4096 + 12 → ∀ r : Bytes,
        (Spec.zeros 4096 ++ (Spec.zeros 11 ++ 2 :: Spec.zeros 4084 ++ r))[i]? = (Spec.zeros 11 ++ [2])[i - 4096]? := by
      intro i h1 h2 r
      rw [List.getElem?_append_right (by simp [size_zeros]; omega)]
      have e2 : Spec.zeros 11 ++ 2 :: Spec.zeros 4084 ++ r = (Spec.zeros 11 ++ [2]) ++ (Spec.zeros 4084 ++ r) := by simp
      rw [e2, show (Spec.zeros 4096).length = 4096 from by simp [size_zeros], List.getElem?_append_left (by simp [size_zeros]; omega)]
    simp only [List.append_assoc] at e
    rw [e _ (by omega) (by omega), e _ (by omega) (by omega), e _ (by omega) (by omega), e _ (by omega) (by omega)]
    rfl
  refine ⟨by omega, _, .here (by omega) (by omega) (by omega) (reads_noops k 8212 (by omega) hpre) (by omega), ⟨_, handled_noops p k {}⟩, ?_, by decide⟩
  unfold unknownFile
  rw [List.getElem?_append_right (by simp [size_zeros]; omega)]
  have e3 : 8212 + k - (Spec.zeros 4096 ++ (Spec.zeros 11 ++ 2 :: Spec.zeros 4084) ++ Spec.zeros 20 ++ List.replicate k 0x80).length = 0 := by
    simp [size_zeros]; omega
  rw [e3]
  rfl

/-- The line does not say where the code is: all files with the unknown byte in the second half of the sector show the same line. -/
theorem unknown_code_place_refuted (p : Profile) : ¬∀ (buf buf' : Bytes) (j o j' o' : Nat) (x x' : UInt8) (l : DecLine),
    MeetsUnknown p buf j o x → MeetsUnknown p buf' j' o' x' →
    (∃ fuel ls, decompileSaid p buf fuel = (ls ++ [l], .error .unwrap)) →
    (∃ fuel ls, decompileSaid p buf' fuel = (ls ++ [l], .error .unwrap)) → o = o' := by
  intro h
  have m1 := unknownFile_meets p 3000 (by omega)
  have m2 := unknownFile_meets p 4000 (by omega)
  have := h _ _ _ _ _ _ _ _ (.unknownCode 1 8192 0x18) m1 m2
    ((unknown_code_reported _ _ _ _ _).mpr ⟨_, _, _, m1, rfl, rfl, rfl⟩)
    ((unknown_code_reported _ _ _ _ _).mpr ⟨_, _, _, m2, rfl, rfl, rfl⟩)
  omega

/-- C134: of a calculation, each function that is not known is reported, once. -/
theorem unknown_functions_reported (c : List Spec.CalcItem) (hv : ∀ i ∈ c, i.Valid fmStringEncrypt) :
    calcLines (Spec.calcBytes fmStringEncrypt c) = List.replicate (Spec.unknownFunctions c) .intrinsic :=
  calcLines_items c hv

example : calcLines (Spec.calcBytes fmStringEncrypt [.intrinsic 3, .var t!"x", .intrinsic 7, .str t!"a", .intrinsic 9]) =
    [.intrinsic, .intrinsic] := by
  rw [unknown_functions_reported _ (by
    intro i hi
    simp only [List.mem_cons, List.not_mem_nil, or_false] at hi
    rcases hi with rfl | rfl | rfl | rfl | rfl <;> first | trivial | (show (fmStringEncrypt _).length ≤ 255; decide +kernel))]
  rfl

/-- C134: a file that describes tables, occurrences, relationships, layouts, scripts and data sources is decompiled, with one line on
standard output for each occurrence (the third byte of its description), in order, no report of an unknown code, and one report for
each unknown function in the calculations of its steps. -/
theorem described_lines (p : Profile) (buf : Bytes) (raws : List Spec.Raw) (d : Spec.FileDef) (hf : Spec.RawFileOf buf raws)
    (hd : Spec.Describes fmStringEncrypt encodeName raws d) (hok : d.WellFormed fmStringEncrypt) :
    ∃ fuel₀, ∀ fuel, fuel₀ ≤ fuel → ∃ ls, decompileSaid p buf fuel = (ls, .ok (some d.file)) ∧
      ls.filterMap Spec.DecLine.shown = d.occurrences.map (Spec.byteAt ·.info 2) ∧ (∀ b l c, .unknownCode b l c ∉ ls) ∧
      ls.count .intrinsic = Spec.unknownFunctions (d.scripts.flatMap fun s => s.steps.flatMap fun t => t.params.flatMap (·.calc)) := by
  obtain ⟨fuel₀, h⟩ := file_recovered_partial p buf raws d hf hd hok
  refine ⟨fuel₀, fun fuel hle => ?_⟩
  have h1 := h fuel hle
  obtain ⟨a, b, c⟩ := described_said hf hd hok h1
  refine ⟨(decompileSaid p buf fuel).1, ?_, a, fun _ _ _ hm => absurd (b _ hm) (by simp [DecLine.isUnknown]), c⟩
  rw [← decompileSaid_result] at h1
  exact Prod.ext rfl h1

/-- The example file of C78 is such a file: it has two occurrences, and no unknown functions. -/
example (p : Profile) : ∃ fuel, decompileSaid p (itemFile exampleItems) fuel = ([.source 0, .source 0], .ok (some exampleFile.file)) := by
  obtain ⟨h1, h2, h3⟩ := exampleFile_ok
  obtain ⟨fuel₀, h⟩ := described_lines p _ _ _ h1 h2 h3
  obtain ⟨ls, a, b, c, f⟩ := h fuel₀ (Nat.le_refl _)
  refine ⟨fuel₀, ?_⟩
  have hi : ls.count .intrinsic = 0 := f
  have hi' : DecLine.intrinsic ∉ ls := List.count_eq_zero.mp hi
  have hall : ∀ ls : List DecLine, DecLine.intrinsic ∉ ls → (∀ b l c, .unknownCode b l c ∉ ls) →
      ls = (ls.filterMap Spec.DecLine.shown).map fun n => .source (UInt8.ofNat n) := by
    intro ls
    induction ls with
    | nil => intro _ _; rfl
    | cons l ls ih =>
      intro h1 h2
      cases l with
      | source b =>
        have := ih (fun h => h1 (by simp [h])) (fun _ _ _ h => h2 _ _ _ (List.mem_cons_of_mem _ h))
        rw [List.filterMap_cons_some (by rfl), List.map_cons, ← this]
        simp
      | intrinsic => exact absurd List.mem_cons_self h1
      | unknownCode b l c => exact absurd List.mem_cons_self (h2 b l c)
  rw [a, hall ls hi' c, b]
  rfl

end BurnFm.Props
