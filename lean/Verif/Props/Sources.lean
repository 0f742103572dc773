import Verif.Props.FileContents

/-! Property C95: external data sources. -/

namespace BurnFm.Props
open Spec (Raw SourceDef LocationDef PathPiece)

/-- C95: whatever else the file contains, if it decompiles and describes the data sources `ss`, the result has exactly
these data sources, each with its own name, location and user. Partial: paths without the letter `h`, one-byte numbers, and
no directories inside the directory of a data source; see `source_path_letters`, `source_number_refuted` and
`source_directory_refuted`. -/
theorem sources_recovered_partial (p : Profile) (buf : Bytes) (raws : List Raw) (ss : List SourceDef) (hf : Spec.RawFileOf buf raws)
    (hd : raws.filterMap Raw.note = Spec.sourceNotes fmStringEncrypt encodeName ss) (hok : Spec.SourcesOk fmStringEncrypt ss)
    (fuel : Nat) (f : FmpFile) (h : decompile p buf fuel = .ok (some f)) :
    f.dataSources = ss.map fun s => (s.id.toNat, s.source) := by
  obtain ⟨T, G, L, S, D, g, rfl, _, _, _, _, h5, _⟩ := raw_project hf h
  rw [hd, run_sources hok] at h5
  cases h5
  rfl

/-- The hypotheses are met by the example file of C78. -/
example (p : Profile) : ∃ fuel f, decompile p (itemFile exampleItems) fuel = .ok (some f) ∧
    (itemRaws [] exampleItems).filterMap Raw.note = Spec.sourceNotes fmStringEncrypt encodeName exampleSources ∧
    Spec.SourcesOk fmStringEncrypt exampleSources ∧ f.dataSources.length = 2 := by
  obtain ⟨fuel, h⟩ := exampleFile_decompiles p
  exact ⟨fuel, _, h, exampleFile_ok.2.1.sources, exampleFile_ok.2.2.sources, rfl⟩

/-! What the full statement misses -/

theorem path_without_h (s : Str) (h : ∀ c ∈ s, c.toNat < 128 ∧ c.toNat ≠ 27) :
    (fmStringEncrypt s).flatMap pathSubst = fmStringEncrypt (s.filter (· ≠ 'h')) := by
  rw [string_encrypt_ascii s fun c hc => (h c hc).1, string_encrypt_ascii (s.filter _) fun c hc => (h c (List.mem_filter.mp hc).1).1]
  induction s with
  | nil => rfl
  | cons c s ih =>
    have ih := ih fun d hd => h d (by simp [hd])
    obtain ⟨h1, h2⟩ := h c (by simp)
    have key : ∀ n : Fin 128, n.val ≠ 27 → pathSubst (UInt8.ofNat (n.val ^^^ 0x5A)) =
        if n.val = 104 then [] else [UInt8.ofNat (n.val ^^^ 0x5A)] := by decide
    have := key ⟨c.toNat, h1⟩ h2
    dsimp only at this
    rw [List.map_cons, List.flatMap_cons, ih, this]
    by_cases hc : c = 'h'
    · subst hc
      rfl
    · have hn : c.toNat ≠ 104 := by
        intro hn
        apply hc
        rw [← Char.ofNat_toNat c, hn]
      rw [if_neg hn, List.filter_cons_of_pos (by simpa using hc)]
      rfl

/-- C95 is false for paths: from the location of a data source with an ASCII path, the letter `h` is lost wherever it
occurs. -/
theorem source_path_letters (p : Profile) (l : LocationDef) (s : Str) (hs : ∀ c ∈ s, c.toNat < 128 ∧ c.toNat ≠ 27)
    (hp : l.path = [.text s]) (h1 : l.head.length = 5) (h2 : s.length < 256) (h3 : (fmStringEncrypt l.filename).length < 256)
    (h4 : ¬[65, 50] <:+: l.head.drop 4 ++ fmStringEncrypt l.kind ++ [UInt8.ofNat s.length]) :
    sourceFromBytes p (l.bytes fmStringEncrypt) =
      .ok { sourceType := l.kind, path := s.filter (· ≠ 'h'), filename := l.filename } := by
  have hl : (fmStringEncrypt s).length = s.length := by rw [string_encrypt_ascii s fun c hc => (hs c hc).1, List.length_map]
  have e : l.path.flatMap (PathPiece.bytes fmStringEncrypt) = fmStringEncrypt s := by rw [hp]; simp [PathPiece.bytes]
  exact location_path p l _ h1 (by rw [e, hl]; exact h2) h3 (by rw [e]; exact path_without_h s hs) (by rw [e, hl]; exact h4)

example (p : Profile) : sourceFromBytes p ((⟨[0, 0, 0, 1, 4], t!"file", [.text t!"/home/share/"], t!"stock"⟩ : LocationDef).bytes fmStringEncrypt) =
    .ok { sourceType := t!"file", path := t!"/ome/sare/", filename := t!"stock" } :=
  source_path_letters p _ t!"/home/share/" (by decide) rfl rfl (by decide) (by decide) (by decide)

def sharedLocation : LocationDef := ⟨[0, 0, 0, 1, 4], t!"file", [.text t!"home"], t!"stock"⟩

def sharedSource : List SourceDef := [⟨1, t!"stock", some sharedLocation, none⟩]

def sharedItems : List Item :=
  [.push 32, .push 1, .push 1, .data (encodeName t!"stock"), .pop, .pop,
   .push 5, .push 1, .kv 130 (sharedLocation.bytes fmStringEncrypt), .pop, .pop, .pop]

set_option maxRecDepth 20000 in
/-- C95 as stated is false: the path `home` of a data source is read as `ome`. -/
theorem source_path_refuted (p : Profile) : ∃ buf raws, Spec.RawFileOf buf raws ∧
    raws.filterMap Raw.note = Spec.sourceNotes fmStringEncrypt encodeName sharedSource ∧
    ∃ fuel f, decompile p buf fuel = .ok (some f) ∧
      f.dataSources = [(1, ⟨t!"stock", ⟨t!"file", t!"ome", t!"stock"⟩, [], []⟩)] := by
  have hf := itemFile_raw sharedItems (by decide) (by decide) (by decide)
  refine ⟨_, _, hf, rfl, ?_⟩
  obtain ⟨fuel, h⟩ := raw_run (p := p) (T := {}) (G := {}) (L := {}) (S := {}) (f := {})
    (D := sourceState [] [(1, ⟨t!"stock", ⟨t!"file", t!"ome", t!"stock"⟩, [], []⟩)]) hf
    (by rfl) (by rfl) (by rfl) (by rfl) (by cases p <;> rfl) (by rfl)
  exact ⟨fuel, _, h fuel (Nat.le_refl _), rfl⟩

/-- Two data sources; the directory of the first contains another directory. -/
def nestedSource : List Item :=
  [.push 32, .push 1, .push 1, .data (encodeName t!"stock"), .data (encodeName t!"prices"), .pop, .pop,
   .push 5, .push 1, .push 7, .pop, .pop, .push 2, .pop, .pop, .pop]

set_option maxRecDepth 20000 in
/-- C95 as stated is false: a directory inside the directory of a data source becomes a data source and takes the name of
the next one, which is lost. -/
theorem source_directory_refuted (p : Profile) : ∃ buf raws, Spec.RawFileOf buf raws ∧
    raws.filterMap Raw.note = [.name (encodeName t!"stock"), .name (encodeName t!"prices"), .enter [32, 5, 1] [1],
      .enter [32, 5, 1, 7] [7], .enter [32, 5, 2] [2]] ∧
    ∃ fuel f, decompile p buf fuel = .ok (some f) ∧ f.dataSources.get 2 = none ∧ f.dataSources.get 7 = some { name := t!"prices" } := by
  have hf := itemFile_raw nestedSource (by decide) (by decide) (by decide)
  refine ⟨_, _, hf, rfl, ?_⟩
  obtain ⟨fuel, h⟩ := raw_run (p := p) (T := {}) (G := {}) (L := {}) (S := {}) (f := {})
    (D := sourceState [] [(1, { name := t!"stock" }), (7, { name := t!"prices" })]) hf
    (by rfl) (by rfl) (by rfl) (by rfl) (by cases p <;> rfl) (by rfl)
  exact ⟨fuel, _, h fuel (Nat.le_refl _), rfl, rfl⟩

/-- Data source 133, whose number takes two bytes, with its location. -/
def twoByteSource : List Item :=
  [.push 32, .push 1, .push 1, .data (encodeName t!"stock"), .pop, .pop,
   .push 5, .push2 128 5, .kv 130 (exampleLocation.bytes fmStringEncrypt), .pop, .pop, .pop]

set_option maxRecDepth 20000 in
/-- C95 as stated is false: a data source whose number takes two bytes is stored under a different number, and its location
is lost. -/
theorem source_number_refuted (p : Profile) : ∃ buf raws, Spec.RawFileOf buf raws ∧
    raws.filterMap Raw.note = [.name (encodeName t!"stock"), .enter [32, 5, 133] [128, 5],
      .location 133 (exampleLocation.bytes fmStringEncrypt)] ∧
    ∃ fuel f, decompile p buf fuel = .ok (some f) ∧ f.dataSources = [(32773, { name := t!"stock" })] := by
  have hf := itemFile_raw twoByteSource (by decide) (by decide) (by decide)
  refine ⟨_, _, hf, rfl, ?_⟩
  obtain ⟨fuel, h⟩ := raw_run (p := p) (T := {}) (G := {}) (L := {}) (S := {}) (f := {})
    (D := sourceState [] [(32773, { name := t!"stock" })]) hf
    (by rfl) (by rfl) (by rfl) (by rfl) (by cases p <;> rfl) (by rfl)
  exact ⟨fuel, _, h fuel (Nat.le_refl _), rfl⟩

/-- However a directory with a two-byte number is written, the number under which the data source is stored differs from
the number its properties are looked up with. -/
theorem source_number_mismatch (a b : UInt8) : getInt [a, b] ≠ 128 + b.toNat := by
  have : getInt [a, b] = 256 * a.toNat + b.toNat := getInt_two a b
  omega

end BurnFm.Props
