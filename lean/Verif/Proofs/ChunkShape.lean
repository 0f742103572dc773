import Verif.Proofs.Decompiler

/-! The shape of the chunks the decoder produces. -/

namespace BurnFm

/-- Only numbered properties have a key number, and they have data; only segments have a segment number, and they
have data; plain data has data. -/
structure Shape (ch : Chunk) : Prop where
  ref : ch.ctype = .refSimple ↔ ch.refSimple ≠ none
  seg : ch.ctype = .dataSegment ↔ ch.segmentIdx ≠ none
  long : ch.ctype = .refLong ↔ ch.refData ≠ none
  data : ch.ctype = .refSimple ∨ ch.ctype = .dataSegment ∨ ch.ctype = .dataSimple ∨ ch.ctype = .refLong → ch.data ≠ none

theorem shape_body {code : Bytes} {o : Nat} {c : UInt8} {b : Body} (h : chunkBody code o c = .ok (some b)) :
    (b.ctype = .refSimple ↔ b.refSimple ≠ none) ∧ (b.ctype = .dataSegment ↔ b.segidx ≠ none) ∧
    (b.ctype = .refLong ↔ b.refData ≠ none) ∧
    (b.ctype = .refSimple ∨ b.ctype = .dataSegment ∨ b.ctype = .dataSimple ∨ b.ctype = .refLong → b.data ≠ none) := by
  apply chunkBody_elim h
  all_goals intros
  all_goals rename_i h
  all_goals simp only [armEmpty, armSmallKv, armKv, armSegment, armData2, armSmallKvE, armKvE, armSegmentE, armData3,
     armDataN, armRef3, armRef3Long, armData1B, armDataSlack, armLongKv, armLongKv2, armPush1, armData23,
     armPush2, armPush3, armPushN, armPop, armNoop, pure_ok, ite_ok, bind_ok, idx_ok, slice_ok, Except.ok.injEq] at h
  all_goals grind

theorem getChunk_shape {p : Profile} {code : Bytes} {o loc off : Nat} {path path' : DirPath} {ch : Chunk}
    (h : getChunk p code o path loc = .ok (.ok ch off path')) : Shape ch := by
  obtain ⟨b, body, _, hbody, _, _, rfl⟩ := getChunk_ok h
  obtain ⟨h1, h2, h3, h4⟩ := shape_body hbody
  exact ⟨h1, h2, h3, h4⟩

end BurnFm
