import Verif.Lemmas.Copy2
import Verif.Lemmas.ExampleFile

/-! # Properties of copying a file: C67 -/

namespace Segpy.Props

open Segpy.Spec Segpy.FileM

/-- If every trace of an opened file can be read then the file can be copied by handing its reader to the writer, also
to the other byte order; and the copy, opened with the same arguments and the byte order it was written with, says the
same as the file.  The textual header is copied byte for byte. -/
theorem C67_copy (T B : Format) (e e' : Endian) (hT : Cataloguable T e) (hT' : Cataloguable T e') (hTr : Regular T e' 240)
    (hB : Regular B e' 400) (encoding : Option Encoding) (dim : Option Int) (s s1 : FileH) (hs0 : s.pos = 0) (r : Reader)
    (p : List ℚ) (h : createReader encoding B T e dim s = (.ok (r, p), s1)) (native : Endian)
    (hread : AllReadable native r s) :
    ∃ p' c, writeSegy (r.asDataset native s) none T e' { data := [], pos := 0 } = (.ok p', c) ∧
      c.data.take 3200 = s.data.take 3200 ∧
      ∃ r' p'' c1, createReader encoding B T e' dim { c with pos := 0 } = (.ok (r', p''), c1) ∧
        SameContents T B native r s r' { c with pos := 0 } := by
  obtain ⟨t, starts, hs, vss, hr, ho, hlen, hc⟩ := asDataset_consistent hT hT' hTr hB h hread
  obtain ⟨henc, ⟨s2, ht⟩, -⟩ := createReader_reel h
  obtain ⟨b1, -⟩ := createReader_binary hB.afterStart hB.orderSafe h
  have hpage := (readTextual_page ht).2.1
  obtain ⟨p', c, h1, h2, h3⟩ := C47_round_trip _ _ T e' t hs vss hc none rfl
  have hdims := ho.dims
  have htake : c.data.take 3200 = s.data.take 3200 := by
    obtain ⟨r', p'', c1, g1, g2⟩ := h3 (some r.encoding) dim rfl hdims
    obtain ⟨-, ⟨c2, k⟩, -⟩ := createReader_reel g1
    obtain ⟨k1, -⟩ := createReader_reel g1
    rw [g2.textual, k1] at k
    have hf : fortyCards (r.asDataset native s).textual_reel_header = r.textual_reel_header := fortyCards_page hpage
    rw [hf] at k
    have := readTextual_inj k ht
    rw [hs0] at this
    simpa using this
  refine ⟨p', c, h1, htake, ?_⟩
  have hused : usedEncoding encoding c.data = r.encoding := by
    rw [henc]
    unfold usedEncoding
    rw [htake]
  obtain ⟨r', p'', c1, g1, g2⟩ := h3 encoding dim hused hdims
  have hfmt : (r.asDataset native s).binary_reel_header.format = B := b1
  rw [hfmt] at g1
  exact ⟨r', p'', c1, g1, same_contents hT hT' hTr h hr ho hlen hc b1 hpage g1 h2 g2⟩

/-- The same for the formats used by default, between any two byte orders. -/
theorem C67_copy_default (e e' : Endian) (encoding : Option Encoding) (dim : Option Int) (s s1 : FileH) (hs0 : s.pos = 0)
    (r : Reader) (p : List ℚ)
    (h : createReader encoding fmtBinaryReelHeader fmtTraceHeaderRev1 e dim s = (.ok (r, p), s1)) (native : Endian)
    (hread : AllReadable native r s) :
    ∃ p' c, writeSegy (r.asDataset native s) none fmtTraceHeaderRev1 e' { data := [], pos := 0 } = (.ok p', c) ∧
      c.data.take 3200 = s.data.take 3200 ∧
      ∃ r' p'' c1, createReader encoding fmtBinaryReelHeader fmtTraceHeaderRev1 e' dim { c with pos := 0 } =
          (.ok (r', p''), c1) ∧
        SameContents fmtTraceHeaderRev1 fmtBinaryReelHeader native r s r' { c with pos := 0 } :=
  C67_copy _ _ e e' (C43_rev1_cataloguable _) (C43_rev1_cataloguable _) (shipped_regular (by decide +kernel) _)
    (shipped_regular (by decide +kernel) _) encoding dim s s1 hs0 r p h native hread

section Example

private theorem header_ok (x : Res Header) (h : x.map (fun _ => ()) = .ok ()) : ∃ hd, x = .ok hd := by
  cases x with
  | error _ => cases h
  | ok hd => exact ⟨hd, rfl⟩

private theorem map_ok' {α β : Type} (f : α → β) (a : α) : (Except.ok a : Res α).map f = .ok (f a) := rfl

/-- All traces of the sample file can be read. -/
theorem sampleFile_readable (r : Reader) (p : List ℚ) (s' : FileH)
    (h : createReader (some .ebcdic) fmtBinaryReelHeader fmtTraceHeaderRev1 .big none sampleFile = (.ok (r, p), s')) :
    AllReadable .little r sampleFile := by
  have key : ((createReader (some .ebcdic) fmtBinaryReelHeader fmtTraceHeaderRev1 .big none sampleFile).1.map fun x =>
      (x.1.traceIndexes, (List.map (fun i : Int => ((x.1.traceHeader i none sampleFile).1.map fun _ => ())) [0, 1, 2]),
        List.map (fun i : Int => (x.1.traceSamples .little i none none sampleFile).1) [0, 1, 2])) =
      .ok (.ok [0, 1, 2], [.ok (), .ok (), .ok ()], [.ok [.int 7, .int (-1)], .ok [], .ok [.int 256]]) := by
    decide +kernel
  rw [h] at key
  simp only [map_ok', List.map_cons, List.map_nil, Except.ok.injEq, Prod.mk.injEq, List.cons.injEq, and_true] at key
  obtain ⟨k1, ⟨k2, k3, k4⟩, k5, k6, k7⟩ := key
  refine ⟨_, k1, ?_⟩
  intro i hi
  simp only [List.mem_cons, List.not_mem_nil, or_false] at hi
  rcases hi with rfl | rfl | rfl
  · exact ⟨header_ok _ k2, _, k5⟩
  · exact ⟨header_ok _ k3, _, k6⟩
  · exact ⟨header_ok _ k4, _, k7⟩

-- the sample file copied to little endian
example : ∃ r p s1 p' c r' p'' c1,
    createReader (some .ebcdic) fmtBinaryReelHeader fmtTraceHeaderRev1 .big none sampleFile = (.ok (r, p), s1) ∧
    writeSegy (r.asDataset .little sampleFile) none fmtTraceHeaderRev1 .little { data := [], pos := 0 } = (.ok p', c) ∧
    createReader (some .ebcdic) fmtBinaryReelHeader fmtTraceHeaderRev1 .little none { c with pos := 0 } = (.ok (r', p''), c1) ∧
    r'.traceIndex3 (7, 0) = .ok 2 ∧ (r'.traceSamples .little 2 none none { c with pos := 0 }).1 = .ok [.int 256] := by
  obtain ⟨r, p, s1, h⟩ := sampleFile_ok none (by simp)
  obtain ⟨p', c, h1, -, r', p'', c1, h2, h3⟩ :=
    C67_copy_default .big .little _ _ _ _ rfl r p h .little (sampleFile_readable r p s1 h)
  have key : ((createReader (some .ebcdic) fmtBinaryReelHeader fmtTraceHeaderRev1 .big none sampleFile).1.map fun x =>
      (x.1.dimensionality, x.1.traceIndex3 (7, 0), (x.1.traceSamples .little 2 none none sampleFile).1)) =
      .ok (.ok 3, .ok 2, .ok [.int 256]) := by
    decide +kernel
  rw [h] at key
  simp only [Except.map, Except.ok.injEq, Prod.mk.injEq] at key
  refine ⟨r, p, s1, p', c, r', p'', c1, h, h1, h2, ?_, ?_⟩
  · rw [h3.trace_index3 key.1]; exact key.2.1
  · exact (h3.trace_samples 2 none none 0 0).trans key.2.2

/-- A file of one trace, with the number nine in the last byte of its header, which belongs to no field. -/
private def unassignedFile : FileH :=
  { data := sampleReel ++ ((sampleHeader 1 1 5).take 239 ++ [9]) ++ [0, 7], pos := 0 }

private theorem unassignedFile_readable : ((createReader (some .ebcdic) fmtBinaryReelHeader fmtTraceHeaderRev1 .big none
    unassignedFile).1.map fun x =>
      (x.1.traceIndexes, (x.1.traceHeader 0 none unassignedFile).1.map (fun _ => ()),
        (x.1.traceSamples .little 0 none none unassignedFile).1)) =
    .ok (.ok [0], .ok (), .ok [.int 7]) := by
  decide +kernel

private theorem unassignedFile_copied : ((createReader (some .ebcdic) fmtBinaryReelHeader fmtTraceHeaderRev1 .big none
    unassignedFile).1.map fun x =>
      let w := writeSegy (x.1.asDataset .little unassignedFile) none fmtTraceHeaderRev1 .big { data := [], pos := 0 }
      (w.1.map (fun _ => ()), w.2.data.length, w.2.data.getD 3839 1)) =
    .ok (.ok (), 3842, 0) := by
  decide +kernel

/-- A copy need not have the same bytes: what is stored between the fields of the formats is not copied. -/
theorem C67_unassigned_lost : ∃ s r p s1 p' c, s.pos = 0 ∧
    createReader (some .ebcdic) fmtBinaryReelHeader fmtTraceHeaderRev1 .big none s = (.ok (r, p), s1) ∧
    AllReadable .little r s ∧
    writeSegy (r.asDataset .little s) none fmtTraceHeaderRev1 .big { data := [], pos := 0 } = (.ok p', c) ∧
    c.data.length = s.data.length ∧ s.data.getD 3839 1 = 9 ∧ c.data.getD 3839 1 = 0 := by
  have key := unassignedFile_readable
  have key' := unassignedFile_copied
  cases hc : createReader (some .ebcdic) fmtBinaryReelHeader fmtTraceHeaderRev1 .big none unassignedFile with
  | mk x s1 =>
  cases x with
  | error err => rw [hc] at key; cases key
  | ok x =>
  obtain ⟨r, p⟩ := x
  rw [hc] at key key'
  simp only [map_ok', Except.ok.injEq, Prod.mk.injEq] at key key'
  obtain ⟨k1, k2, k3⟩ := key
  obtain ⟨k4, k5, k6⟩ := key'
  cases hw : writeSegy (r.asDataset .little unassignedFile) none fmtTraceHeaderRev1 .big { data := [], pos := 0 } with
  | mk y c =>
  rw [hw] at k4 k5 k6
  cases y with
  | error err => cases k4
  | ok p' =>
  refine ⟨unassignedFile, r, p, s1, p', c, rfl, hc, ⟨_, k1, ?_⟩, hw, ?_, by decide +kernel, k6⟩
  · intro i hi
    rw [List.mem_singleton.mp hi]
    exact ⟨header_ok _ k2, _, k3⟩
  · rw [k5]
    decide +kernel

end Example

end Segpy.Props
