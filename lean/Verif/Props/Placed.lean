import Verif.Lemmas.Placed
import Verif.Props.Opens
import Verif.Props.Writer
import Verif.Props.CopyBytes
import Verif.Props.Growing
import Verif.Props.Cache
import Verif.Spec.Placed

/-! # Properties of files that are not written or read from their beginning -/

namespace Segpy.Props

open Segpy Spec FileM

/-! ## C101 files that are not empty, or not at their beginning -/

/-- SEG Y data that follow other data in a file are not read: positioned at data with three traces, after a label of 240
bytes, `create_reader` finds four. -/
theorem C101_label_fails :
    ((createReader (some .ebcdic) fmtBinaryReelHeader fmtTraceHeaderRev1 .big none sampleFile).1.map
      fun x => x.1.numTraces) = .ok (.ok 3) ∧
    ((createReader (some .ebcdic) fmtBinaryReelHeader fmtTraceHeaderRev1 .big none
      { data := List.replicate 240 0x40 ++ sampleFile.data, pos := 240 }).1.map fun x => x.1.numTraces) = .ok (.ok 4) := by
  decide +kernel

/-- What `write_segy` returns or raises, and the progress it reports, do not depend on the file. -/
theorem C101_same_outcome (d : Dataset) (encoding : Option Encoding) (T : Format) (e : Endian) (old : Bytes) (pos : Nat) :
    (writeSegy d encoding T e { data := old, pos := pos }).1 = (writeSegy d encoding T e { data := [], pos := 0 }).1 := by
  obtain ⟨r, head, tail, h, -⟩ := writeSegy_parts d encoding T e
  rw [(h old pos).1, (h [] 0).1]

/-- Whatever the file holds and wherever it is positioned, `write_segy` stores the first 3600 bytes of what it writes to an
empty file at the position of the file, and the others where they would be in an empty file. -/
theorem C101_written_at (d : Dataset) (encoding : Option Encoding) (T : Format) (e : Endian)
    (hB : Regular d.binary_reel_header.format e 400) (progress : List ℚ) (out : FileH)
    (h : writeSegy d encoding T e { data := [], pos := 0 } = (.ok progress, out)) (old : Bytes) (pos : Nat) :
    ∃ s : FileH, writeSegy d encoding T e { data := old, pos := pos } = (.ok progress, s) ∧
      Placed old pos out.data s.data ∧ s.pos = out.data.length := by
  obtain ⟨r, head, tail, hw, hlen⟩ := writeSegy_parts d encoding T e
  have hr : r = .ok progress := by rw [← (hw [] 0).1, h]
  have hl := hlen ⟨_, hr⟩ hB
  have h0 := (hw [] 0).2 ⟨_, hr⟩
  rw [h] at h0
  have ho : out.data = head ++ tail := by
    rw [(Prod.mk.inj h0).2, show overwrite [] 0 head = head by
      have := overwrite_end [] head
      simpa using this, ← hl, overwrite_end]
  refine ⟨_, by rw [(hw old pos).2 ⟨_, hr⟩, hr], ?_, by rw [ho, List.length_append, hl]⟩
  have hne : head ≠ [] := by rintro rfl; simp at hl
  rw [ho]
  have h1 := overwrite_length old head pos hne
  have hg := overwrite_get old head pos hne
  by_cases ht : tail = []
  · subst ht
    rw [overwrite_nil, List.append_nil]
    refine ⟨by rw [h1, hl]; omega, fun i _ _ => by omega, fun i g1 g2 _ => ?_, fun i g1 g2 _ => ?_⟩
    · rw [hg, if_neg (by omega), if_pos (by omega)]
    · rw [hg]
      rw [h1] at g1
      by_cases hi : i < pos
      · rw [if_pos hi]
        split
        · rename_i hd
          rw [List.getD_eq_getElem?_getD, List.getElem?_eq_getElem hd]; rfl
        · rename_i hd
          rw [List.getD_eq_getElem?_getD, List.getElem?_eq_none (by omega)]; rfl
      · rw [if_neg hi, if_neg (by omega), List.getD_eq_getElem?_getD, List.getElem?_eq_getElem (by omega)]; rfl
  · have h2 := overwrite_length (overwrite old pos head) tail 3600 ht
    have hg2 := overwrite_get (overwrite old pos head) tail 3600 ht
    refine ⟨?_, fun i g1 g2 => ?_, fun i g1 g2 g3 => ?_, fun i g1 g2 g3 => ?_⟩
    · rw [h2, h1, List.length_append, hl]; omega
    · rw [List.length_append, hl] at g2
      rw [hg2, if_neg (by omega), if_pos (by omega), List.getElem?_append_right (by omega), hl]
    · rw [List.length_append, hl] at g3
      rw [hg2, hg, if_neg (show ¬ i < pos by omega), if_pos (show i < pos + head.length by omega), h1,
        List.getElem?_append_left (show i - pos < head.length by omega)]
      split
      · rw [if_pos (by omega)]
      · rw [if_neg (by omega)]
    · rw [List.length_append, hl] at g3
      rw [h2, h1] at g1
      have hold : (if i < pos then if i < old.length then old[i]? else some 0 else
          if i < pos + head.length then head[i - pos]? else old[i]?) = if i < old.length then old[i]? else
            (if i < pos then some 0 else none) := by
        by_cases hi : i < pos
        · rw [if_pos hi, if_pos hi]
        · rw [if_neg hi, if_neg hi, if_neg (by omega)]
          split
          · rfl
          · rw [List.getElem?_eq_none (by omega)]
      rw [hg2, hg, hold, h1, List.getD_eq_getElem?_getD]
      by_cases hd : i < old.length
      · rw [if_pos hd, if_pos (show i < max old.length (pos + head.length) by omega), List.getElem?_eq_getElem hd]
        split
        · rfl
        · rw [if_neg (by omega)]; rfl
      · rw [if_neg hd, show old[i]?.getD 0 = 0 by rw [List.getElem?_eq_none (by omega)]; rfl]
        split
        · split
          · rw [if_pos (by omega)]
          · rfl
        · rw [if_neg (by omega), if_pos (by omega)]

/-- Over an old file, from its beginning: the new contents, followed by what is left of the old ones. -/
theorem C101_written_over (d : Dataset) (encoding : Option Encoding) (T : Format) (e : Endian)
    (hB : Regular d.binary_reel_header.format e 400) (progress : List ℚ) (out : FileH)
    (h : writeSegy d encoding T e { data := [], pos := 0 } = (.ok progress, out)) (old : Bytes) :
    ∃ s : FileH, writeSegy d encoding T e { data := old, pos := 0 } = (.ok progress, s) ∧
      s.data = out.data ++ old.drop out.data.length := by
  obtain ⟨s, h1, hp, -⟩ := C101_written_at d encoding T e hB progress out h old 0
  obtain ⟨s0, h2, hp0, -⟩ := C101_written_at d encoding T e hB progress out h [] 0
  rw [h] at h2
  obtain rfl := (Prod.mk.inj h2).2
  have hlen : 3600 ≤ out.data.length := by
    have := hp0.length
    simp only [List.length_nil] at this
    omega
  refine ⟨s, h1, ?_⟩
  have hl := hp.length
  apply List.ext_getElem?
  intro i
  by_cases hi : i < out.data.length
  · rw [List.getElem?_append_left hi]
    by_cases h36 : 3600 ≤ i
    · exact hp.traces i h36 hi
    · exact hp.reel i (by omega) (by omega) (by omega)
  · rw [List.getElem?_append_right (by omega), List.getElem?_drop, show out.data.length + (i - out.data.length) = i by omega]
    by_cases ho : i < old.length
    · rw [hp.untouched i (by omega) (by omega) (by omega), List.getD_eq_getElem?_getD, List.getElem?_eq_getElem ho]; rfl
    · rw [List.getElem?_eq_none (by omega), List.getElem?_eq_none (by omega)]

/-- Partial: from the beginning of a file that is no longer than what is written, the file is as if it had been empty.
Missing: other files, for which this is false (`C101_leftover_fails`, `C101_appended_fails`). -/
theorem C101_written_partial (d : Dataset) (encoding : Option Encoding) (T : Format) (e : Endian)
    (hB : Regular d.binary_reel_header.format e 400) (progress : List ℚ) (out : FileH)
    (h : writeSegy d encoding T e { data := [], pos := 0 } = (.ok progress, out)) (old : Bytes)
    (hold : old.length ≤ out.data.length) :
    ∃ s : FileH, writeSegy d encoding T e { data := old, pos := 0 } = (.ok progress, s) ∧ s.data = out.data := by
  obtain ⟨s, h1, h2⟩ := C101_written_over d encoding T e hB progress out h old
  exact ⟨s, h1, by rw [h2, List.drop_of_length_le hold, List.append_nil]⟩

/-- The end of a longer old file stays: the file is not cut to what is written. -/
theorem C101_leftover_fails (d : Dataset) (encoding : Option Encoding) (T : Format) (e : Endian)
    (hB : Regular d.binary_reel_header.format e 400) (progress : List ℚ) (out : FileH)
    (h : writeSegy d encoding T e { data := [], pos := 0 } = (.ok progress, out)) (old : Bytes)
    (hold : out.data.length < old.length) :
    (writeSegy d encoding T e { data := old, pos := 0 }).2.data ≠ out.data := by
  obtain ⟨s, h1, h2⟩ := C101_written_over d encoding T e hB progress out h old
  rw [h1]
  intro hx
  have := congrArg List.length (h2.symm.trans hx)
  rw [List.length_append, List.length_drop] at this
  omega

private theorem room {first : Nat} {t : SegYType} {vss : List (List PyNum)} {i n : Nat} (hi : i < n) (hn : n ≤ vss.length) :
    traceStart first t vss i + 240 ≤ traceStart first t vss n ∧ traceStart first t vss (i + 1) ≤ traceStart first t vss n := by
  induction n with
  | zero => omega
  | succ m ih =>
    have := traceStart_succ first t vss m (by omega)
    by_cases h : i = m
    · subst h; omega
    · have := ih (by omega) (by omega); omega

/-- What is read then: the reel headers and traces of the dataset, and perhaps more traces; or the file cannot be opened. -/
theorem C101_leftover_read (d : Dataset) (enc : Encoding) (T : Format) (e : Endian) (t : SegYType) (hs : List Header)
    (vss : List (List PyNum)) (h : Consistent d enc T e t hs vss) (encoding : Option Encoding)
    (henc : (encoding.or d.encoding).getD .ascii = enc) (old : Bytes) (dim : Option Int)
    (hdim : dim ∈ [none, some 1, some 2, some 3]) :
    ∃ progress s, writeSegy d encoding T e { data := old, pos := 0 } = (.ok progress, s) ∧
      ((createReader (some enc) d.binary_reel_header.format T e dim { s with pos := 0 }).1 = .error .valueError ∨
        ∃ r p s' n, createReader (some enc) d.binary_reel_header.format T e dim { s with pos := 0 } = (.ok (r, p), s') ∧
          r.numTraces = .ok n ∧ (hs.length : Int) ≤ n ∧
          ∀ i (hi : i < hs.length) (hi' : i < vss.length), r.numTraceSamples i = .ok (vss[i].length : Int) ∧
            ∀ (native : Endian) (pos : Nat),
              (∃ hd, (r.traceHeader i none { s with pos := pos }).1 = .ok hd ∧ hd.format = T ∧
                ∀ f ∈ T.fields, hd.get f.name = hs[i].get f.name) ∧
              ∃ ws, (r.traceSamples native i none none { s with pos := pos }).1 = .ok ws ∧
                List.Forall₂ (StoredAs t) vss[i] ws) := by
  obtain ⟨progress, out, h1, h2, h3⟩ := C47_round_trip d enc T e t hs vss h encoding henc
  obtain ⟨r0, p0, s0, h4, h5⟩ := h3 (some enc) dim rfl hdim
  obtain ⟨s, g1, g2⟩ := C101_written_over d encoding T e h.binary_format progress out h1 old
  have hlim : ∀ x : FileH, (∃ b k, writeSegy d encoding T e { data := b, pos := k } = (.ok progress, x)) → x.limit = none := by
    rintro x ⟨b, k, hx⟩
    obtain ⟨r, head, tail, hw, -⟩ := writeSegy_parts d encoding T e
    have hr : r = .ok progress := by rw [← (hw b k).1, hx]
    have := (hw b k).2 ⟨_, hr⟩
    rw [hx] at this
    rw [(Prod.mk.inj this).2]
  have hsame : ∀ k, ({ s with pos := k } : FileH) = { ({ out with pos := 0 } : FileH) with
      data := out.data ++ old.drop out.data.length, pos := k } := by
    intro k
    rw [← g2]
    have e1 := hlim s ⟨_, _, g1⟩
    have e2 := hlim out ⟨_, _, h1⟩
    show FileH.mk s.data k s.limit = FileH.mk s.data k out.limit
    rw [e1, e2]
  have hroom := fun (i : Nat) (hi : i < hs.length) => room (first := firstTrace d) (t := t) hi (le_of_eq h.same_length.symm)
  have hn : r0.numTraces = .ok (hs.length : Int) := by
    rw [h5.num_traces, h2, List.filter_eq_self.mpr, List.length_range]
    intro i hi
    simpa using (hroom i (List.mem_range.mp hi)).1
  refine ⟨progress, s, g1, ?_⟩
  rw [hsame 0]
  rcases C81_reopening T e h.cataloguable (some enc) d.binary_reel_header.format h.binary_format dim _ _ r0 p0 h4
    (old.drop out.data.length) with hx | ⟨r2, p2, s2, k1, -, -, -, -, -, -, n, n2, k2, k3, k4, k5⟩
  · exact Or.inl hx
  · right
    rw [hn] at k2
    obtain rfl := Except.ok.inj k2
    refine ⟨r2, p2, s2, n2, k1, k3, k4, fun i hi hi' => ?_⟩
    obtain ⟨k6, k7⟩ := k5 i (by omega) (by exact_mod_cast hi)
    refine ⟨by rw [k6]; exact h5.num_trace_samples i hi hi' (by rw [h2]; exact (hroom i hi).1), fun native pos => ?_⟩
    obtain ⟨k8, k9⟩ := k7 native pos
    rw [hsame pos]
    constructor
    · obtain ⟨hd, m1, m2, m3⟩ := h5.trace_header i hi 0 (by rw [h2]; exact (hroom i hi).1)
      exact ⟨hd, (k8 none).trans m1, m2, m3⟩
    · obtain ⟨ws, m1, m2⟩ := h5.trace_samples native i hi' 0 hi (by rw [h2]; exact (hroom i hi).2)
      rcases k9 none none with m3 | m3
      · exact ⟨ws, m3.trans m1, m2⟩
      · rw [m1] at m3
        cases m3

/-- More traces: after a dataset of three traces has been written over a file that is 240 zero bytes longer, four are
read. -/
theorem C101_leftover_read_fails : ∃ (d : Dataset) (old : Bytes) (progress : List ℚ) (s : FileH), d.num_traces = 3 ∧
    writeSegy d none fmtTraceHeaderRev1 .big { data := old, pos := 0 } = (.ok progress, s) ∧
    ((createReader (some .ebcdic) fmtBinaryReelHeader fmtTraceHeaderRev1 .big none { s with pos := 0, limit := none }).1.map
      fun x => x.1.numTraces) = .ok (.ok 4) := by
  obtain ⟨r, p, s1, h, -, -, -, p', c, hw, hc⟩ := sampleFile_copied
  have hB : Regular (r.asDataset .little sampleFile).binary_reel_header.format .big 400 := by
    obtain ⟨-, h2⟩ := C71_reel_headers _ _ _ _ (C97_default_format .big).1 _ _ _ rfl _ _ h
    show Regular r.binary_reel_header.format .big 400
    rw [h2.binary_format]
    exact (C97_default_format .big).1
  obtain ⟨s, g1, g2⟩ := C101_written_over _ _ _ _ hB p' c hw (sampleFile.data ++ List.replicate 240 0)
  refine ⟨_, _, p', s, ?_, g1, ?_⟩
  · have key : ((createReader (some .ebcdic) fmtBinaryReelHeader fmtTraceHeaderRev1 .big none sampleFile).1.map fun x =>
        x.1.numTraces) = .ok (.ok 3) := C101_label_fails.1
    rw [h] at key
    have key : r.numTraces = .ok 3 := Except.ok.inj key
    show (match r.numTraces with | .ok n => n | .error _ => 0) = 3
    rw [key]
  · rw [g2, hc, List.drop_left]
    decide +kernel

/-- Nothing but reel headers can be appended to a file: the traces are not stored after what is there. -/
theorem C101_appended_fails (d : Dataset) (encoding : Option Encoding) (T : Format) (e : Endian)
    (hB : Regular d.binary_reel_header.format e 400) (progress : List ℚ) (out : FileH)
    (h : writeSegy d encoding T e { data := [], pos := 0 } = (.ok progress, out)) (hout : 3600 < out.data.length)
    (old : Bytes) (hold : old ≠ []) :
    (writeSegy d encoding T e { data := old, pos := old.length }).2.data ≠ old ++ out.data := by
  obtain ⟨s, h1, h2, -⟩ := C101_written_at d encoding T e hB progress out h old old.length
  rw [h1]
  intro hx
  have h3 := h2.length
  rw [show s.data = old ++ out.data from hx, List.length_append] at h3
  have := List.length_pos_iff.mpr hold
  omega

/-- With caching the position of the file is ignored: the file is read from its beginning. -/
theorem C101_cached {Key : Type} [DecidableEq Key] (P : Platform Key) (x : Faults) (dir : CacheDir) (hdir : dir ≠ .disabled)
    (name : Option DataPath) (encoding : Option Encoding) (B T : Format) (e : Endian) (dim : Option Int) (s : FileH)
    (w : World Key) (pos : Nat) :
    createReaderCached P x dir name encoding B T e dim { s with pos := pos } w =
      createReaderCached P x dir name encoding B T e dim { s with pos := 0 } w := by
  have hh : P.hashForFile encoding B T e { s with pos := pos } = P.hashForFile encoding B T e { s with pos := 0 } := rfl
  unfold createReaderCached
  rw [if_neg hdir, if_neg hdir, hh]

/-- Without caching, given the encoding, the textual and the binary header are those at the position of the file, but the
traces, and the pages of the extended textual header, are those at byte 3600 of the file. -/
theorem C101_read_at (enc : Encoding) (B T : Format) (e : Endian) (hT : Cataloguable T e) (hB : Regular B e 400)
    (dim : Option Int) (s s' : FileH) (r : Reader) (progress : List ℚ)
    (h : createReader (some enc) B T e dim s = (.ok (r, progress), s')) :
    PageAt enc s.data s.pos r.textual_reel_header ∧
    (∀ f ∈ B.fields, r.binary_reel_header.get f.name =
      .ok (storedInt e f.value_type.segy (B.fieldBytes f ((s.data.drop (s.pos + 3200)).take 400)))) ∧
    (∀ i (hi : i < r.extended_textual_headers.length), PageAt enc s.data (3600 + 3200 * i) r.extended_textual_headers[i]) ∧
    ∃ t starts, r.dataSampleFormat = .ok t ∧ r.numTraces = .ok (starts.length : Int) ∧
      Traces T e s.data t.size (3600 + 3200 * r.extended_textual_headers.length) starts := by
  obtain ⟨t, starts, hr, ho⟩ := createReader_all hT h
  obtain ⟨enc', textual, binary, extended, bps, catalogs, k1, k2, k3, k4, h1, h2, h3, h4, _, _, h7, _⟩ :=
    createReader_ok h
  obtain ⟨r1, r2, r3, r4, -⟩ := makeReaderOf_fields h7
  have h1 : enc' = enc ∧ k1 = s.pos := by
    rcases h1 with ⟨h1, hk⟩ | ⟨h1, -⟩
    · exact ⟨(Option.some.inj h1).symm, hk⟩
    · cases h1
  obtain ⟨rfl, rfl⟩ := h1
  obtain ⟨t1, t2⟩ := page_at h2
  have hk2 : k2 = s.pos + 3200 := congrArg FileH.pos t2
  subst hk2
  obtain ⟨p, hp⟩ := hB.packs
  have x4 := extended_at h4
  refine ⟨by rw [r1]; exact t1, ?_, by simp only [r3]; exact x4, t, starts, ho.format, ?_, ho.traces⟩
  · rcases C62_read_binary B e p hp hB.afterStart hB.orderSafe hB.length { s with pos := s.pos + 3200 } with
      ⟨hd, b1, -, b2, b3⟩ | ⟨k, b1, -⟩
    · rw [h3] at b1
      obtain rfl := Except.ok.inj (Prod.mk.inj b1).1
      intro f hf
      rw [r2]
      exact (b3 f hf).2
    · rw [h3] at b1
      cases (Prod.mk.inj b1).1
  · unfold Reader.numTraces
    rw [ho.offset.len]
    simp [byNumber]

-- a dataset of 7290 bytes: nothing but these in a file that was empty or had as many bytes, a byte too many in a longer one,
-- and after a byte, the position is where the traces would end in an empty file
example : ∃ (d : Dataset) (out : FileH), out.data.length = 7290 ∧
    (writeSegy d none fmtTraceHeaderRev1 .big { data := List.replicate 7290 1, pos := 0 }).2.data = out.data ∧
    (writeSegy d none fmtTraceHeaderRev1 .big { data := List.replicate 7291 1, pos := 0 }).2.data = out.data ++ [1] ∧
    (writeSegy d none fmtTraceHeaderRev1 .big { data := [1], pos := 1 }).2.pos = 7290 ∧
    (writeSegy d none fmtTraceHeaderRev1 .big { data := [1], pos := 1 }).2.data ≠ [1] ++ out.data := by
  obtain ⟨d, hs, vss, hc, he, hl⟩ := consistent_example
  obtain ⟨progress, out, h1, h2, -⟩ := C47_round_trip _ _ _ _ _ _ _ hc none (by rw [he]; rfl)
  rw [hl] at h2
  have hB := hc.binary_format
  refine ⟨d, out, h2, ?_, ?_, ?_, C101_appended_fails _ _ _ _ hB _ _ h1 (by omega) [1] (by simp)⟩
  · obtain ⟨s, g1, g2⟩ := C101_written_partial _ _ _ _ hB _ _ h1 (List.replicate 7290 1) (by rw [List.length_replicate, h2])
    rw [g1, g2]
  · obtain ⟨s, g1, g2⟩ := C101_written_over _ _ _ _ hB _ _ h1 (List.replicate 7291 1)
    rw [g1, g2, h2, List.drop_replicate]
    rfl
  · obtain ⟨s, g1, -, g2⟩ := C101_written_at _ _ _ _ hB _ _ h1 [1] 1
    rw [g1, g2, h2]

end Segpy.Props
