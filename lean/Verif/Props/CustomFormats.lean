import Verif.Lemmas.CustomFormats

/-! # Properties of header formats derived from the shipped ones: C75 -/

namespace Segpy.Props

open Segpy.Spec Segpy.FileM

/-! ## A trace header without unassigned bytes -/

/-- The trace header format of `check_equal.py` is one that files can be catalogued by and every valid header can be
stored in.  It assigns all bytes but two: of the six bytes of the source energy direction, `TraceHeaderRev1` has only
four. -/
theorem C75_custom_trace_header (e : Endian) : Cataloguable fmtCustomTraceHeader e ∧ Regular fmtCustomTraceHeader e 240 ∧
    ∀ k < 240, fmtCustomTraceHeader.Gap k ↔ k = 222 ∨ k = 223 := by
  have hp := packs_of (F := fmtCustomTraceHeader) (n := 240) (by decide +kernel) e
  refine ⟨⟨⟨hp, by decide +kernel, by decide +kernel, by decide +kernel, by decide +kernel, by decide +kernel, ?_⟩, ?_⟩,
    ⟨hp, by decide +kernel, by decide +kernel, by decide +kernel, storable_of (by decide +kernel), by decide +kernel⟩,
    ?_⟩
  · have h : ["file_sequence_num", "ensemble_num", "num_samples", "inline_number", "crossline_number"].Pairwise
        fun a b => ∀ f ∈ fmtCustomTraceHeader.attr a, ∀ g ∈ fmtCustomTraceHeader.attr b, f.offset ≤ g.offset := by
      decide +kernel
    exact h.imp fun hab f g hf hg => hab f hf g hg
  · intro f hf v hv
    have : fmtCustomTraceHeader.attr "num_samples" = some ⟨"num_samples", vtNNInt16, 115, 0⟩ := by decide +kernel
    rw [this] at hf
    injection hf with hf
    subst hf
    exact hv.1
  · unfold Format.Gap
    decide +kernel

/-- A copy in the same byte order has its traces at the same places, and all bytes of their headers that belong to some
field are the same. -/
theorem C75_headers_copied (T B : Format) (e : Endian) (hT : Cataloguable T e) (hTr : Regular T e 240)
    (hB : Regular B e 400) (encoding : Option Encoding) (dim : Option Int) (s s1 : FileH)
    (hs0 : s.pos = 0) (r : Reader) (p : List ℚ) (h : createReader encoding B T e dim s = (.ok (r, p), s1))
    (native : Endian) (hread : AllReadable native r s) :
    ∃ p' c t starts, writeSegy (r.asDataset native s) none T e { data := [], pos := 0 } = (.ok p', c) ∧
      r.dataSampleFormat = .ok t ∧
      Traces T e s.data t.size (3600 + 3200 * r.extended_textual_headers.length) starts ∧
      Traces T e c.data t.size (3600 + 3200 * r.extended_textual_headers.length) starts ∧
      ∀ q ∈ starts, ∀ k < 240, ¬ T.Gap k → c.data[q + k]? = s.data[q + k]? := by
  obtain ⟨p', c, hw, -, r', p'', c1, hc, hsame⟩ := C67_copy T B e e hT hT hTr hB encoding dim s s1 hs0 r p h native hread
  obtain ⟨t, starts, hr, ho⟩ := createReader_all hT h
  obtain ⟨t', starts', hr', ho'⟩ := createReader_all hT hc
  have ht : t = t' := by
    have := hsame.sample_format
    rw [ho.format, ho'.format] at this
    exact (Except.ok.inj this).symm
  subst ht
  have hlen : starts'.length = starts.length := by
    have := hsame.num_traces
    rw [hr.describes.num_traces, hr'.describes.num_traces] at this
    have := Except.ok.inj this
    omega
  have hx := ho'.traces
  rw [hsame.extended] at hx
  obtain ⟨a1, a2, a3, -, -⟩ := C43_tiles _ _ _ _ _ _ ho.traces
  obtain ⟨b1, b2, b3, -, -⟩ := C43_tiles _ _ _ _ _ _ hx
  have hn : ∀ i (hi : i < starts.length) (hi' : i < starts'.length),
      samplesAt T e c.data starts'[i] = samplesAt T e s.data starts[i] := by
    intro i hi hi'
    have := hsame.num_trace_samples i
    rw [hr.describes.num_trace_samples i hi, hr'.describes.num_trace_samples i hi'] at this
    unfold samplesAt
    rw [Except.ok.inj this]
  have heach : ∀ i (hi : i < starts.length) (hi' : i < starts'.length), starts'[i] = starts[i] := by
    intro i
    induction i with
    | zero =>
      intro hi hi'
      rw [if_neg (List.ne_nil_of_length_pos hi), List.head?_eq_getElem?, List.getElem?_eq_getElem hi] at a1
      rw [if_neg (List.ne_nil_of_length_pos hi'), List.head?_eq_getElem?, List.getElem?_eq_getElem hi'] at b1
      rw [Option.some.inj a1, Option.some.inj b1]
    | succ i ih =>
      intro hi hi'
      rw [a2 i hi, b2 i hi', hn i (by omega) (by omega), ih (by omega) (by omega)]
  have hst : starts' = starts := List.ext_getElem hlen fun i h1 h2 => heach i h2 h1
  subst hst
  refine ⟨p', c, t, starts', hw, ho.format, ho.traces, hx, ?_⟩
  intro q hq
  obtain ⟨i, hi, rfl⟩ := List.mem_iff_getElem.mp hq
  have hl : ∀ data : Bytes, starts'[i] + 240 ≤ data.length → (headerBytes data starts'[i]).length = 240 := by
    intro data hd
    unfold headerBytes
    rw [List.length_take, List.length_drop]
    omega
  have hfit : ∀ f ∈ T.fields, f.offset - T.startOffset + f.value_type.size ≤ 240 := by
    obtain ⟨pk, hpk⟩ := hTr.packs
    unfold makeHeaderPacker at hpk
    obtain ⟨x, hx, -⟩ := res_bind_ok hpk
    rw [hTr.length] at hx
    exact (accepts_of_ok hx).fits 240 rfl
  intro k hk hgap
  have hbyte : ∀ data : Bytes, (headerBytes data starts'[i])[k]? = data[starts'[i] + k]? := by
    intro data
    unfold headerBytes
    rw [List.getElem?_take_of_lt hk, List.getElem?_drop]
  rw [← hbyte, ← hbyte]
  refine headerBytes_eq hTr.afterStart hfit (hl _ (b3 _ hq)) (hl _ (a3 _ hq)) (e := e) ?_ k hgap
  intro f hf
  have hfield : ∀ data : Bytes, fieldAt T e data starts'[i] f.name =
      storedInt e f.value_type.segy (T.fieldBytes f (headerBytes data starts'[i])) := by
    intro data
    unfold fieldAt
    rw [Format.mem_fields.mp hf]
  rw [← hfield, ← hfield]
  rcases hsame.trace_header i s.pos 0 with ⟨hd, hd', g1, g2, -, -, g3⟩ | ⟨g1, -⟩
  · have e1 := (traceHeader_ok hT hTr.orderSafe hr ho hi g1).2.2 f hf
    have e2 := (traceHeader_ok hT hTr.orderSafe hr' ho' hi (pos := 0) g2).2.2 f hf
    rw [g3 f hf, e1] at e2
    exact (Except.ok.inj e2).symm
  · exfalso
    obtain ⟨l, hl, hrd⟩ := hread
    rw [hr.describes.trace_indexes] at hl
    obtain rfl := Except.ok.inj hl
    obtain ⟨⟨hd, hh⟩, -⟩ := hrd i (List.mem_map.mpr ⟨i, List.mem_range.mpr hi, rfl⟩)
    rw [traceHeader_pos] at g1
    rw [hh] at g1
    cases g1

/-- The full claim would be that the checks succeed for every file that can be copied.  What holds, for any file: what `create_reader` raises; an exception if some trace cannot be read; `AssertionError`
if some sample is not a number; and otherwise the checks succeed, and the numbers and positions of the traces are
printed.  Missing: files with samples that are not numbers (`C75_nan_fails`). -/
theorem C75_check_equal_partial (native : Endian) (s : FileH) (hs0 : s.pos = 0) :
    match createReader none fmtBinaryReelHeader fmtCustomTraceHeader .big none s with
    | (.error k, _) => checkEqual native s = .error k
    | (.ok (r, _), _) =>
      (¬ AllReadable native r s → ∃ k, checkEqual native s = .error k) ∧
      (AllReadable native r s → ∃ t starts, r.dataSampleFormat = .ok t ∧
        Traces fmtCustomTraceHeader .big s.data t.size (3600 + 3200 * r.extended_textual_headers.length) starts ∧
        ((∃ i < starts.length, ∃ vs, (r.traceSamples native (i : Nat) none none s).1 = .ok vs ∧ .float .nan ∈ vs) →
          checkEqual native s = .error .assertionError) ∧
        ((∀ i < starts.length, ∀ vs, (r.traceSamples native (i : Nat) none none s).1 = .ok vs → .float .nan ∉ vs) →
          checkEqual native s = .ok (starts.zipIdx.map fun x => ((x.2 : Int), (x.1 : Int))))) := by
  obtain ⟨hT, hTr, -⟩ := C75_custom_trace_header .big
  have hB := standardCodes.regular
  cases hc : createReader none fmtBinaryReelHeader fmtCustomTraceHeader .big none s with
  | mk x s' =>
    cases x with
    | error k =>
      show checkEqual native s = .error k
      unfold checkEqual
      rw [hc]
      rfl
    | ok y =>
      obtain ⟨r, p⟩ := y
      show _ ∧ _
      obtain ⟨t, starts, hr, ho⟩ := createReader_all hT hc
      have hidx := hr.describes.trace_indexes
      refine ⟨?_, ?_⟩
      · intro hnot
        unfold checkEqual
        rw [hc]
        simp only [bind, Except.bind]
        cases hw : writeSegy (r.asDataset native s) none fmtCustomTraceHeader .big { data := [], pos := 0 } with
        | mk z out =>
          cases z with
          | error err => exact ⟨err, rfl⟩
          | ok _ =>
            refine absurd ⟨_, hidx, fun i hi => ?_⟩ hnot
            refine writeSegy_had hw i ?_
            unfold Reader.asDataset
            rw [hidx]
            exact hi
      · intro hread
        obtain ⟨p', c, hw, -, r', p'', c1, hc', hsame⟩ :=
          C67_copy _ _ .big .big hT hT hTr hB none none s s' hs0 r p hc native hread
        refine ⟨t, starts, ho.format, ho.traces, ?_⟩
        have hrun : checkEqual native s = ((List.range starts.length).map fun i : Nat => (i : Int)).mapM
            (checkEqualRound native r r' s { c with pos := 0 }) := by
          unfold checkEqual
          rw [hc]
          simp only [bind, Except.bind]
          rw [hw]
          simp only
          rw [hc']
          simp only
          rw [hidx]
        have hround : ∀ i (hi : i < starts.length), ∃ vs, (r.traceSamples native i none none s).1 = .ok vs ∧
            checkEqualRound native r r' s { c with pos := 0 } i =
              if PyNum.float .nan ∈ vs then .error .assertionError else .ok ((i : Int), (starts[i] : Int)) := by
          intro i hi
          obtain ⟨l, hl, hrd⟩ := hread
          rw [hidx] at hl
          obtain rfl := Except.ok.inj hl
          obtain ⟨⟨hd, hh⟩, vs, hv⟩ := hrd i (List.mem_map.mpr ⟨i, List.mem_range.mpr hi, rfl⟩)
          refine ⟨vs, hv, ?_⟩
          have hv' : (r'.traceSamples native i none none { c with pos := 0 }).1 = .ok vs := by
            have := hsame.trace_samples i none none s.pos 0
            rw [hv] at this
            exact this
          rcases hsame.trace_header i s.pos 0 with ⟨hd0, hd', g1, g2, g3, g4, g5⟩ | ⟨g1, -⟩
          swap
          · rw [hh] at g1; cases g1
          have g2' : (r'.traceHeader i none { c with pos := 0 }).1 = .ok hd' := g2
          rw [hh] at g1
          obtain rfl := Except.ok.inj g1
          have hall := (traceHeader_ok hT hTr.orderSafe hr ho hi (pos := s.pos) hh).2.2
          have heq : hd.areEqual hd' = .ok true := by
            refine areEqual_of (by rw [g3, g4]) ?_
            intro f hf
            rw [g3] at hf
            exact ⟨_, hall f hf, by rw [g5 f hf]; exact hall f hf⟩
          unfold checkEqualRound
          rw [ho.offset.get_number hi, hh, g2', hv, hv']
          simp only [bind, Except.bind, heq, samplesEq_self, pure, Except.pure]
          by_cases hnan : PyNum.float .nan ∈ vs
          · simp [hnan]
          · simp [hnan]
        refine ⟨?_, ?_⟩
        · rintro ⟨i, hi, vs, hv, hnan⟩
          rw [hrun]
          refine mapM_error_of ?_ ⟨(i : Int), List.mem_map.mpr ⟨i, List.mem_range.mpr hi, rfl⟩, ?_⟩
          · intro x hx
            obtain ⟨j, hj, rfl⟩ := List.mem_map.mp hx
            obtain ⟨ws, -, e2⟩ := hround j (List.mem_range.mp hj)
            rw [e2]
            split
            · exact Or.inr rfl
            · exact Or.inl ⟨_, rfl⟩
          · obtain ⟨ws, e1, e2⟩ := hround i hi
            rw [hv] at e1
            obtain rfl := Except.ok.inj e1
            rw [e2, if_pos hnan]
        · intro hno
          rw [hrun, mapM_ok_iff, List.forall₂_iff_get]
          refine ⟨by simp, ?_⟩
          intro i h1 h2
          have hi : i < starts.length := by simpa using h1
          obtain ⟨ws, e1, e2⟩ := hround i hi
          simp only [List.get_eq_getElem, List.getElem_map, List.getElem_range, List.getElem_zipIdx, Nat.zero_add]
          rw [e2, if_neg (hno i hi ws e1)]

/-! ## A binary reel header with an unsigned number of samples -/

/-- The binary reel header format of `custom_header.py` is one that every valid header can be stored in. -/
theorem C75_custom_binary_header (e : Endian) : Regular fmtCustomBinaryReelHeader e 400 :=
  ⟨packs_of (n := 400) (by decide +kernel) e, by decide +kernel, by decide +kernel, by decide +kernel,
    storable_of (by decide +kernel), by decide +kernel⟩

/-- The fields of the format are those of the standard one, but for the type of `num_samples`. -/
private theorem custom_fields : ∀ f ∈ fmtCustomBinaryReelHeader.fields,
    f = ⟨"num_samples", vtUInt16, 3221, 0⟩ ∨ (f ∈ fmtBinaryReelHeader.fields ∧ f.name ≠ "num_samples") := by
  decide +kernel

private theorem standard_fields : ∀ f ∈ fmtBinaryReelHeader.fields,
    f = ⟨"num_samples", vtNNInt16, 3221, 0⟩ ∨ (f ∈ fmtCustomBinaryReelHeader.fields ∧ f.name ≠ "num_samples") := by
  decide +kernel

private theorem custom_mem : (⟨"num_samples", vtUInt16, 3221, 0⟩ : Field) ∈ fmtCustomBinaryReelHeader.fields := by
  decide +kernel

private theorem standard_mem : (⟨"num_samples", vtNNInt16, 3221, 0⟩ : Field) ∈ fmtBinaryReelHeader.fields := by
  decide +kernel

private theorem custom_bytes (f : Field) (bs : Bytes) :
    fmtCustomBinaryReelHeader.fieldBytes f bs = fmtBinaryReelHeader.fieldBytes f bs := by
  unfold Format.fieldBytes
  rw [show fmtCustomBinaryReelHeader.startOffset = fmtBinaryReelHeader.startOffset by decide +kernel]

private theorem samples_bytes (data : Bytes) :
    fmtBinaryReelHeader.fieldBytes ⟨"num_samples", vtUInt16, 3221, 0⟩ ((data.drop 3200).take 400) =
      (data.drop 3220).take 2 := by
  unfold Format.fieldBytes slice
  rw [show ((3221 : Int) - fmtBinaryReelHeader.startOffset).toNat = 20 by decide +kernel,
    show vtUInt16.size = 2 by decide +kernel, List.drop_take, List.take_take, List.drop_drop]
  congr 1

/-- Two bytes are always an admissible number of samples. -/
private theorem uint16_admits (e : Endian) (bs : Bytes) (h : bs.length = 2) :
    storedInt e vtUInt16.segy bs = bytesNat e bs ∧ vtUInt16.Admits (storedInt e vtUInt16.segy bs) := by
  have h0 : storedInt e vtUInt16.segy bs = bytesNat e bs := by
    unfold storedInt
    rw [if_neg (by rintro ⟨h, -⟩; revert h; decide)]
  refine ⟨h0, ?_⟩
  have hb := storedInt_bounds (e := e) (t := vtUInt16.segy) (item := bs) (by rw [h]; rfl)
  exact ⟨hb.1, hb.2⟩

/-- The binary reel header is read in this format exactly if there are 400 bytes and all fields but the number of samples
are admissible. -/
theorem C75_uint16_accepts (e : Endian) (s : FileH) :
    (∃ h, (readBinaryReelHeader fmtCustomBinaryReelHeader e s).1 = .ok h) ↔
      s.pos + 400 ≤ s.data.length ∧ ∀ f ∈ fmtBinaryReelHeader.fields, f.name ≠ "num_samples" →
        f.value_type.Admits (storedInt e f.value_type.segy
          (fmtBinaryReelHeader.fieldBytes f ((s.data.drop s.pos).take 400))) := by
  have hR := C75_custom_binary_header e
  obtain ⟨p, hp⟩ := hR.packs
  rcases C62_read_binary _ e p hp hR.afterStart hR.orderSafe hR.length s with ⟨h, h1, h2, -, h4⟩ | ⟨k, h1, h2⟩
  · rw [h1]
    refine ⟨fun _ => ⟨h2, ?_⟩, fun _ => ⟨h, rfl⟩⟩
    intro f hf hn
    rcases standard_fields f hf with rfl | ⟨hf', -⟩
    · exact absurd rfl hn
    · have := (h4 f hf').1
      rw [custom_bytes] at this
      exact this
  · rw [h1]
    refine ⟨(by rintro ⟨h, hh⟩; cases hh), ?_⟩
    rintro ⟨g1, g2⟩
    exfalso
    rcases h2 with h2 | ⟨f, hf, h2⟩
    · omega
    · apply h2
      rw [custom_bytes]
      rcases custom_fields f hf with rfl | ⟨hf', hn⟩
      · refine (uint16_admits e _ ?_).2
        unfold Format.fieldBytes slice reelHeaderBytes
        rw [show ((3221 : Int) - fmtBinaryReelHeader.startOffset).toNat = 20 by decide +kernel,
          show vtUInt16.size = 2 by decide +kernel]
        simp only [List.length_take, List.length_drop]
        omega
      · exact g2 f hf' hn

/-- Every file that opens with the standard format also opens with this one, and the two readers differ in nothing but
the binary reel header, whose fields have the same values. -/
theorem C75_uint16_opens (encoding : Option Encoding) (T : Format) (e : Endian) (dim : Option Int) (s s' : FileH)
    (r : Reader) (progress : List ℚ)
    (h : createReader encoding fmtBinaryReelHeader T e dim s = (.ok (r, progress), s')) :
    ∃ binary, createReader encoding fmtCustomBinaryReelHeader T e dim s =
        (.ok ({ r with binary_reel_header := binary }, progress), s') ∧
      binary.format = fmtCustomBinaryReelHeader ∧
      ∀ f ∈ fmtBinaryReelHeader.fields, binary.get f.name = r.binary_reel_header.get f.name := by
  refine createReader_binary' h ?_ (by decide +kernel)
  intro pos k binary hb
  have hR := C75_custom_binary_header e
  obtain ⟨p, hp⟩ := hR.packs
  have hS := shipped_regular (F := fmtBinaryReelHeader) (n := 400) (by decide +kernel) e
  obtain ⟨q, hq⟩ := hS.packs
  rcases C62_read_binary _ e q hq hS.afterStart hS.orderSafe hS.length { s with pos := pos } with
    ⟨h0, g1, g2, -, g4⟩ | ⟨_, g1, -⟩
  swap
  · rw [hb] at g1; cases (Prod.mk.inj g1).1
  rw [hb] at g1
  obtain ⟨e1, e2⟩ := Prod.mk.inj g1
  obtain rfl := Except.ok.inj e1
  rcases C62_read_binary _ e p hp hR.afterStart hR.orderSafe hR.length { s with pos := pos } with
    ⟨h1, k1, k2, k3, k4⟩ | ⟨_, k1, -⟩
  swap
  · exfalso
    obtain ⟨h1, hh⟩ := (C75_uint16_accepts e { s with pos := pos }).mpr ⟨g2, fun f hf _ => (g4 f hf).1⟩
    rw [k1] at hh
    cases hh
  refine ⟨h1, by rw [k1, ← e2], k3, ?_⟩
  intro f hf
  rw [(g4 f hf).2]
  rcases standard_fields f hf with rfl | ⟨hf', -⟩
  · have := (k4 _ custom_mem).2
    rw [custom_bytes] at this
    exact this
  · have := (k4 f hf').2
    rw [custom_bytes] at this
    exact this

/-- The number of samples that is reported is the unsigned number in bytes 3221 and 3222, whatever it is. -/
theorem C75_uint16_reads (encoding : Option Encoding) (T : Format) (e : Endian) (dim : Option Int) (s s' : FileH)
    (hs : s.pos = 0) (r : Reader) (progress : List ℚ)
    (h : createReader encoding fmtCustomBinaryReelHeader T e dim s = (.ok (r, progress), s')) :
    r.binary_reel_header.get "num_samples" = .ok (bytesNat e ((s.data.drop 3220).take 2)) := by
  obtain ⟨-, hreel⟩ := C71_reel_headers _ _ _ _ (C75_custom_binary_header e) _ _ _ hs _ _ h
  have := hreel.fields _ custom_mem
  rw [custom_bytes, samples_bytes] at this
  rw [this]
  congr 1

/-- The standard format refuses files with a number of samples of more than 32767. -/
theorem C75_standard_refuses (encoding : Option Encoding) (T : Format) (e : Endian) (dim : Option Int) (s : FileH)
    (hs : s.pos = 0) (hbig : 32767 < bytesNat e ((s.data.drop 3220).take 2)) :
    ∃ k, (createReader encoding fmtBinaryReelHeader T e dim s).1 = .error k := by
  cases hc : createReader encoding fmtBinaryReelHeader T e dim s with
  | mk x s' =>
    cases x with
    | error k => exact ⟨k, rfl⟩
    | ok y =>
      exfalso
      obtain ⟨r, p⟩ := y
      obtain ⟨binary, h1, -, h3⟩ := C75_uint16_opens _ _ _ _ _ _ _ _ hc
      have h4 := C75_uint16_reads _ _ _ _ _ _ hs _ _ h1
      have hS := shipped_regular (F := fmtBinaryReelHeader) (n := 400) (by decide +kernel) e
      obtain ⟨-, hv⟩ := createReader_binary hS.afterStart hS.orderSafe hc
      have hf := createReader_binary hS.afterStart hS.orderSafe hc |>.1
      obtain ⟨v, hv1, hv2⟩ := hv _ (by rw [hf]; exact standard_mem)
      have h5 := h3 _ standard_mem
      simp only at h4 h5 hv1
      rw [hv1] at h5
      rw [h5] at h4
      have : v = bytesNat e ((s.data.drop 3220).take 2) := Except.ok.inj h4
      have h6 : v ≤ 32767 := hv2.2
      omega

/-- The report of `custom_header.py` on any file: as C72, but files with any number of samples are accepted. -/
theorem C75_custom_report (s : FileH) (hs : s.pos = 0) :
    match createReader none fmtCustomBinaryReelHeader fmtTraceHeaderRev1 .big none s with
    | (.error k, _) => (customReport s).1 = .error k
    | (.ok _, _) =>
      ∃ text binary pages code starts name description,
        ReelHeaders (usedEncoding none s.data) fmtCustomBinaryReelHeader .big s.data text binary pages ∧
        Survey s.data pages.length code starts ∧ (code, name, description) ∈ sampleFormatNames ∧
        (customReport s).1 = .ok
          ([.blank, .filename,
            .revision (if storedInt .big .int16 ((s.data.drop 3500).take 2) = 0 then 0 else 256),
            .numTraces starts.length, .dataFormat description,
            .dimensionality (dimensionOf (surveyLines s.data starts) (surveyEnsembles s.data starts))] ++
           numbersPrinted (surveyLines s.data starts) (surveyEnsembles s.data starts) ++
           [.beginTextual] ++ text.map (fun line => .line (line.drop 3)) ++
           [.endTextual, .blank, .beginExtended, .extended pages, .endExtended]) :=
  report_facts ⟨C75_custom_binary_header .big, by decide +kernel, by decide +kernel, by decide +kernel⟩ s hs

/-! ## Examples -/

/-- A file of one trace with one sample, given the number of samples in the binary reel header, the sample format and the
bytes of the sample. -/
private def shortFile (count : Bytes) (code : UInt8) (sample : Bytes) : FileH :=
  { data := List.replicate 3200 0x40 ++ List.replicate 20 0 ++ count ++ [0, 0, 0, code] ++ List.replicate 374 0 ++
      sampleHeader 1 1 5 ++ sample, pos := 0 }

-- 40000 as the number of samples in the binary reel header: refused by the standard format, not by the other one
example : ∃ k, (createReader none fmtBinaryReelHeader fmtTraceHeaderRev1 .big none (shortFile [0x9C, 0x40] 3 [0, 7])).1 =
    .error k :=
  C75_standard_refuses _ _ _ _ _ rfl (by decide +kernel)

example : ((createReader none fmtCustomBinaryReelHeader fmtTraceHeaderRev1 .big none (shortFile [0x9C, 0x40] 3 [0, 7])).1.map
    fun x => (x.1.binary_reel_header.get "num_samples", x.1.numTraces)) = .ok (.ok 40000, .ok 1) := by
  decide +kernel

-- a file that passes `check_equal.py`
example : checkEqual .little (shortFile [0, 1] 3 [0, 7]) = .ok [(0, 3600)] := by
  decide +kernel

/-- The checks fail on a file that opens and all of whose traces can be read. -/
theorem C75_nan_fails : ∃ s, s.pos = 0 ∧ ((createReader none fmtBinaryReelHeader fmtCustomTraceHeader .big none s).1.map
      fun x => (x.1.numTraces, (x.1.traceSamples .little 0 none none s).1)) = .ok (.ok 1, .ok [.float .nan]) ∧
    checkEqual .little s = .error .assertionError :=
  ⟨shortFile [0, 1] 5 [0x7F, 0xC0, 0, 0], rfl, by decide +kernel, by decide +kernel⟩

end Segpy.Props
