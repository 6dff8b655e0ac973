import Verif.Lemmas.Writer

/-! # Properties of writing: C47, C48, C63 -/

namespace Segpy.Props

open Segpy.Spec Segpy.FileM

theorem filter_lt (n m : Nat) (h : m ≤ n) : (List.range n).filter (fun i => decide (i < m)) = List.range m := by
  obtain ⟨k, rfl⟩ := Nat.exists_eq_add_of_le h
  rw [List.range_add, List.filter_append, List.filter_eq_self.mpr, List.filter_eq_nil_iff.mpr, List.append_nil]
  · intro a ha
    obtain ⟨b, _, rfl⟩ := List.mem_map.mp ha
    simp
  · intro a ha
    simpa using ha

/-- Reading what is left of a written file after its first `k` bytes, if these include all reel headers. -/
theorem read_prefix {d : Dataset} {enc : Encoding} {T : Format} {e : Endian} {t : SegYType} {hs : List Header}
    {vss : List (List PyNum)} (h : Consistent d enc T e t hs vss) (I : Image d enc T e t hs vss) (k : Nat)
    (hk : firstTrace d + 240 ≤ k) (limit : Option Nat) (encoding : Option Encoding)
    (henc : usedEncoding encoding (I.full.take k) = enc) (dim : Option Int) (hdim : dim ∈ [none, some 1, some 2, some 3]) :
    ∃ r progress s', createReader encoding d.binary_reel_header.format T e dim
        { data := I.full.take k, pos := 0, limit := limit } = (.ok (r, progress), s') ∧
      ReadsBack d T t hs vss k { data := I.full.take k, pos := 0, limit := limit } r := by
  have hT := h.cataloguable
  obtain ⟨m, hm, hm1, htr⟩ := traces_written hT I.ts I.head k I.ok
  have hfull : I.full.take k = I.head ++ (body I.ts).take (k - I.head.length) := by
    unfold Image.full
    rw [List.take_append, List.take_of_length_le (by rw [I.head_length]; omega)]
  have hnum := I.num
  have hpos : 0 < hs.length := List.length_pos_iff.mpr h.some_trace
  have hm0 : 0 < m := by
    refine (hm1 0 (by omega)).mp ?_
    rw [← I.start, traceStart]
    simpa using hk
  rw [hfull] at henc
  obtain ⟨binary, hr, hbf, hbg⟩ := h.headersRead I _ limit encoding henc
  rw [← hfull] at hr
  obtain ⟨v, hv, hrev⟩ := h.revision
  have hv' : binary.get "format_revision_num" = .ok v := by
    obtain ⟨f, hf, hfn⟩ := get_mem_fields hv
    rw [← hfn, hbg f hf, hfn, hv]
  obtain ⟨rev, hrev⟩ : ∃ rev, canonicalizeRevision v = .ok rev := by
    rcases hrev with rfl | rfl | rfl | rfl <;> exact ⟨_, rfl⟩
  have hstarts : ((List.range m).map fun i => I.head.length + (body (I.ts.take i)).length) =
      (List.range m).map (traceStart (firstTrace d) t vss) := by
    apply List.map_congr_left
    intro i _
    rw [I.start]
  have hlen : I.head.length = 3600 + 3200 * d.extended_textual_header.length := I.head_length
  have htr' : Traces T e (I.full.take k) t.size (3600 + 3200 * d.extended_textual_header.length)
      ((List.range m).map (traceStart (firstTrace d) t vss)) := by
    rw [← hlen, ← hstarts]; exact htr
  generalize hst : (List.range m).map (traceStart (firstTrace d) t vss) = starts at htr'
  have hsl : starts.length = m := by rw [← hst]; simp
  have hsi : ∀ i (hi : i < starts.length), starts[i] = traceStart (firstTrace d) t vss i := by
    subst hst
    simp
  obtain ⟨r, progress, s', hcr, hdesc, r1, r2, r3, _⟩ := (C51_opens_partial T e hT encoding d.binary_reel_header.format dim
    hdim _ _ _ _ _ hr).1 starts rev v (by intro h0; rw [h0] at hsl; simp at hsl; omega) htr' hv' hrev
  obtain ⟨t', starts', ho⟩ := createReader_opened hT hcr
  have htt : t' = t := by
    have := hdesc.data_sample_format
    rw [ho.format] at this
    exact Except.ok.inj this
  subst htt
  have hot := ho.traces
  rw [r3] at hot
  have hss := (C43_traces T e _ _ _).2.1 _ _ hot htr'
  subst hss
  have hlt : ∀ i < hs.length, traceStart (firstTrace d) t' vss i + 240 ≤ k → i < starts'.length := by
    intro i hi hik
    rw [hsl]
    rw [I.start] at hik
    exact (hm1 i (by omega)).mp hik
  have hat : ∀ i (hi : i < I.ts.length), traceStart (firstTrace d) t' vss i + 240 ≤ k →
      Spec.headerBytes (I.full.take k) (traceStart (firstTrace d) t' vss i) = I.ts[i].headerBytes ∧
      (traceStart (firstTrace d) t' vss (i + 1) ≤ k →
        ((I.full.take k).drop (traceStart (firstTrace d) t' vss i + 240)).take I.ts[i].sampleBytes.length =
          I.ts[i].sampleBytes) := by
    intro i hi hik
    have hx := I.ok _ (List.getElem_mem hi)
    have hsplit : I.full = (I.head ++ body (I.ts.take i)) ++ (I.ts[i].headerBytes ++ (I.ts[i].sampleBytes ++
        body (I.ts.drop (i + 1)))) := by
      have : I.ts = I.ts.take i ++ I.ts[i] :: I.ts.drop (i + 1) := by
        rw [List.getElem_cons_drop, List.take_append_drop]
      unfold Image.full
      conv_lhs => rw [this]
      rw [body_append, body_cons]
      simp only [List.append_assoc]
    have hp : (I.head ++ body (I.ts.take i)).length = traceStart (firstTrace d) t' vss i := by
      rw [List.length_append, I.start]
    refine ⟨?_, ?_⟩
    · rw [hsplit, ← hp]
      exact header_at hx.header_length (by rw [hp]; exact hik)
    · intro hend
      have hnext : traceStart (firstTrace d) t' vss (i + 1) = traceStart (firstTrace d) t' vss i + 240 +
          I.ts[i].sampleBytes.length := by
        rw [I.start, I.start, List.take_succ_eq_append_getElem hi, body_append, body_cons]
        simp only [List.length_append, hx.header_length]
        simp only [body, List.flatMap_nil, List.length_nil]
        omega
      have hp' : ((I.head ++ body (I.ts.take i)) ++ I.ts[i].headerBytes).length =
          traceStart (firstTrace d) t' vss i + 240 := by
        rw [List.length_append, hp, hx.header_length]
      rw [hsplit, ← hp', ← List.append_assoc (I.head ++ body (I.ts.take i)), List.drop_take, List.drop_left, List.take_take,
        Nat.min_eq_left (by omega), List.take_left]
  have hts : ∀ i (hi : i < hs.length), I.ts[i].header = hs[i] := by
    intro i hi
    have := I.headers
    simp only [← this, List.getElem_map]
  have htv : ∀ i (hi : i < I.ts.length) (hi' : i < vss.length), I.ts[i].samples = vss[i] := by
    intro i hi hi'
    have := I.samples
    simp only [← this, List.getElem_map]
  have hvl : vss.length = hs.length := h.same_length
  have hns : ∀ i (hi : i < I.ts.length), traceStart (firstTrace d) t' vss i + 240 ≤ k →
      r.numTraceSamples i = .ok (I.ts[i].samples.length : Int) := by
    intro i hi hik
    rw [hdesc.num_trace_samples i (hlt i (by omega) hik), hsi,
      (I.ok _ (List.getElem_mem hi)).num_field hT (hat i hi hik).1]
  have hloc : ∀ i (hi : i < I.ts.length), traceStart (firstTrace d) t' vss i + 240 ≤ k →
      r.locateSamples i none none = .ok (((traceStart (firstTrace d) t' vss i + 240 : Nat) : Int), t',
        (I.ts[i].samples.length : Int)) := by
    intro i hi hik
    have hi' := hlt i (by omega) hik
    unfold Reader.locateSamples
    simp only [hdesc.num_traces, hns i hi hik, ho.format, ho.offset.get_number hi', bind, Except.bind, pure,
      Except.pure, Option.getD_none]
    rw [if_neg (by omega), if_neg (by omega), if_neg (by omega), hsi]
    simp [TRACE_HEADER_NUM_BYTES]
  refine ⟨r, progress, s', hcr, ⟨r1, by rw [r2, hbf], ?_, r3, ?_, ?_, ?_, ?_, ?_⟩⟩
  · intro f hf
    rw [r2]; exact hbg f hf
  · rw [hdesc.num_traces, hsl, ← hnum]
    have : (List.range I.ts.length).filter (fun i => traceStart (firstTrace d) t' vss i + 240 ≤ k) = List.range m := by
      rw [← filter_lt _ _ hm]
      apply List.filter_congr
      intro i hi
      rw [I.start]
      simp only [hm1 i (List.mem_range.mp hi)]
    rw [this, List.length_range]
  · intro i hi hi' hik
    rw [hns i (by omega) hik, htv i (by omega) hi']
  · intro i hi pos hik
    obtain ⟨t'', starts'', g1, g2, g3⟩ := C61_trace_header T e hT h.trace_format.orderSafe encoding _ dim _ _ r progress hcr
    have htt : t'' = t' := by
      have := g1.data_sample_format
      rw [ho.format] at this
      exact (Except.ok.inj this).symm
    subst htt
    rw [r3] at g2
    have hss := (C43_traces T e _ _ _).2.1 _ _ g2 htr'
    subst hss
    have hi' := hlt i hi hik
    have hx := I.ok _ (List.getElem_mem (show i < I.ts.length by omega))
    have hf := fun f hf => fieldAt_written hx (hat i (by omega) hik).1 (f := f) hf
    rw [← hsi i hi'] at hf
    obtain ⟨hd, k1, k2, k3⟩ := g3 i hi' pos fun f hfm => (hf f hfm).1
    refine ⟨hd, k1, k2, fun f hfm => ?_⟩
    rw [k3 f hfm, ← (hf f hfm).2, hts]
  · intro native i hi pos hi' hend
    have hx := I.ok _ (List.getElem_mem (show i < I.ts.length by omega))
    have hik : traceStart (firstTrace d) t' vss i + 240 ≤ k := by
      have : traceStart (firstTrace d) t' vss (i + 1) = traceStart (firstTrace d) t' vss i + (240 + vss[i].length * t'.size) :=
        traceStart_succ _ _ _ _ hi
      omega
    have hb := C42_read_back native e t' _ _ { data := I.full.take k, pos := pos, limit := limit }
      (traceStart (firstTrace d) t' vss i + 240) hx.stored hx.floats ((hat i (by omega) hik).2 hend)
    obtain ⟨ws, w1, w2⟩ := hb
    refine ⟨ws, ?_, by rw [← htv i (by omega) hi]; exact w2⟩
    rw [traceSamples_eq, hloc i (by omega) hik]
    simp only
    rw [ho.endian, w1]
  · intro native i pos hi hik hend
    have hi' : i < vss.length := by omega
    rw [traceSamples_eq, hloc i (by omega) hik]
    simp only
    rw [ho.endian]
    have hnx : traceStart (firstTrace d) t' vss (i + 1) = traceStart (firstTrace d) t' vss i + (240 + vss[i].length * t'.size) :=
      traceStart_succ _ _ _ _ hi'
    have hlen : (I.full.take k).length ≤ k := by rw [List.length_take]; omega
    refine C42_read_short native e t' _ _ _ ?_ ?_
    · simp only
      rw [htv i (by omega) hi']
      omega
    · rw [htv i (by omega) hi']
      omega

/-! ## C47 what is written is read back -/

/-- A consistent dataset written to an empty file can be written without error; the file, opened with the same formats
and byte order and with an encoding that is the one used or for which that one is guessed, reads back as the dataset. -/
theorem C47_round_trip (d : Dataset) (enc : Encoding) (T : Format) (e : Endian) (t : SegYType) (hs : List Header)
    (vss : List (List PyNum)) (h : Consistent d enc T e t hs vss) (encoding : Option Encoding)
    (henc : (encoding.or d.encoding).getD .ascii = enc) :
    ∃ progress s, writeSegy d encoding T e { data := [], pos := 0 } = (.ok progress, s) ∧
      s.data.length = traceStart (firstTrace d) t vss hs.length ∧
      ∀ (asked : Option Encoding) (dim : Option Int), usedEncoding asked s.data = enc →
        dim ∈ [none, some 1, some 2, some 3] →
        ∃ r p s', createReader asked d.binary_reel_header.format T e dim { s with pos := 0 } = (.ok (r, p), s') ∧
          ReadsBack d T t hs vss s.data.length { s with pos := 0 } r := by
  obtain ⟨I, hI⟩ := h.image encoding henc
  refine ⟨_, _, hI.free { data := [], pos := 0 } rfl rfl rfl, ?_, ?_⟩
  · rw [List.nil_append, I.full_length]
  · intro asked dim hasked hdim
    simp only [List.nil_append] at hasked ⊢
    have hk : firstTrace d + 240 ≤ I.full.length := by
      have hpos : 0 < hs.length := List.length_pos_iff.mpr h.some_trace
      rw [I.full_length]
      unfold traceStart
      obtain ⟨vs, vss', hv⟩ : ∃ vs vss', vss = vs :: vss' := by
        have := h.same_length
        cases vss with
        | nil => simp at this; omega
        | cons vs vss' => exact ⟨_, _, rfl⟩
      rw [hv]
      obtain ⟨n, hn⟩ : ∃ n, hs.length = n + 1 := ⟨hs.length - 1, by omega⟩
      rw [hn, List.take_succ_cons, List.map_cons, List.sum_cons]
      omega
    have := read_prefix h I I.full.length hk none asked (by rw [List.take_length]; exact hasked) dim hdim
    rw [List.take_length] at this
    exact this

/-! ## C48 a crash while writing leaves a prefix -/

/-- If the device takes only `k` bytes then `write_segy` raises the device's error and the first `k` bytes of the
complete file have been stored.  If these hold all reel headers and at least one complete trace header, the file can be
opened, and all the data stored so far are read back: traces that were not completed raise `EOFError` when their samples
are read, and no trace is invented.  If they do not, opening raises: `ValueError` within the first 3600 bytes, `EOFError`
within the extended headers, and `RuntimeError` within the first trace header. -/
theorem C48_prefix (d : Dataset) (enc : Encoding) (T : Format) (e : Endian) (t : SegYType) (hs : List Header)
    (vss : List (List PyNum)) (h : Consistent d enc T e t hs vss) (encoding : Option Encoding)
    (henc : (encoding.or d.encoding).getD .ascii = enc) (k : Nat)
    (hk : k < traceStart (firstTrace d) t vss hs.length) :
    ∃ progress complete s, writeSegy d encoding T e { data := [], pos := 0 } = (.ok progress, complete) ∧
      writeSegy d encoding T e { data := [], pos := 0, limit := some k } = (.error .osError, s) ∧
      s.data = complete.data.take k ∧
      (firstTrace d + 240 ≤ k →
        ∀ (asked : Option Encoding) (dim : Option Int), usedEncoding asked s.data = enc →
          dim ∈ [none, some 1, some 2, some 3] →
          ∃ r p s', createReader asked d.binary_reel_header.format T e dim { s with pos := 0 } = (.ok (r, p), s') ∧
            ReadsBack d T t hs vss k { s with pos := 0 } r) ∧
      (firstTrace d ≤ k → k < firstTrace d + 240 →
        ∀ (asked : Option Encoding) (dim : Option Int), usedEncoding asked s.data = enc →
          dim ∈ [none, some 1, some 2, some 3] →
          (createReader asked d.binary_reel_header.format T e dim { s with pos := 0 }).1 = .error .runtimeError) ∧
      (3600 ≤ k → k < firstTrace d →
        ∀ (asked : Option Encoding) (dim : Option Int), usedEncoding asked s.data = enc →
          dim ∈ [none, some 1, some 2, some 3] →
          (createReader asked d.binary_reel_header.format T e dim { s with pos := 0 }).1 = .error .eofError) ∧
      (k < 3600 → ∀ (asked : Option Encoding) (dim : Option Int),
        (createReader asked d.binary_reel_header.format T e dim { s with pos := 0 }).1 = .error .valueError) := by
  obtain ⟨I, hI⟩ := h.image encoding henc
  rw [← I.full_length] at hk
  refine ⟨_, _, _, hI.free { data := [], pos := 0 } rfl rfl rfl, hI.beyond { data := [], pos := 0, limit := some k } k rfl rfl rfl hk,
    by simp, ?_, ?_, ?_, ?_⟩
  · intro hroom asked dim hasked hdim
    simp only [List.nil_append] at hasked ⊢
    exact read_prefix h I k hroom (some 0) asked hasked dim hdim
  · intro hhead hnone asked dim hasked hdim
    simp only [List.nil_append] at hasked ⊢
    have hfull : I.full.take k = I.head ++ (body I.ts).take (k - I.head.length) := by
      unfold Image.full
      rw [List.take_append, List.take_of_length_le (by rw [I.head_length]; omega)]
    rw [hfull] at hasked ⊢
    obtain ⟨binary, hr, _⟩ := h.headersRead I _ (some 0) asked hasked
    refine (C51_opens_partial T e h.cataloguable asked _ dim hdim _ _ _ _ _ hr).2.1 ⟨_, .nil _, ?_⟩
    rw [List.length_append, List.length_take, I.head_length]
    unfold firstTrace at *
    omega
  · intro h1 h2 asked dim hasked hdim
    simp only [List.nil_append] at hasked ⊢
    exact h.cutInPages I k h1 h2 (some 0) asked hasked T dim hdim
  · intro hlt asked dim
    simp only [List.nil_append]
    unfold createReader
    have : (I.full.take k).length < REEL_HEADER_NUM_BYTES := by
      have h36 : REEL_HEADER_NUM_BYTES = 3600 := rfl
      rw [List.length_take, h36]; omega
    rw [bind_ok (show fileLength { data := I.full.take k, pos := 0, limit := some 0 } =
      (.ok (I.full.take k).length, { data := I.full.take k, pos := 0, limit := some 0 }) from rfl), if_pos this]
    rfl

/-- An unsupported encoding is refused before anything is written. -/
theorem C48_encoding_refused (d : Dataset) (encoding : Option Encoding) (T : Format) (e : Endian) (s : FileH)
    (henc : (encoding.or d.encoding).getD .ascii = .other) :
    writeSegy d encoding T e s = (.error .unsupportedEncodingError, s) := by
  unfold writeSegy
  simp only [henc]
  rfl

/-- If a trace of an otherwise consistent dataset cannot be had - its header or its samples raise, or a sample does not
fit the sample format - then `write_segy` raises, and the file holds exactly the headers, all traces before it and, if
the samples were to blame, its header. -/
theorem C48_dataset_raises (d : Dataset) (enc : Encoding) (T : Format) (e : Endian) (t : SegYType) (hs : List Header)
    (vss : List (List PyNum)) (h : Consistent d enc T e t hs vss) (encoding : Option Encoding)
    (henc : (encoding.or d.encoding).getD .ascii = enc) (j : Nat) (hj : j < hs.length)
    (header : Int → Res Header) (samples : Int → Res (List PyNum))
    (hh : ∀ i < j, header (i : Nat) = d.trace_header (i : Nat))
    (hv : ∀ i < j, samples (i : Nat) = d.trace_samples (i : Nat)) :
    ∃ progress complete, writeSegy d encoding T e { data := [], pos := 0 } = (.ok progress, complete) ∧
      (∀ err, header j = .error err →
        ∃ s, writeSegy { d with trace_header := header, trace_samples := samples } encoding T e { data := [], pos := 0 } =
          (.error err, s) ∧ s.data = complete.data.take (traceStart (firstTrace d) t vss j)) ∧
      (∀ err, header j = d.trace_header j → samples j = .error err →
        ∃ s, writeSegy { d with trace_header := header, trace_samples := samples } encoding T e { data := [], pos := 0 } =
          (.error err, s) ∧ s.data = complete.data.take (traceStart (firstTrace d) t vss j + 240)) ∧
      (∀ vs, header j = d.trace_header j → samples j = .ok vs → (∃ v ∈ vs, ¬ Fits t v) →
        (t = .float32 → ∀ v ∈ vs, ∃ f, v = .float f) →
        ∃ err s, writeSegy { d with trace_header := header, trace_samples := samples } encoding T e { data := [], pos := 0 } =
          (.error err, s) ∧ s.data = complete.data.take (traceStart (firstTrace d) t vss j + 240) ∧
          sampleBytes vs t e = .error err ∧
          (t = .float32 → err = .overflowError) ∧ ∀ n, t = .int n → err = .structError) := by
  obtain ⟨I, hI⟩ := h.image encoding henc
  have hnum := I.num
  have hjt : j < I.ts.length := by omega
  refine ⟨_, _, hI.free { data := [], pos := 0 } rfl rfl rfl, ?_⟩
  have hw := h.writeHead I { d with trace_header := header, trace_samples := samples } rfl rfl rfl rfl encoding henc
  have hne : d.num_traces ≠ 0 := by
    rw [h.num_traces]
    have := List.length_pos_iff.mpr h.some_trace
    omega
  have hts : ∀ i (hi : i < hs.length), I.ts[i].header = hs[i] := by
    intro i hi
    have := I.headers
    simp only [← this, List.getElem_map]
  have hvl : vss.length = hs.length := h.same_length
  have htv : ∀ i (hi : i < I.ts.length) (hi' : i < vss.length), I.ts[i].samples = vss[i] := by
    intro i hi hi'
    have := I.samples
    simp only [← this, List.getElem_map]
  have hx := I.ok _ (List.getElem_mem hjt)
  have htl : (I.ts.take j).length = j := by rw [List.length_take]; omega
  have hidx : d.trace_indexes = ((List.range' 0 ((I.ts.take j).length + 1)).map fun i : Nat => (i : Int)) ++
      ((List.range' (j + 1) (hs.length - (j + 1))).map fun i : Nat => (i : Int)) := by
    rw [h.indexes, htl, ← List.map_append, List.range_eq_range']
    congr 1
    have := List.range'_append (s := 0) (m := j + 1) (n := hs.length - (j + 1)) (step := 1)
    simp only [Nat.zero_add, Nat.one_mul] at this
    rw [this]
    congr 1
    omega
  have hraise := fun err => writeTraces_raises (d := { d with trace_header := header, trace_samples := samples })
    (p := I.packer) (T := T) (e := e) (t := t) h.sample_format hne (I.ts.take j) 0
    ((List.range' (j + 1) (hs.length - (j + 1))).map fun i : Nat => (i : Int)) I.ts[j] err
    (fun x hx => I.ok x (List.mem_of_mem_take hx)) hx
    (fun i hi => by
      rw [htl] at hi
      simp only [Nat.zero_add, List.getElem_take]
      rw [hh i hi, h.trace_header i (by omega), hts i (by omega)])
    (fun i hi => by
      rw [htl] at hi
      simp only [Nat.zero_add, List.getElem_take]
      rw [hv i hi, h.trace_samples i (by omega), htv i (by omega)])
    { data := I.head, pos := I.head.length } rfl rfl
  rw [htl] at hidx hraise
  simp only [Nat.zero_add, ← hidx] at hraise
  have htake : I.full.take (traceStart (firstTrace d) t vss j) = I.head ++ body (I.ts.take j) := by
    rw [I.start]
    unfold Image.full
    rw [List.take_length_add_append]
    congr 1
    conv_lhs => rw [← List.take_append_drop j I.ts, body_append, List.take_append_drop]
    rw [List.take_left]
  have htake2 : I.full.take (traceStart (firstTrace d) t vss j + 240) =
      I.head ++ (body (I.ts.take j) ++ I.ts[j].headerBytes) := by
    rw [I.start]
    unfold Image.full
    rw [Nat.add_assoc, List.take_length_add_append]
    congr 1
    have hsplit : body I.ts = body (I.ts.take j) ++ (I.ts[j].headerBytes ++ (I.ts[j].sampleBytes ++ body (I.ts.drop (j + 1)))) := by
      rw [← List.append_assoc I.ts[j].headerBytes, ← body_cons, ← body_append, List.getElem_cons_drop, List.take_append_drop]
    rw [hsplit, List.take_length_add_append]
    congr 1
    exact List.take_left' hx.header_length
  refine ⟨?_, ?_, ?_⟩
  · intro err herr
    refine ⟨_, by rw [hw, bind_error ((hraise err).1 herr)], ?_⟩
    simp only [List.nil_append, htake]
  · intro err hhj herr
    refine ⟨_, by rw [hw, bind_error ((hraise err).2 (by rw [hhj, h.trace_header j hj, hts]) (Or.inl herr))], ?_⟩
    simp only [List.nil_append, htake2]
  · intro vs hhj hvs hbad hf
    obtain ⟨err, herr⟩ := sampleBytes_refuses (e := e) hf hbad
    refine ⟨err, _, by rw [hw, bind_error ((hraise err).2 (by rw [hhj, h.trace_header j hj, hts])
      (Or.inr ⟨vs, hvs, herr⟩))], ?_, herr, ?_, ?_⟩
    · simp only [List.nil_append, htake2]
    · rintro rfl
      obtain ⟨fs, rfl⟩ : ∃ fs : List PyFloat, vs = fs.map .float := by
        have hf' := hf rfl
        clear hvs hbad hf herr
        induction vs with
        | nil => exact ⟨[], rfl⟩
        | cons v vs ih =>
          obtain ⟨f, rfl⟩ := hf' v List.mem_cons_self
          obtain ⟨fs, rfl⟩ := ih fun v hv => hf' v (List.mem_cons_of_mem _ hv)
          exact ⟨f :: fs, rfl⟩
      obtain ⟨v, hv, hn⟩ := hbad
      obtain ⟨f, hf1, rfl⟩ := List.mem_map.mp hv
      have := (C42_float32_accepts e fs).2 ⟨f, hf1, fun hfit => hn ⟨f, rfl, hfit⟩⟩
      unfold sampleBytes at herr
      rw [if_neg (by simp), this] at herr
      exact (Except.error.inj herr).symm
    · rintro n rfl
      unfold sampleBytes at herr
      rw [if_neg (by simp)] at herr
      exact C42_int_error e n vs err herr

/-! ## C63 -/

private theorem writeTraces_progress (d : Dataset) (p : HeaderPacker) (e : Endian) : ∀ (is : List Int) (s s' : FileH)
    (progress : List ℚ), writeTraces d p e is s = (.ok progress, s') →
      progress = is.map fun i : Int => round64 ((i : ℚ) / d.num_traces) := by
  intro is
  induction is with
  | nil =>
    intro s s' progress h
    have := (congrArg Prod.fst h)
    simpa [writeTraces] using (Except.ok.inj this).symm
  | cons i rest ih =>
    intro s s' progress h
    unfold writeTraces at h
    obtain ⟨_, _, _, h⟩ := bind_eq_ok h
    obtain ⟨_, _, _, h⟩ := bind_eq_ok h
    obtain ⟨_, _, _, h⟩ := bind_eq_ok h
    obtain ⟨_, _, _, h⟩ := bind_eq_ok h
    obtain ⟨_, _, _, h⟩ := bind_eq_ok h
    split at h
    · cases h
    · obtain ⟨later, _, h1, h⟩ := bind_eq_ok h
      have := ih _ _ _ h1
      have h2 := congrArg Prod.fst h
      have h3 := Except.ok.inj h2
      rw [← h3, this]
      rfl

/-- Whatever dataset is written: if `write_segy` succeeds on one that numbers its traces from zero, it has reported its
progress once for each trace and once at the end, by values between 0 and 1 that never decrease, the last of which
is 1. -/
theorem C63_progress_partial (d : Dataset) (encoding : Option Encoding) (T : Format) (e : Endian) (s s' : FileH)
    (progress : List ℚ) (n : Nat) (hn : d.num_traces = n)
    (hidx : d.trace_indexes = (List.range n).map fun i : Nat => (i : Int))
    (h : writeSegy d encoding T e s = (.ok progress, s')) :
    progress.length = n + 1 ∧ progress.Pairwise (· ≤ ·) ∧ (∀ x ∈ progress, 0 ≤ x ∧ x ≤ 1) ∧
      progress.getLast? = some 1 := by
  unfold writeSegy at h
  split at h
  · cases h
  obtain ⟨_, _, _, h⟩ := bind_eq_ok h
  obtain ⟨_, _, _, h⟩ := bind_eq_ok h
  obtain ⟨_, _, _, h⟩ := bind_eq_ok h
  obtain ⟨p, _, _, h⟩ := bind_eq_ok h
  obtain ⟨ps, _, h1, h⟩ := bind_eq_ok h
  have hp := writeTraces_progress _ _ _ _ _ _ _ h1
  have h2 := Except.ok.inj (congrArg Prod.fst h)
  subst h2
  rw [hidx, List.map_map, hn] at hp
  subst hp
  have h1' : round64 1 = 1 := roundTo_exact 1 0 (by norm_num) (by norm_num) (by norm_num)
  have hmono : ∀ x y : ℚ, x ≤ y → round64 x ≤ round64 y := fun x y h => roundTo_mono (by norm_num) _ h
  have hb : ∀ i < n, 0 ≤ round64 (((i : Nat) : Int) / ((n : Nat) : Int) : ℚ) ∧ round64 (((i : Nat) : Int) / ((n : Nat) : Int) : ℚ) ≤ 1 := by
    intro i hi
    have hpos : (0 : ℚ) < n := by exact_mod_cast (by omega : 0 < n)
    refine ⟨?_, ?_⟩
    · rw [← (by simp [round64, roundTo] : round64 0 = 0)]
      apply hmono
      positivity
    · conv_rhs => rw [← h1']
      apply hmono
      rw [div_le_one (by exact_mod_cast hpos)]
      exact_mod_cast hi.le
  refine ⟨by simp, ?_, ?_, by simp⟩
  · rw [List.pairwise_append]
    refine ⟨?_, List.pairwise_singleton _ _, ?_⟩
    · rw [List.pairwise_map]
      refine List.pairwise_lt_range.imp fun {a b} hab => ?_
      apply hmono
      simp only [Int.cast_natCast]
      gcongr
    · intro x hx y hy
      obtain ⟨i, hi, rfl⟩ := List.mem_map.mp hx
      rw [List.mem_singleton.mp hy]
      exact (hb i (List.mem_range.mp hi)).2
  · intro x hx
    rcases List.mem_append.mp hx with hx | hx
    · obtain ⟨i, hi, rfl⟩ := List.mem_map.mp hx
      exact hb i (List.mem_range.mp hi)
    · rw [List.mem_singleton.mp hx]
      norm_num

/-! ## A dataset -/

section Example

private def exampleBinary : Header :=
  { format := fmtBinaryReelHeader
    data := fmtBinaryReelHeader.fields.map fun f => (f.name, if f.name = "data_sample_format" then 3 else
      if f.name = "num_extended_textual_headers" then -1 else f.default) }

private def exampleTrace (ensemble n : Int) : Header :=
  { format := fmtTraceHeaderRev1
    data := fmtTraceHeaderRev1.fields.map fun f => (f.name, if f.name = "num_samples" then n else
      if f.name = "ensemble_num" then ensemble else f.default) }

private def stopPage : List PyStr :=
  ("((SEG: EndText))".toList ++ List.replicate 64 ' ') :: List.replicate 39 (List.replicate 80 ' ')

private def exampleDataset : Dataset :=
  { textual_reel_header := ["C 1 CLIENT".toList]
    binary_reel_header := exampleBinary
    extended_textual_header := [stopPage]
    encoding := some .ebcdic
    num_traces := 2
    trace_indexes := [0, 1]
    trace_header := fun i => if i = 0 then .ok (exampleTrace 7 2) else if i = 1 then .ok (exampleTrace 8 3) else
      .error .valueError
    trace_samples := fun i => if i = 0 then .ok [.int 5, .int (-32768)] else
      if i = 1 then .ok [.int 1, .int 2, .int 3] else .error .valueError }

theorem valid_of {h : Header} (hd : (h.format.fields.all fun f =>
    (h.get f.name).toOption.any fun v => decide (f.value_type.Admits v)) = true) : h.Valid := by
  intro f hf
  have := List.all_eq_true.mp hd f hf
  cases hg : h.get f.name with
  | error err => rw [hg] at this; simp [Except.toOption] at this
  | ok w => rw [hg] at this; exact ⟨w, rfl, by simpa [Except.toOption] using this⟩

theorem shipped_regular {F : Format} {n : Nat} (h : (F, n) ∈ shippedFormats) (e : Endian) : Regular F e n := by
  obtain ⟨⟨p, hp, _⟩, h1, _, h2, _, h3, _, h4⟩ := C34_shipped_formats _ h e
  refine ⟨⟨p, hp⟩, h2, Or.inl h1, ?_, C34_shipped_storable _ h, h3⟩
  intro f hf g hg
  by_cases hfg : f = g
  · exact Or.inl hfg
  · have : Std.Symm Field.Disjoint := ⟨fun _ _ h => Or.symm h⟩
    exact Or.inr (h4.forall hf hg hfg)

/-- Two traces of different lengths, and extended headers up to the stop stanza. -/
private theorem exampleConsistent : Consistent exampleDataset .ebcdic fmtTraceHeaderRev1 .big (.int .int16)
    [exampleTrace 7 2, exampleTrace 8 3] [[.int 5, .int (-32768)], [.int 1, .int 2, .int 3]] where
  encoding := by simp
  textual := by
    have h : ∀ i ∈ List.range 40, ∀ c ∈ exampleDataset.textual_reel_header.getD i [], c.toNat < 256 := by decide +kernel
    intro i hi c hc
    exact h i (List.mem_range.mpr hi) c hc
  binary_format := shipped_regular (by decide +kernel) _
  binary_valid := valid_of (by decide +kernel)
  sample_format := by decide +kernel
  revision := ⟨256, by decide +kernel, by simp⟩
  pages := by
    have h : ∀ l ∈ stopPage, l.length = 80 ∧ ∀ c ∈ l, c.toNat < 256 := by decide +kernel
    intro p hp
    rw [List.mem_singleton.mp hp]
    exact ⟨by decide +kernel, h⟩
  no_early_stop := by simp [exampleDataset]
  num_pages := ⟨-1, by decide +kernel, Or.inr ⟨by decide, stopPage, rfl, [], List.replicate 64 ' ', by decide +kernel⟩⟩
  some_trace := by simp
  num_traces := rfl
  indexes := rfl
  trace_format := shipped_regular (by decide +kernel) _
  cataloguable := C43_rev1_cataloguable _
  trace_header := by
    intro i hi
    match i, hi with
    | 0, _ => rfl
    | 1, _ => rfl
  header_format := by
    intro h hh
    simp only [List.mem_cons, List.not_mem_nil, or_false] at hh
    rcases hh with rfl | rfl <;> rfl
  header_valid := by
    intro h hh
    simp only [List.mem_cons, List.not_mem_nil, or_false] at hh
    rcases hh with rfl | rfl <;> exact valid_of (by decide +kernel)
  same_length := rfl
  num_samples := by
    intro i hi hi'
    match i, hi with
    | 0, _ => exact (by decide +kernel : (exampleTrace 7 2).get "num_samples" = .ok 2)
    | 1, _ => exact (by decide +kernel : (exampleTrace 8 3).get "num_samples" = .ok 3)
  trace_samples := by
    intro i hi
    match i, hi with
    | 0, _ => rfl
    | 1, _ => rfl
  fits := by
    intro vs hvs v hv
    simp only [List.mem_cons, List.not_mem_nil, or_false] at hvs
    rcases hvs with rfl | rfl
    · simp only [List.mem_cons, List.not_mem_nil, or_false] at hv
      rcases hv with rfl | rfl
      · exact ⟨5, rfl, by decide, by decide⟩
      · exact ⟨-32768, rfl, by decide, by decide⟩
    · simp only [List.mem_cons, List.not_mem_nil, or_false] at hv
      rcases hv with rfl | rfl | rfl
      · exact ⟨1, rfl, by decide, by decide⟩
      · exact ⟨2, rfl, by decide, by decide⟩
      · exact ⟨3, rfl, by decide, by decide⟩

/-- There is a consistent dataset, which takes 7290 bytes. -/
theorem consistent_example : ∃ (d : Dataset) (hs : List Header) (vss : List (List PyNum)),
    Consistent d .ebcdic fmtTraceHeaderRev1 .big (.int .int16) hs vss ∧ d.encoding = some .ebcdic ∧
      traceStart (firstTrace d) (.int .int16) vss hs.length = 7290 :=
  ⟨_, _, _, exampleConsistent, rfl, by decide +kernel⟩

/-- It has two traces, and its first trace ends at byte 7044. -/
theorem consistent_example_two : ∃ (d : Dataset) (hs : List Header) (vss : List (List PyNum)),
    Consistent d .ebcdic fmtTraceHeaderRev1 .big (.int .int16) hs vss ∧ d.encoding = some .ebcdic ∧
      hs.length = 2 ∧ traceStart (firstTrace d) (.int .int16) vss 1 = 7044 :=
  ⟨_, _, _, exampleConsistent, rfl, rfl, by decide +kernel⟩

-- it can be written and read back: 3600 + 3200 bytes of headers, and traces of 244 and 246 bytes
example : ∃ progress s, writeSegy exampleDataset none fmtTraceHeaderRev1 .big { data := [], pos := 0 } = (.ok progress, s) ∧
    s.data.length = 7290 ∧
    ∃ r p s', createReader (some .ebcdic) fmtBinaryReelHeader fmtTraceHeaderRev1 .big none { s with pos := 0 } =
      (.ok (r, p), s') ∧ r.numTraces = .ok 2 ∧ r.numTraceSamples 1 = .ok 3 := by
  obtain ⟨progress, s, h1, h2, h3⟩ := C47_round_trip _ _ _ _ _ _ _ exampleConsistent none rfl
  obtain ⟨r, p, s', h4, h5⟩ := h3 (some .ebcdic) none rfl (by simp)
  refine ⟨progress, s, h1, by rw [h2]; decide +kernel, r, p, s', h4, ?_, ?_⟩
  · have := h5.num_traces
    rw [h2] at this
    rw [this]
    decide +kernel
  · refine h5.num_trace_samples 1 (by simp) (by simp) ?_
    rw [h2]
    decide +kernel

-- if the device is full after 7286 bytes, the second trace has a complete header and no complete samples
example : ∃ s, writeSegy exampleDataset none fmtTraceHeaderRev1 .big { data := [], pos := 0, limit := some 7286 } =
      (.error .osError, s) ∧
    ∃ r p s', createReader (some .ebcdic) fmtBinaryReelHeader fmtTraceHeaderRev1 .big none { s with pos := 0 } =
      (.ok (r, p), s') ∧ r.numTraces = .ok 2 ∧
      ∀ native pos, (r.traceSamples native 1 none none { s with pos := pos }).1 = .error .eofError := by
  obtain ⟨progress, complete, s, _, h2, _, h4, _⟩ := C48_prefix _ _ _ _ _ _ _ exampleConsistent none rfl 7286
    (by decide +kernel)
  obtain ⟨r, p, s', h5, h6⟩ := h4 (by decide +kernel) (some .ebcdic) none rfl (by simp)
  refine ⟨s, h2, r, p, s', h5, ?_, fun native pos => h6.cut native 1 pos (by simp) (by decide +kernel) (by decide +kernel)⟩
  rw [h6.num_traces]
  decide +kernel

-- a sample too great for the format in the second trace: the file ends with its header
example : ∃ err s, writeSegy { exampleDataset with
      trace_samples := fun i => if i = 1 then .ok [.int 40000] else exampleDataset.trace_samples i } none fmtTraceHeaderRev1 .big { data := [], pos := 0 } = (.error err, s) ∧
    s.data.length = 7284 := by
  obtain ⟨progress, s, h1, h2, _⟩ := C47_round_trip _ _ _ _ _ _ _ exampleConsistent none rfl
  obtain ⟨progress', complete, h3, _, _, h6⟩ := C48_dataset_raises _ _ _ _ _ _ _ exampleConsistent none rfl 1 (by simp)
    exampleDataset.trace_header (fun i => if i = 1 then .ok [.int 40000] else exampleDataset.trace_samples i)
    (fun _ _ => rfl) (fun i hi => by interval_cases i; rfl)
  rw [h1] at h3
  cases h3
  obtain ⟨err, s', h7, h8, -⟩ := h6 [.int 40000] rfl rfl ⟨.int 40000, List.mem_singleton.mpr rfl, by
    rintro ⟨n, hn, _, h9⟩
    cases hn
    exact absurd h9 (by decide)⟩ (by simp)
  refine ⟨err, s', h7, ?_⟩
  rw [h8, List.length_take, h2]
  decide +kernel

-- the progress of writing it
example : ∃ progress s, writeSegy exampleDataset none fmtTraceHeaderRev1 .big { data := [], pos := 0 } = (.ok progress, s) ∧
    progress.length = 3 ∧ progress.getLast? = some 1 := by
  obtain ⟨progress, s, h1, _⟩ := C47_round_trip _ _ _ _ _ _ _ exampleConsistent none rfl
  obtain ⟨h2, _, _, h3⟩ := C63_progress_partial _ _ _ _ _ _ _ 2 rfl rfl h1
  exact ⟨progress, s, h1, h2, h3⟩

end Example

end Segpy.Props
