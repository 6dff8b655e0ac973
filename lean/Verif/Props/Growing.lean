import Verif.Spec.Growing
import Verif.Model.TimedReader
import Verif.Lemmas.Growing
import Verif.Lemmas.ExampleFile
import Verif.Props.Reel

/-! # Properties of reading all of a file, and of reading a file that grows: C80, C81 -/

namespace Segpy.Props

open Segpy.Spec Segpy.FileM

/-! ## C80 reading every trace -/

private theorem whole_trace {r : Reader} {i n : Int} (h : r.numTraceSamples i = .ok n) (native : Endian) (s : FileH) :
    r.traceSamples native i none none s = r.traceSamples native i (some 0) (some n) s := by
  have : r.locateSamples i none none = r.locateSamples i (some 0) (some n) := by
    unfold Reader.locateSamples
    simp only [h, bind, Except.bind, Option.getD]
  rw [traceSamples_eq, traceSamples_eq, this]

/-- Every trace of an opened file but the last lies in the file in full, and can be read whatever the position of the
file; the last can be read if it lies in the file in full or has no samples, and otherwise reading it raises
`EOFError`. -/
theorem C80_every_trace (T : Format) (e : Endian) (hT : Cataloguable T e) (encoding : Option Encoding) (B : Format)
    (dim : Option Int) (s s' : FileH) (r : Reader) (progress : List ℚ)
    (h : createReader encoding B T e dim s = (.ok (r, progress), s')) :
    ∃ t starts, Describes T e s.data t starts r ∧
      Traces T e s.data t.size (3600 + 3200 * r.extended_textual_headers.length) starts ∧
      ∀ (native : Endian) (i : Nat) (hi : i < starts.length) (pos : Nat),
        (i + 1 < starts.length → starts[i] + 240 + samplesAt T e s.data starts[i] * t.size ≤ s.data.length) ∧
        (samplesAt T e s.data starts[i] = 0 ∨
            starts[i] + 240 + samplesAt T e s.data starts[i] * t.size ≤ s.data.length →
          ∃ l, (r.traceSamples native i none none { s with pos := pos }).1 = .ok l ∧
            l.length = samplesAt T e s.data starts[i] ∧ SamplesStored e t s.data (starts[i] + 240) l) ∧
        (¬ (samplesAt T e s.data starts[i] = 0 ∨
            starts[i] + 240 + samplesAt T e s.data starts[i] * t.size ≤ s.data.length) →
          (r.traceSamples native i none none { s with pos := pos }).1 = .error .eofError) := by
  obtain ⟨t, starts, ⟨hd, hread⟩, ho⟩ := createReader_all hT h
  have htr := ho.traces
  refine ⟨t, starts, hd, htr, ?_⟩
  intro native i hi pos
  obtain ⟨-, h2, h3, -⟩ := C43_tiles T e s.data t.size _ starts htr
  obtain ⟨-, -, hn⟩ := start_facts hT ho (List.getElem_mem hi)
  have hw := whole_trace (hd.num_trace_samples i hi) native { s with pos := pos }
  have hr := hread native i hi 0 (samplesAt T e s.data starts[i]) pos (by omega) (by rw [hn])
  rw [hn] at hw
  refine ⟨?_, ?_, ?_⟩
  · intro hi1
    have := h3 _ (List.getElem_mem hi1)
    rw [h2 i hi1] at this
    omega
  · intro hfit
    obtain ⟨l, g1, g2, g3⟩ := hr.2 (by omega)
    rw [hw]
    refine ⟨l, g1, by omega, ?_⟩
    rw [Nat.zero_mul, Nat.add_zero] at g3
    exact g3
  · intro hfit
    rw [not_or] at hfit
    rw [hw]
    exact hr.1 (by omega) (by omega)

private theorem readEach_ok {r : Reader} {native : Endian} {s : FileH} (l : List Int)
    (h : ∀ i ∈ l, ∀ pos, ∃ x, (r.traceSamples native i none none { s with pos := pos }).1 = .ok x) (pos : Nat) :
    ∃ k, readEach r native l { s with pos := pos } = (.ok (), { s with pos := k }) := by
  induction l generalizing pos with
  | nil => exact ⟨pos, rfl⟩
  | cons i l ih =>
    obtain ⟨x, hx⟩ := h i (List.mem_cons_self ..) pos
    obtain ⟨k, hk⟩ := call_file r native (.traceSamples i none none) { s with pos := pos }
    have hk' : (r.traceSamples native i none none { s with pos := pos }).2 = { s with pos := k } := hk
    have hb : r.traceSamples native i none none { s with pos := pos } = (.ok x, { s with pos := k }) := by
      rw [← hx, ← hk']
    unfold readEach
    rw [bind_ok hb]
    exact ih (fun j hj => h j (List.mem_cons_of_mem _ hj)) k

private theorem readEach_error {r : Reader} {native : Endian} {s : FileH} (l : List Int) (i : Int) (err : Err)
    (h : ∀ i ∈ l, ∀ pos, ∃ x, (r.traceSamples native i none none { s with pos := pos }).1 = .ok x)
    (hi : ∀ pos, (r.traceSamples native i none none { s with pos := pos }).1 = .error err) (pos : Nat) :
    (readEach r native (l ++ [i]) { s with pos := pos }).1 = .error err := by
  induction l generalizing pos with
  | nil =>
    have hb : r.traceSamples native i none none { s with pos := pos } =
        (.error err, (r.traceSamples native i none none { s with pos := pos }).2) := by
      rw [← hi pos]
    show (readEach r native [i] { s with pos := pos }).1 = _
    unfold readEach
    rw [bind_error hb]
  | cons j l ih =>
    obtain ⟨x, hx⟩ := h j (List.mem_cons_self ..) pos
    obtain ⟨k, hk⟩ := call_file r native (.traceSamples j none none) { s with pos := pos }
    have hk' : (r.traceSamples native j none none { s with pos := pos }).2 = { s with pos := k } := hk
    have hb : r.traceSamples native j none none { s with pos := pos } = (.ok x, { s with pos := k }) := by
      rw [← hx, ← hk']
    rw [List.cons_append]
    unfold readEach
    rw [bind_ok hb]
    exact ih (fun j hj => h j (List.mem_cons_of_mem _ hj)) k

/-- The example program that reads every trace of a file: what opening raises it raises; and if the file can be opened,
it succeeds if the last trace lies in the file in full or has no samples, and raises `EOFError` otherwise. -/
theorem C80_read_traces (native : Endian) (s : FileH) :
    (∀ err s', createReader none fmtBinaryReelHeader fmtTraceHeaderRev1 .big none s = (.error err, s') →
      (readTraces native s).1 = .error err) ∧
    ∀ r progress s', createReader none fmtBinaryReelHeader fmtTraceHeaderRev1 .big none s = (.ok (r, progress), s') →
      ∃ t starts p, Traces fmtTraceHeaderRev1 .big s.data t.size (3600 + 3200 * r.extended_textual_headers.length) starts ∧
        r.dataSampleFormat = .ok t ∧ starts.getLast? = some p ∧
        (samplesAt fmtTraceHeaderRev1 .big s.data p = 0 ∨
            p + 240 + samplesAt fmtTraceHeaderRev1 .big s.data p * t.size ≤ s.data.length →
          (readTraces native s).1 = .ok ()) ∧
        (¬ (samplesAt fmtTraceHeaderRev1 .big s.data p = 0 ∨
            p + 240 + samplesAt fmtTraceHeaderRev1 .big s.data p * t.size ≤ s.data.length) →
          (readTraces native s).1 = .error .eofError) := by
  constructor
  · intro err s' h
    unfold readTraces
    rw [bind_error h]
  · intro r progress s' h
    have hT := C43_rev1_cataloguable .big
    obtain ⟨t, starts, hd, htr, hall⟩ := C80_every_trace _ _ hT _ _ _ s s' r progress h
    obtain ⟨k, hk⟩ := (reads_createReader _ _ _ _ _).ok h
    have hne : starts ≠ [] := by
      obtain ⟨n, g1, g2⟩ := C51_no_empty_reader _ _ hT _ _ _ s s' r progress h
      rw [hd.num_traces] at g1
      cases g1
      intro h0
      rw [h0] at g2
      simp at g2
    have hlen : 0 < starts.length := List.length_pos_iff.mpr hne
    refine ⟨t, starts, starts[starts.length - 1], htr, hd.data_sample_format, ?_, ?_⟩
    · rw [List.getLast?_eq_getElem?, List.getElem?_eq_getElem]
    have hrun : readTraces native s =
        readEach r native ((List.range starts.length).map fun i : Nat => (i : Int)) { s with pos := k } := by
      unfold readTraces
      rw [bind_ok h]
      simp only
      rw [hd.trace_indexes, bind_ok (lift_apply _ _), hk]
    have hrange : (List.range starts.length).map (fun i : Nat => (i : Int)) =
        (List.range (starts.length - 1)).map (fun i : Nat => (i : Int)) ++ [((starts.length - 1 : Nat) : Int)] := by
      conv_lhs => rw [show starts.length = (starts.length - 1) + 1 by omega]
      rw [List.range_succ, List.map_append]
      rfl
    have hbefore : ∀ i ∈ (List.range (starts.length - 1)).map (fun i : Nat => (i : Int)), ∀ pos,
        ∃ x, (r.traceSamples native i none none { s with pos := pos }).1 = .ok x := by
      intro i hi pos
      obtain ⟨i, him, rfl⟩ := List.mem_map.mp hi
      rw [List.mem_range] at him
      obtain ⟨g1, g2, -⟩ := hall native i (by omega) pos
      obtain ⟨l, hl, -⟩ := g2 (Or.inr (g1 (by omega)))
      exact ⟨l, hl⟩
    refine ⟨?_, ?_⟩
    · intro hfit
      rw [hrun, hrange]
      obtain ⟨k', hk'⟩ := readEach_ok (r := r) (native := native) (s := s)
        ((List.range (starts.length - 1)).map (fun i : Nat => (i : Int)) ++ [((starts.length - 1 : Nat) : Int)]) (by
          intro i hi pos
          rcases List.mem_append.mp hi with hi | hi
          · exact hbefore i hi pos
          · rw [List.mem_singleton] at hi
            subst hi
            obtain ⟨-, g2, -⟩ := hall native (starts.length - 1) (by omega) pos
            obtain ⟨l, hl, -⟩ := g2 hfit
            exact ⟨l, hl⟩) k
      rw [hk']
    · intro hfit
      rw [hrun, hrange]
      exact readEach_error _ _ _ hbefore (fun pos => (hall native (starts.length - 1) (by omega) pos).2.2 hfit) k

-- the sample file, and the same file without its last byte
example : (readTraces .little sampleFile).1 = .ok () ∧
    (readTraces .little { sampleFile with data := sampleFile.data.dropLast }).1 = .error .eofError := by
  decide +kernel

/-! ## C81 a file that grows -/

private theorem samples_grow (r : Reader) (native : Endian) (i : Int) (start stop : Option Int) (s : FileH)
    (extra : Bytes) :
    (r.traceSamples native i start stop (s.grow extra)).1 = (r.traceSamples native i start stop s).1 ∨
      (r.traceSamples native i start stop s).1 = .error .eofError := by
  rw [traceSamples_eq, traceSamples_eq]
  cases hl : r.locateSamples i start stop with
  | error err => exact Or.inl rfl
  | ok x =>
    obtain ⟨p, t', n⟩ := x
    have hn : 0 ≤ n := by
      unfold Reader.locateSamples at hl
      obtain ⟨_, _, hl⟩ := res_bind_ok hl
      split at hl
      · cases hl
      obtain ⟨_, _, hl⟩ := res_bind_ok hl
      simp only at hl
      split at hl
      · cases hl
      split at hl
      · cases hl
      rename_i hstart
      obtain ⟨_, _, hl⟩ := res_bind_ok hl
      obtain ⟨_, _, hl⟩ := res_bind_ok hl
      cases hl
      omega
    exact values_grow native p t' n hn r.endian s extra

private theorem header_grow {T : Format} {e : Endian} {dim : Option Int} {s : FileH} {pos : Nat} {t : SegYType}
    {starts : List Nat} {r : Reader} (ho : Opened T e dim s.data pos t starts r) (i : Int) (packer : Option HeaderPacker)
    (extra : Bytes) : (r.traceHeader i packer (s.grow extra)).1 = (r.traceHeader i packer s).1 := by
  obtain ⟨-, -, h3, -⟩ := C43_tiles T e s.data t.size _ starts ho.traces
  rw [traceHeader_eq, traceHeader_eq]
  have hn : r.numTraces = .ok starts.length := by
    unfold Reader.numTraces
    rw [ho.offset.len, byNumber_length]
  rw [hn]
  simp only
  split
  · rfl
  · rename_i hi
    rw [not_not] at hi
    obtain ⟨i, rfl⟩ := Int.eq_ofNat_of_zero_le hi.1
    have hi' : i < starts.length := by omega
    rw [ho.offset.get_number hi']
    simp only
    have hfit := h3 _ (List.getElem_mem hi')
    unfold readTraceHeader
    have h240 : TRACE_HEADER_NUM_BYTES = 240 := rfl
    rw [bind_ok (seek_apply _ _), bind_ok (seek_apply _ _), h240, bind_ok (read_apply _ _), bind_ok (read_apply _ _)]
    have hd : (((s.grow extra).data.drop starts[i]).take 240) = (s.data.drop starts[i]).take 240 := by
      show ((s.data ++ extra).drop starts[i]).take 240 = _
      rw [List.drop_append_of_le_length (by omega), List.take_append_of_le_length (by rw [List.length_drop]; omega)]
    simp only [hd]
    cases (packer.getD r.trace_header_packer).unpack ((s.data.drop starts[i]).take 240) <;> rfl

private theorem opened_call (T : Format) (e : Endian) (hT : Cataloguable T e) (encoding : Option Encoding) (B : Format)
    (dim : Option Int) (s s' : FileH) (r : Reader) (progress : List ℚ)
    (h : createReader encoding B T e dim s = (.ok (r, progress), s')) (native : Endian) (c : Call) (extra : Bytes) :
    (r.call native c (s.grow extra)).1 = (r.call native c s).1 ∨
      (∃ i start stop, c = .traceSamples i start stop) ∧ (r.call native c s).1 = .error .eofError := by
  obtain ⟨t, starts, ho⟩ := createReader_opened hT h
  cases c
  case traceSamples i start stop =>
    rcases samples_grow r native i start stop s extra with g | g
    · exact Or.inl (congrArg (Except.map Answer.samples) g)
    · exact Or.inr ⟨⟨i, start, stop, rfl⟩, congrArg (Except.map Answer.samples) g⟩
  case traceHeader i packer =>
    exact Or.inl (congrArg (Except.map Answer.header) (header_grow ho i packer extra))
  all_goals exact Or.inl rfl

/-- A reader of a file to which bytes are appended, however many calls are made and however often bytes are appended in
between: each call gives the answer it would have given at first, except that samples of the last trace that were
missing at first may have become readable. -/
theorem C81_reading (T : Format) (e : Endian) (hT : Cataloguable T e) (encoding : Option Encoding) (B : Format)
    (dim : Option Int) (s s' : FileH) (r : Reader) (progress : List ℚ)
    (h : createReader encoding B T e dim s = (.ok (r, progress), s')) (native : Endian) (history : List (Bytes × Call))
    (extra : Bytes) (c : Call) :
    let q := growingCalls native history r s
    (q.1.call native c { q.2 with data := q.2.data ++ extra }).1 = (r.call native c s).1 ∨
      (∃ i start stop, c = .traceSamples i start stop) ∧ (r.call native c s).1 = .error .eofError := by
  have hfile : ∀ (history : List (Bytes × Call)) (r : Reader) (s : FileH),
      ∃ k more, (growingCalls native history r s).2 = { s with data := s.data ++ more, pos := k } := by
    intro history
    induction history with
    | nil => intro r s; exact ⟨s.pos, [], by rw [List.append_nil]; rfl⟩
    | cons a history ih =>
      intro r s
      obtain ⟨x, a⟩ := a
      obtain ⟨k, hk⟩ := call_file r native a { s with data := s.data ++ x }
      obtain ⟨k', more, hk'⟩ := ih (r.call native a { s with data := s.data ++ x }).2.1
        (r.call native a { s with data := s.data ++ x }).2.2
      refine ⟨k', x ++ more, ?_⟩
      unfold growingCalls
      rw [hk', hk]
      simp only [List.append_assoc]
  have hans : ∀ (history : List (Bytes × Call)) (r : Reader) (s s' : FileH),
      ((growingCalls native history r s).1.call native c s').1 = (r.call native c s').1 := by
    intro history
    induction history with
    | nil => intro r s s'; rfl
    | cons a history ih =>
      intro r s s'
      obtain ⟨x, a⟩ := a
      unfold growingCalls
      rw [ih, step_answer]
  intro q
  obtain ⟨k, more, hk⟩ := hfile history r s
  have he : ({ q.2 with data := q.2.data ++ extra } : FileH) = { s.grow (more ++ extra) with pos := k } := by
    show ({ (growingCalls native history r s).2 with data := _ } : FileH) = _
    simp only [q, hk, FileH.grow, List.append_assoc]
  rw [he, hans, answer_pos]
  exact opened_call T e hT encoding B dim s s' r progress h native c (more ++ extra)

-- the last trace is complete only after a byte has been appended; a call in between makes the reader remember
example : ((createReader (some .ebcdic) fmtBinaryReelHeader fmtTraceHeaderRev1 .big none
      { sampleFile with data := sampleFile.data.dropLast }).1.map fun x =>
    let s : FileH := { sampleFile with data := sampleFile.data.dropLast }
    let q := growingCalls .big [([], .maxNumTraceSamples), ([0], .inlineNumbers)] x.1 s
    ((x.1.call .big (.traceSamples 2 none none) s).1, (q.1.call .big (.traceSamples 2 none none) q.2).1,
      (q.1.call .big (.traceSamples 0 none none) { q.2 with data := q.2.data ++ [1, 2, 3] }).1)) =
    .ok (.error .eofError, .ok (.samples [.int 256]), .ok (.samples [.int 7, .int (-1)])) := by
  decide +kernel

/-- Opening the file again after bytes have been appended: it raises `ValueError` (a trace header among the new bytes is
inadmissible), or it succeeds; and then encoding, reel headers, revision and sample format are what they were, there are at
least as many traces, and each of the earlier ones has the same number, header and samples, except that samples that were
missing may have become readable. -/
theorem C81_reopening (T : Format) (e : Endian) (hT : Cataloguable T e) (encoding : Option Encoding) (B : Format)
    (hB : Regular B e 400) (dim : Option Int) (s s' : FileH) (r : Reader) (progress : List ℚ)
    (h : createReader encoding B T e dim s = (.ok (r, progress), s')) (extra : Bytes) :
    (createReader encoding B T e dim { s with data := s.data ++ extra }).1 = .error .valueError ∨
    ∃ r2 progress2 s2, createReader encoding B T e dim { s with data := s.data ++ extra } = (.ok (r2, progress2), s2) ∧
      r2.encoding = r.encoding ∧ r2.textual_reel_header = r.textual_reel_header ∧
      r2.binary_reel_header = r.binary_reel_header ∧ r2.extended_textual_headers = r.extended_textual_headers ∧
      r2.revision = r.revision ∧ r2.dataSampleFormat = r.dataSampleFormat ∧
      ∃ n n2, r.numTraces = .ok n ∧ r2.numTraces = .ok n2 ∧ n ≤ n2 ∧
        ∀ i : Int, 0 ≤ i → i < n → r2.numTraceSamples i = r.numTraceSamples i ∧
          ∀ (native : Endian) (k : Nat),
            (∀ packer, (r2.traceHeader i packer { s with data := s.data ++ extra, pos := k }).1 =
              (r.traceHeader i packer s).1) ∧
            ∀ start stop, (r2.traceSamples native i start stop { s with data := s.data ++ extra, pos := k }).1 =
                (r.traceSamples native i start stop s).1 ∨
              (r.traceSamples native i start stop s).1 = .error .eofError := by
  obtain ⟨t, starts, ho⟩ := createReader_opened hT h
  obtain ⟨enc, textual, binary, extended, bps, catalogs, k1, k2, k3, k4, h1, h2, h3, h4, h5, h6, h7, -, hdim, hsize⟩ :=
    createReader_ok h
  obtain ⟨rfl, rfl, rfl, rfl, -⟩ := makeReaderOf_fields h7
  obtain ⟨henc, -⟩ := createReader_reel h
  have hk1 : k1 = s.pos := by
    rcases h1 with ⟨_, h1⟩ | ⟨_, o, _, h1⟩
    · exact h1
    · rw [guess_eq] at h1
      exact (congrArg (fun x => x.2.pos) h1).symm
  subst hk1
  obtain ⟨v, t', hv, ht', -⟩ := headerBytesPerSample_ok h5
  have htt : t' = t := by
    have := ho.format
    unfold Reader.dataSampleFormat at this
    rw [hv] at this
    simp only [bind, Except.bind] at this
    rw [ht'] at this
    exact Except.ok.inj this
  subst htt
  have hused : usedEncoding encoding (s.data ++ extra) = r.encoding := by
    rw [henc]
    unfold usedEncoding
    cases encoding with
    | some _ => rfl
    | none => simp only; rw [List.take_append_of_le_length (by omega)]
  have hread : HeadersRead encoding B e (s.grow extra) r.textual_reel_header r.binary_reel_header
      r.extended_textual_headers t' := by
    refine ⟨?_, ⟨{ s with pos := k2 }.grow extra, { s with pos := k3 }.grow extra, { s with pos := k4 }.grow extra, ?_,
      grows_binary (n := 400) hB.afterStart hB.length _ _ _ h3 extra, ?_⟩, v, hv, ht'⟩
    · show 3600 ≤ (s.data ++ extra).length
      rw [List.length_append]; omega
    · show readTextualReelHeader (usedEncoding encoding (s.data ++ extra)) _ = _
      rw [hused]
      exact grows_text _ _ _ _ h2 extra
    · show readExtendedHeadersOf _ (usedEncoding encoding (s.data ++ extra)) _ = _
      rw [hused]
      exact grows_extended _ _ _ _ _ h4 extra
  have hopen := C51_opens_partial T e hT encoding B dim hdim _ _ _ _ _ hread
  obtain ⟨stop, hc, hend⟩ := ho.traces
  rcases (C43_traces T e (s.grow extra).data t'.size (3600 + 3200 * r.extended_textual_headers.length)).1 with
    ⟨starts2, htr2⟩ | ⟨starts2, stop2, g1, g2, g3⟩
  · right
    obtain ⟨stop2, hc2, hend2⟩ := id htr2
    have hpre : starts <+: starts2 := traces_grow hc hc2 hend2
    have hne : starts2 ≠ [] := by
      intro h0
      rw [h0, List.prefix_nil] at hpre
      exact ho.some_trace hpre
    obtain ⟨w, hw, hrev⟩ : ∃ w, r.binary_reel_header.get "format_revision_num" = .ok w ∧
        canonicalizeRevision w = .ok r.revision := by
      obtain ⟨w, hw, hr⟩ := C55_canonical_partial T e encoding B dim s s' r progress h
      refine ⟨w, hw, ?_⟩
      rcases hr with ⟨rfl, hr⟩ | ⟨rfl | rfl | rfl, hr⟩ <;> rw [hr] <;> rfl
    obtain ⟨r2, progress2, s2, m1, m2, m3, m4, m5, m6, m7⟩ := hopen.1 starts2 r.revision w hne htr2 hw hrev
    obtain ⟨t2, starts3, ho2⟩ := createReader_opened hT m1
    have htt : t2 = t' := by
      have := ho2.format
      rw [m2.data_sample_format] at this
      exact (Except.ok.inj this).symm
    subst htt
    have hss : starts3 = starts2 := C61_unique _ _ _ _ _ _ _ ho2.traces (by rw [m5]; exact htr2)
    subst hss
    have hlen := hpre.length_le
    obtain ⟨-, -, hfit, -⟩ := C43_tiles T e s.data t2.size _ starts ho.traces
    have hat : ∀ i (hi : i < starts.length), starts3[i]'(by omega) = starts[i] := fun i hi => (hpre.getElem hi).symm
    have hoff : ∀ i (hi : i < starts.length), r2.trace_offset_catalog.get i = r.trace_offset_catalog.get i := by
      intro i hi
      rw [ho2.offset.get_number (by omega), ho.offset.get_number hi, hat i hi]
    have hnum : ∀ i (hi : i < starts.length), r2.numTraceSamples i = r.numTraceSamples i := by
      intro i hi
      unfold Reader.numTraceSamples
      rw [ho2.length.get_number (by omega), ho.length.get_number hi, hat i hi]
      exact congrArg Except.ok (fieldAt_grow (hfit _ (List.getElem_mem hi)) extra _)
    have hn1 : r.numTraces = .ok starts.length := by
      unfold Reader.numTraces
      rw [ho.offset.len, byNumber_length]
    have hpk : r2.trace_header_packer = r.trace_header_packer := by
      have := ho2.packer
      rw [ho.packer] at this
      exact (Except.ok.inj this).symm
    refine ⟨r2, progress2, s2, m1, m6.trans hused, m3, m4, m5, m7, ?_, _, _, hn1, m2.num_traces, by omega, ?_⟩
    · rw [ho2.format, ho.format]
    intro i h0 hi
    obtain ⟨i, rfl⟩ := Int.eq_ofNat_of_zero_le h0
    have hi' : i < starts.length := by omega
    refine ⟨hnum i hi', ?_⟩
    intro native k
    refine ⟨?_, ?_⟩
    · intro packer
      have : (r2.traceHeader i packer { s.grow extra with pos := k }).1 = (r.traceHeader i packer s).1 := by
        rw [traceHeader_pos, ← header_grow ho i packer extra, traceHeader_eq, traceHeader_eq, hn1, m2.num_traces,
          hoff i hi', hpk]
        simp only
        rw [if_neg (by omega), if_neg (by omega)]
      exact this
    · intro start stop
      have hloc : r2.locateSamples i start stop = r.locateSamples i start stop := by
        unfold Reader.locateSamples
        rw [hn1, m2.num_traces, hnum i hi', hoff i hi', ho2.format, ho.format]
        simp only [bind, Except.bind]
        rw [if_neg (by omega), if_neg (by omega)]
      have hs : (r2.traceSamples native i start stop { s.grow extra with pos := k }).1 =
          (r.traceSamples native i start stop (s.grow extra)).1 := by
        rw [traceSamples_pos, traceSamples_eq, traceSamples_eq, hloc, ho2.endian, ho.endian]
      rcases samples_grow r native i start stop s extra with g | g
      · exact Or.inl (hs.trans g)
      · exact Or.inr g
  · left
    exact hopen.2.2 starts2 stop2 g1 g2 g3

-- a fourth trace is appended; and one with an inadmissible field
example : ((createReader (some .ebcdic) fmtBinaryReelHeader fmtTraceHeaderRev1 .big none
      { sampleFile with data := sampleFile.data ++ sampleHeader 3 0 8 }).1.map fun x =>
        (x.1.numTraces, x.1.numTraceSamples 0)) = .ok (.ok 4, .ok 2) ∧
    ((createReader (some .ebcdic) fmtBinaryReelHeader fmtTraceHeaderRev1 .big none
      { sampleFile with data := sampleFile.data ++ List.replicate 114 0 ++ [255] ++ List.replicate 125 0 }).1.map fun x =>
        x.1.numTraces) = .error .valueError := by
  decide +kernel

end Segpy.Props
