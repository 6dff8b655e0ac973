import Verif.Lemmas.Append
import Verif.Props.Update

/-! # Properties of adding traces to a file: C89 -/

namespace Segpy.Props

open Segpy.Spec Segpy.FileM

/-- The file with the first `k` bytes of the new traces. -/
private theorem appended {T : Format} {e : Endian} (hT : Cataloguable T e) (hR : Regular T e 240)
    {encoding : Option Encoding} {B : Format} (hB : Regular B e 400) {dim : Option Int} {s s' : FileH} {r : Reader}
    {progress : List ℚ} (h : createReader encoding B T e dim s = (.ok (r, progress), s')) (hpos : s.pos = 0)
    {p : HeaderPacker} (hp : makeHeaderPacker T e = .ok p) {t : SegYType} {starts : List Nat}
    (ho : Opened T e dim s.data (3600 + 3200 * r.extended_textual_headers.length) t starts r) {q : Nat}
    (hq : starts.getLast? = some q) (hend : q + 240 + samplesAt T e s.data q * t.size = s.data.length)
    (ts : List Written) (hok : ∀ x ∈ ts, x.Ok T e t p) (k : Nat) :
    ∃ r2 progress2 s2, createReader encoding B T e dim { s with data := s.data ++ (body ts).take k } =
        (.ok (r2, progress2), s2) ∧
      Appended T t r s starts.length (ts.map fun x => (x.header, x.samples)) k
        { s with data := s.data ++ (body ts).take k } r2 := by
  obtain ⟨stop, hc, -⟩ := id ho.traces
  have hstop : stop = s.data.length := (chain_last hc hq).trans hend
  subst hstop
  obtain ⟨m, hm, hm1, htr⟩ := traces_written hT ts s.data (s.data.length + k) hok
  have hdata : (s.data ++ body ts).take (s.data.length + k) = s.data ++ (body ts).take k := by
    rw [List.take_append, List.take_of_length_le (by omega)]
    simp
  have hat := fun j hj => written_at hok s.data (s.data.length + k) j hj
  rw [hdata] at htr hat
  generalize hD : s.data ++ (body ts).take k = D at htr hat
  obtain ⟨stop2, hc2, hend2⟩ := htr
  generalize hnews : (List.range m).map (fun i => s.data.length + (body (ts.take i)).length) = news at hc2
  have hnl : news.length = m := by rw [← hnews]; simp
  have hni : ∀ j (hj : j < news.length), news[j] = s.data.length + (body (ts.take j)).length := by
    intro j hj
    subst hnews
    simp
  have htr2 : Traces T e D t.size (3600 + 3200 * r.extended_textual_headers.length) (starts ++ news) := by
    refine ⟨stop2, chain_append ?_ hc2, hend2⟩
    rw [← hD]
    exact chain_grow hc _
  obtain ⟨-, hfirst, hfit, -⟩ := C43_tiles T e s.data t.size _ starts ho.traces
  have hreel : 3600 + 3200 * r.extended_textual_headers.length ≤ s.data.length := hc.le_stop.1
  obtain ⟨r2, progress2, s2, m1, m2, m3, m4, m5, m6, ho2⟩ := changed_opens hT hB h hpos ho (d := D)
    (by rw [← hD, List.length_append]; omega)
    (by rw [← hD, List.take_append_of_le_length hreel]) (by simp [ho.some_trace]) htr2
  refine ⟨r2, progress2, s2, m1, ?_⟩
  have hf := ho.finds hT hp
  have hf2 := ho2.finds hT hp
  have hgd : ∀ i (hi : i < starts.length), starts.getD i 0 = starts[i] := by
    intro i hi
    simp [List.getD_eq_getElem?_getD, List.getElem?_eq_getElem hi]
  have hgd2 : ∀ i (hi : i < (starts ++ news).length), (starts ++ news).getD i 0 = (starts ++ news)[i] := by
    intro i hi
    rw [List.getD_eq_getElem?_getD, List.getElem?_eq_getElem hi, Option.getD_some]
  have hold : ∀ i (hi : i < starts.length), (starts ++ news)[i]'(by rw [List.length_append]; omega) = starts[i] :=
    fun i hi => List.getElem_append_left hi
  have hin : ∀ i (hi : i < starts.length), starts[i] + 240 ≤ s.data.length := fun i hi => hfit _ (List.getElem_mem hi)
  have hwhole : ∀ i (hi : i < starts.length), starts[i] + 240 + samplesAt T e s.data starts[i] * t.size ≤ s.data.length :=
    fun i hi => (hc.le_stop.2 _ (List.getElem_mem hi)).2.2.2
  have hn : ∀ i (hi : i < starts.length), samplesAt T e D ((starts ++ news).getD i 0) =
      samplesAt T e s.data (starts.getD i 0) := by
    intro i hi
    rw [hgd i hi, hgd2 i (by rw [List.length_append]; omega), hold i hi, ← hD, samplesAt_grow (hin i hi)]
  -- the new traces
  have hb := fun j => bytesBefore_body hok j
  generalize hnew : (ts.map fun x => (x.header, x.samples)) = new at hb
  have hlen : new.length = ts.length := by rw [← hnew]; simp
  have hnj : ∀ j (hj : j < new.length), new[j] = ((ts[j]'(by omega)).header, (ts[j]'(by omega)).samples) := by
    intro j hj
    subst hnew
    simp
  have hjm : ∀ j, j < new.length → bytesBefore t new j + 240 ≤ k → j < m := by
    intro j hj hk
    rw [hb] at hk
    exact (hm1 j (by omega)).mp (by omega)
  have hnth : ∀ j (hj : j < m), (starts ++ news)[starts.length + j]'(by rw [List.length_append]; omega) =
      s.data.length + (body (ts.take j)).length := by
    intro j hj
    rw [List.getElem_append_right (by omega)]
    simp only [Nat.add_sub_cancel_left]
    exact hni j (by omega)
  have hD' : ∀ pos, ({ s with data := D, pos := pos } : FileH).data = D := fun _ => rfl
  have hcount : ∀ j (hj : j < new.length), bytesBefore t new j + 240 ≤ k →
      samplesAt T e D ((starts ++ news).getD (starts.length + j) 0) = new[j].2.length := by
    intro j hj hk
    have hjm' := hjm j hj hk
    rw [hgd2 _ (by rw [List.length_append]; omega), hnth j hjm', hnj j hj]
    unfold samplesAt
    rw [(hok _ (List.getElem_mem _)).num_field hT (hat j (by omega) (by rw [hb] at hk; omega)).1]
    rfl
  refine ⟨m2, m3, m4, m5, m6, by rw [ho2.format, ho.format], ?_, ?_, ?_, ?_, ?_, ?_, ?_, ?_⟩
  · rw [hf2.num, List.length_append, hnl]
    have : (List.range new.length).filter (fun j => bytesBefore t new j + 240 ≤ k) = List.range m := by
      rw [← filter_lt _ _ (show m ≤ new.length by omega)]
      apply List.filter_congr
      intro j hj
      have hj := List.mem_range.mp hj
      rw [hb, decide_eq_decide, ← hm1 j (by omega)]
      omega
    rw [this, List.length_range]
  · intro i hi
    rw [hf2.length i (by rw [List.length_append]; omega), hf.length i hi, hn i hi]
  · intro i pos packer hi
    rw [hf.header_at i hi, hf2.header_at i (by rw [List.length_append]; omega), readTraceHeader_at, readTraceHeader_at,
      hold i hi, hD', ← hD, headerBytes_grow (hin i hi)]
  · intro i pos native start stop hi
    refine hf.samples_longer hf2 native i hi (by rw [List.length_append]; omega) (hold i hi) (hn i hi) start stop _ _ ?_
    rw [hD', ← hD, hgd i hi]
    have := hwhole i hi
    rw [List.drop_append_of_le_length (by omega), List.take_append_of_le_length (by rw [List.length_drop]; omega)]
  · intro j hj hk
    have := hjm j hj hk
    rw [hf2.length _ (by rw [List.length_append]; omega), hcount j hj hk]
  · intro j hj pos hk
    have hjm' := hjm j hj hk
    have hx := hok _ (List.getElem_mem (show j < ts.length by omega))
    have hhb := (hat j (by omega) (by rw [hb] at hk; omega)).1
    obtain ⟨t'', starts'', g1, g2, g3⟩ := C61_trace_header T e hT hR.orderSafe encoding _ dim _ _ r2 progress2 m1
    have htt : t'' = t := by
      have := g1.data_sample_format
      rw [ho2.format] at this
      exact (Except.ok.inj this).symm
    subst htt
    rw [m5] at g2
    have hss := (C43_traces T e _ _ _).2.1 _ _ g2 htr2
    subst hss
    have hi' : starts.length + j < (starts ++ news).length := by rw [List.length_append]; omega
    have hfw := fun f hfm => fieldAt_written hx hhb (f := f) hfm
    rw [← hnth j hjm'] at hfw
    obtain ⟨hd, k1, k2, k3⟩ := g3 _ hi' pos fun f hfm => (hfw f hfm).1
    refine ⟨hd, k1, k2, fun f hfm => ?_⟩
    rw [k3 f hfm, hnj j hj]
    exact (hfw f hfm).2.symm
  · intro native j hj pos hk
    have hx := hok _ (List.getElem_mem (show j < ts.length by omega))
    have hnext : bytesBefore t new (j + 1) = bytesBefore t new j + 240 + (ts[j]'(by omega)).samples.length * t.size := by
      rw [hb, hb]
      rw [List.take_succ_eq_append_getElem (show j < ts.length by omega), body_append, body_cons]
      simp only [List.length_append, hx.header_length, hx.samples_length]
      simp only [body, List.flatMap_nil, List.length_nil]
      omega
    have hk0 : bytesBefore t new j + 240 ≤ k := by omega
    have hjm' := hjm j hj hk0
    have hh := hat j (by omega) (by rw [hb] at hk0; omega)
    obtain ⟨ws, w1, w2⟩ := C42_read_back native e t _ _ { s with data := D, pos := pos }
      (s.data.length + (body (ts.take j)).length + 240) hx.stored hx.floats (hh.2.1 (by rw [hb] at hk; omega))
    refine ⟨ws, ?_, by rw [hnj j hj]; exact w2⟩
    rw [hf2.samples_at native _ (by rw [List.length_append]; omega), hcount j hj hk0, hnth j hjm', hnj j hj]
    simp only [Option.getD_none]
    rw [if_neg (by omega), if_neg (by omega)]
    have := congrArg Prod.fst w1
    simp only at this
    rw [← this]
    simp
  · intro native j pos hj hk hcut
    have hx := hok _ (List.getElem_mem (show j < ts.length by omega))
    have hjm' := hjm j hj hk
    have hh := hat j (by omega) (by rw [hb] at hk; omega)
    have hk' := hk
    rw [hb] at hk'
    rw [hb, hh.2.2] at hcut
    rw [hf2.samples_at native _ (by rw [List.length_append]; omega), hcount j hj hk, hnth j hjm', hnj j hj]
    simp only [Option.getD_none]
    rw [if_neg (by omega), if_neg (by omega)]
    have hDl : D.length ≤ s.data.length + k := by
      rw [← hD, List.length_append, List.length_take]; omega
    have := C42_read_short native e t ts[j].samples.length (s.data.length + (body (ts.take j)).length + 240)
      { s with data := D, pos := pos } (by simp only; omega) (by omega)
    rw [← this]
    push_cast
    simp

/-- Traces are added to a file that ends with its last trace.  None of them raises; the file can be opened again, and the
reader finds what was found before, and then all the new traces. -/
theorem C89_appends (T : Format) (e : Endian) (hT : Cataloguable T e) (hR : Regular T e 240) (encoding : Option Encoding)
    (B : Format) (hB : Regular B e 400) (dim : Option Int) (s s' : FileH) (r : Reader) (progress : List ℚ)
    (h : createReader encoding B T e dim s = (.ok (r, progress), s')) (hpos : s.pos = 0) (hlimit : s.limit = none)
    (p : HeaderPacker) (hp : makeHeaderPacker T e = .ok p) :
    ∃ t starts last, Describes T e s.data t starts r ∧
      Traces T e s.data t.size (3600 + 3200 * r.extended_textual_headers.length) starts ∧ starts.getLast? = some last ∧
      (last + 240 + samplesAt T e s.data last * t.size = s.data.length →
        ∀ new : List (Header × List PyNum), (∀ x ∈ new, Appendable T t x) →
          ∃ s1, appendTraces p t e new s = (.ok (), s1) ∧
            s1.data.length = s.data.length + bytesBefore t new new.length ∧
            ∃ r2 progress2 s2, createReader encoding B T e dim { s1 with pos := 0 } = (.ok (r2, progress2), s2) ∧
              Appended T t r s starts.length new (bytesBefore t new new.length) { s1 with pos := 0 } r2) := by
  obtain ⟨t, starts, ⟨hd, -⟩, ho⟩ := createReader_all hT h
  obtain ⟨last, hlast⟩ : ∃ last, starts.getLast? = some last := by
    cases hs : starts.getLast? with
    | none => exact absurd (List.getLast?_eq_none_iff.mp hs) ho.some_trace
    | some last => exact ⟨last, rfl⟩
  refine ⟨t, starts, last, hd, ho.traces, hlast, ?_⟩
  intro hend new hnew
  obtain ⟨ts, rfl, hok⟩ := appendable_written hR hp new hnew
  have hall : bytesBefore t (ts.map fun x => (x.header, x.samples)) (ts.map fun x => (x.header, x.samples)).length =
      (body ts).length := by
    rw [bytesBefore_body hok, List.length_map, List.take_length]
  have hrun := (writeNewTraces_appends ts hok s.data.length).free { s with pos := s.data.length } rfl rfl hlimit
  obtain ⟨r2, progress2, s2, g1, g2⟩ := appended hT hR hB h hpos hp ho hlast hend ts hok (body ts).length
  rw [List.take_length] at g1 g2
  have hs : ({ s with data := s.data ++ body ts } : FileH) = { data := s.data ++ body ts, pos := 0, limit := none } := by
    rw [← hpos, ← hlimit]
  refine ⟨_, (appendTraces_eq p t e _ s).trans hrun, ?_, r2, progress2, s2, ?_, ?_⟩
  · rw [hall]; exact List.length_append
  · rw [← hs]; exact g1
  · rw [hall, ← hs]; exact g2

/-- The device takes only `k` bytes of the new traces: `OSError` is raised; the file can still be opened, and the reader
finds what was found before, and then the new traces whose headers were written, with their samples if they were
written, too. -/
theorem C89_crash (T : Format) (e : Endian) (hT : Cataloguable T e) (hR : Regular T e 240) (encoding : Option Encoding)
    (B : Format) (hB : Regular B e 400) (dim : Option Int) (s s' : FileH) (r : Reader) (progress : List ℚ)
    (h : createReader encoding B T e dim s = (.ok (r, progress), s')) (hpos : s.pos = 0)
    (p : HeaderPacker) (hp : makeHeaderPacker T e = .ok p) :
    ∃ t starts last, Describes T e s.data t starts r ∧
      Traces T e s.data t.size (3600 + 3200 * r.extended_textual_headers.length) starts ∧ starts.getLast? = some last ∧
      (last + 240 + samplesAt T e s.data last * t.size = s.data.length →
        ∀ new : List (Header × List PyNum), (∀ x ∈ new, Appendable T t x) → ∀ k < bytesBefore t new new.length,
          ∃ s1, appendTraces p t e new { s with limit := some k } = (.error .osError, s1) ∧
            s1.data.length = s.data.length + k ∧
            ∃ r2 progress2 s2, createReader encoding B T e dim { s with data := s1.data } = (.ok (r2, progress2), s2) ∧
              Appended T t r s starts.length new k { s with data := s1.data } r2) := by
  obtain ⟨t, starts, ⟨hd, -⟩, ho⟩ := createReader_all hT h
  obtain ⟨last, hlast⟩ : ∃ last, starts.getLast? = some last := by
    cases hs : starts.getLast? with
    | none => exact absurd (List.getLast?_eq_none_iff.mp hs) ho.some_trace
    | some last => exact ⟨last, rfl⟩
  refine ⟨t, starts, last, hd, ho.traces, hlast, ?_⟩
  intro hend new hnew k hk
  obtain ⟨ts, rfl, hok⟩ := appendable_written hR hp new hnew
  rw [bytesBefore_body hok, List.length_map, List.take_length] at hk
  have hrun := (writeNewTraces_appends ts hok s.data.length).beyond { s with pos := s.data.length, limit := some k } k
    rfl rfl rfl hk
  obtain ⟨r2, progress2, s2, g1, g2⟩ := appended hT hR hB h hpos hp ho hlast hend ts hok k
  refine ⟨_, (appendTraces_eq p t e _ _).trans hrun, ?_, r2, progress2, s2, g1, g2⟩
  simp only [List.length_append, List.length_take]
  omega

/-- A header of a trace to be added. -/
private def addedHeader (ensemble samples : Int) : Header :=
  { format := fmtTraceHeaderRev1
    data := fmtTraceHeaderRev1.fields.map fun f => (f.name, if f.name = "num_samples" then samples else
      if f.name = "ensemble_num" then ensemble else f.default) }

/-- Two traces, of two samples and of one. -/
private def exampleNew : List (Header × List PyNum) :=
  [(addedHeader 40 2, [.int 9, .int (-3)]), (addedHeader 50 1, [.int 77])]

-- the hypotheses hold of the sample file and these traces
example : ∃ r progress s', createReader (some .ebcdic) fmtBinaryReelHeader fmtTraceHeaderRev1 .big none sampleFile =
      (.ok (r, progress), s') ∧ sampleFile.pos = 0 ∧ sampleFile.limit = none ∧
    Regular fmtTraceHeaderRev1 .big 240 ∧ Regular fmtBinaryReelHeader .big 400 ∧
    (∃ p, makeHeaderPacker fmtTraceHeaderRev1 .big = .ok p) ∧
    4084 + 240 + samplesAt fmtTraceHeaderRev1 .big sampleFile.data 4084 * (SegYType.int .int16).size =
      sampleFile.data.length ∧
    ∀ x ∈ exampleNew, Appendable fmtTraceHeaderRev1 (.int .int16) x := by
  obtain ⟨r, progress, s', h⟩ := sampleFile_ok none (by simp)
  have hr : Regular fmtTraceHeaderRev1 .big 240 := shipped_regular (by decide +kernel) _
  refine ⟨r, progress, s', h, rfl, rfl, hr, shipped_regular (by decide +kernel) _, hr.packs, by decide +kernel, ?_⟩
  intro x hx
  simp only [exampleNew, List.mem_cons, List.not_mem_nil, or_false] at hx
  have small : ∀ n : Int, -32768 ≤ n → n ≤ 32767 → Fits (.int .int16) (.int n) := fun n h1 h2 => ⟨n, rfl, h1, h2⟩
  rcases hx with rfl | rfl
  · refine ⟨rfl, valid_of (by decide +kernel), by decide +kernel, ?_⟩
    intro v hv
    simp only [List.mem_cons, List.not_mem_nil, or_false] at hv
    rcases hv with rfl | rfl <;> exact small _ (by omega) (by omega)
  · refine ⟨rfl, valid_of (by decide +kernel), by decide +kernel, ?_⟩
    intro v hv
    simp only [List.mem_cons, List.not_mem_nil, or_false] at hv
    rcases hv with rfl
    exact small _ (by omega) (by omega)

/-- The traces found after the new ones have been added to a file, on a device with the given limit. -/
private def found (s : FileH) (limit : Option Nat) : Res (Res Unit × Res Int × Res (List PyNum) × Res Int) := do
  let p ← makeHeaderPacker fmtTraceHeaderRev1 .big
  let q := appendTraces p (.int .int16) .big exampleNew { s with limit := limit }
  let x ← (createReader (some .ebcdic) fmtBinaryReelHeader fmtTraceHeaderRev1 .big none { s with data := q.2.data }).1
  return (q.1, x.1.numTraces, (x.1.traceSamples .little 3 none none q.2).1,
    (x.1.traceHeader 3 none q.2).1.bind fun h => h.get "ensemble_num")

/-- What is found, compared with what is given. -/
private def finds (s : FileH) (limit : Option Nat) (a : Res Unit) (b : Res Int) (c : Res (List PyNum)) (d : Res Int) : Bool :=
  match found s limit with
  | .error _ => false
  | .ok (a', b', c', d') => decide (a' = a) && decide (b' = b) && decide (c' = c) && decide (d' = d)

-- two traces are added; and the device fails after the header of the first
example : finds sampleFile none (.ok ()) (.ok 5) (.ok [.int 9, .int (-3)]) (.ok 40) = true ∧
    finds sampleFile (some 243) (.error .osError) (.ok 4) (.error .eofError) (.ok 40) = true := by
  decide +kernel

-- a file with a byte after its last trace: the new traces are not found
example : finds { sampleFile with data := sampleFile.data ++ [0] } none (.ok ()) (.ok 5) (.ok [.int 9, .int (-3)])
    (.ok 40) = false := by
  decide +kernel

end Segpy.Props
