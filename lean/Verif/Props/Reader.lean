import Verif.Lemmas.Reader2
import Verif.Lemmas.ExampleFile
import Verif.Lemmas.Memo

/-! # Properties of readers: C45, C46, C49, C50, C51, C55, C61

`s` is the open file, `s.data` its bytes; `T` is the trace header format and `e` the byte order given to
`create_reader`. -/

namespace Segpy.Props

open Spec FileM

/-! ## C61 a reader describes the traces of the file -/

theorem start_facts {T : Format} {e : Endian} (hT : Cataloguable T e) {dim : Option Int} {data : Bytes} {pos : Nat}
    {t : SegYType} {starts : List Nat} {r : Reader} (h : Opened T e dim data pos t starts r) {p : Nat} (hp : p ∈ starts) :
    p + 240 ≤ data.length ∧ Indexable T e data p ∧
      fieldAt T e data p "num_samples" = (samplesAt T e data p : Int) := by
  obtain ⟨stop, hc, hend⟩ := h.traces
  have h1 := (hc.le_stop.2 p hp).2.2.1
  have h2 : Indexable T e data p := by
    clear h h1 hend
    induction hc with
    | nil => simp at hp
    | cons _ hi _ ih =>
      rcases List.mem_cons.mp hp with rfl | hp
      · exact hi
      · exact ih hp
  exact ⟨h1, h2, (Int.toNat_of_nonneg (hT.samples_nonneg h2)).symm⟩

/-- A reader that was opened describes the traces of the file, which begin after the headers. -/
theorem C61_describes (T : Format) (e : Endian) (hT : Cataloguable T e) (encoding : Option Encoding) (B : Format)
    (dim : Option Int) (s s' : FileH) (r : Reader) (progress : List ℚ)
    (h : createReader encoding B T e dim s = (.ok (r, progress), s')) :
    ∃ t starts, starts ≠ [] ∧ Traces T e s.data t.size (3600 + 3200 * r.extended_textual_headers.length) starts ∧
      Describes T e s.data t starts r ∧ s'.data = s.data := by
  obtain ⟨t, starts, ho⟩ := createReader_opened hT h
  obtain ⟨k, hk⟩ := (reads_createReader encoding B T e dim).ok h
  refine ⟨t, starts, ho.some_trace, ho.traces, ⟨?_, ?_, ?_, ?_, ?_, ho.format⟩, by rw [hk]⟩
  · unfold Reader.numTraces
    rw [ho.offset.len, byNumber_length]
  · exact ho.offset.numbers
  · intro i hi
    exact ho.length.get_number hi
  · intro i hi
    exact ho.length.get_out hi
  · have hvals : ((List.range starts.length).map fun i : Nat => (i : Int)).mapM r.trace_length_catalog.get =
        .ok (starts.map fun p => fieldAt T e s.data p "num_samples") := by
      rw [List.mapM_map]
      have : starts.map (fun p => fieldAt T e s.data p "num_samples") =
          (List.range starts.length).map fun i => fieldAt T e s.data (starts.getD i 0) "num_samples" := by
        apply List.ext_getElem
        · simp
        · intro i h1 h2
          have hi : i < starts.length := by simpa using h1
          simp [hi]
      rw [this]
      apply mapM_ok_of_forall
      intro i hi
      rw [List.mem_range] at hi
      simp only [Function.comp]
      rw [ho.length.get_number hi]
      simp [hi]
    unfold Reader.maxNumTraceSamples
    rw [ho.no_max]
    simp only [ho.length.numbers, hvals, bind, Except.bind, pure, Except.pure]
    have hne := ho.some_trace
    cases hst : starts with
    | nil => exact absurd hst hne
    | cons p ps =>
      refine ⟨_, _, rfl, ?_⟩
      simp only [List.map_cons]
      obtain ⟨m1, m2, m3⟩ := foldl_max_spec (fieldAt T e s.data p "num_samples")
        (ps.map fun p => fieldAt T e s.data p "num_samples")
      constructor
      · rcases m1 with m1 | m1
        · exact ⟨p, List.mem_cons_self, m1.symm⟩
        · obtain ⟨q, hq, he⟩ := List.mem_map.mp m1
          exact ⟨q, List.mem_cons_of_mem _ hq, he⟩
      · intro q hq
        rcases List.mem_cons.mp hq with rfl | hq
        · exact m2
        · exact m3 _ (List.mem_map.mpr ⟨q, hq, rfl⟩)

/-- The trace header returned for a trace is what the bytes of the file say, if the types of all fields admit it. -/
theorem C61_trace_header (T : Format) (e : Endian) (hT : Cataloguable T e) (horder : T.OrderSafe)
    (encoding : Option Encoding) (B : Format) (dim : Option Int) (s s' : FileH) (r : Reader) (progress : List ℚ)
    (h : createReader encoding B T e dim s = (.ok (r, progress), s')) :
    ∃ t starts, Describes T e s.data t starts r ∧
      Traces T e s.data t.size (3600 + 3200 * r.extended_textual_headers.length) starts ∧
      ∀ (i : Nat) (hi : i < starts.length) (pos : Nat),
        (∀ f ∈ T.fields, f.value_type.Admits (fieldAt T e s.data starts[i] f.name)) →
        ∃ hd, (r.traceHeader i none { s with pos := pos }).1 = .ok hd ∧ hd.format = T ∧
          ∀ f ∈ T.fields, hd.get f.name = .ok (fieldAt T e s.data starts[i] f.name) := by
  obtain ⟨t', starts', _, g1, g2, _⟩ := C61_describes T e hT encoding B dim s s' r progress h
  obtain ⟨t, starts, ho⟩ := createReader_opened hT h
  have htt : t' = t := by
    have := g2.data_sample_format
    rw [ho.format] at this
    exact (Except.ok.inj this).symm
  subst htt
  have hss := (C43_traces T e s.data t'.size (3600 + 3200 * r.extended_textual_headers.length)).2.1 _ _ g1 ho.traces
  subst hss
  refine ⟨t', starts', g2, g1, ?_⟩
  intro i hi pos hadm
  have hfield : ∀ f ∈ T.fields, fieldAt T e s.data starts'[i] f.name =
      storedInt e f.value_type.segy (T.fieldBytes f (headerBytes s.data starts'[i])) := by
    intro f hf
    unfold fieldAt
    rw [Format.mem_fields.mp hf]
  obtain ⟨hroom, _, _⟩ := start_facts hT ho (List.getElem_mem hi)
  unfold Reader.traceHeader
  rw [g2.num_traces, bind_ok (lift_apply _ _), if_neg (by omega)]
  simp only [Option.getD_none]
  rw [ho.offset.get_number hi, bind_ok (lift_apply _ _)]
  rcases C54_read_header_partial T e _ ho.packer hT.afterStart horder hT.length starts'[i] { s with pos := pos } with
    ⟨hd, h1, _, h3, h4⟩ | ⟨k, _, h3⟩
  · refine ⟨hd, by rw [h1], h3, ?_⟩
    intro f hf
    rw [hfield f hf]
    exact (h4 f hf).2
  · exfalso
    rcases h3 with h3 | ⟨f, hf, h3⟩
    · simp only at h3; omega
    · exact h3 (hfield f hf ▸ hadm f hf)

/-- If the type of some field does not admit what the header of a trace holds, reading the header raises. -/
theorem C61_trace_header_refused (T : Format) (e : Endian) (hT : Cataloguable T e) (horder : T.OrderSafe)
    (encoding : Option Encoding) (B : Format) (dim : Option Int) (s s' : FileH) (r : Reader) (progress : List ℚ)
    (h : createReader encoding B T e dim s = (.ok (r, progress), s')) :
    ∃ t starts, Describes T e s.data t starts r ∧
      Traces T e s.data t.size (3600 + 3200 * r.extended_textual_headers.length) starts ∧
      ∀ (i : Nat) (hi : i < starts.length) (pos : Nat),
        ¬ (∀ f ∈ T.fields, f.value_type.Admits (fieldAt T e s.data starts[i] f.name)) →
        (r.traceHeader i none { s with pos := pos }).1 = .error .eofError := by
  obtain ⟨t', starts', _, g1, g2, _⟩ := C61_describes T e hT encoding B dim s s' r progress h
  obtain ⟨t, starts, ho⟩ := createReader_opened hT h
  have htt : t' = t := by
    have := g2.data_sample_format
    rw [ho.format] at this
    exact (Except.ok.inj this).symm
  subst htt
  have hss := (C43_traces T e s.data t'.size (3600 + 3200 * r.extended_textual_headers.length)).2.1 _ _ g1 ho.traces
  subst hss
  refine ⟨t', starts', g2, g1, ?_⟩
  intro i hi pos hadm
  have hfield : ∀ f ∈ T.fields, fieldAt T e s.data starts'[i] f.name =
      storedInt e f.value_type.segy (T.fieldBytes f (headerBytes s.data starts'[i])) := by
    intro f hf
    unfold fieldAt
    rw [Format.mem_fields.mp hf]
  unfold Reader.traceHeader
  rw [g2.num_traces, bind_ok (lift_apply _ _), if_neg (by omega)]
  simp only [Option.getD_none]
  rw [ho.offset.get_number hi, bind_ok (lift_apply _ _)]
  rcases C54_read_header_partial T e _ ho.packer hT.afterStart horder hT.length starts'[i] { s with pos := pos } with
    ⟨hd, _, _, _, h4⟩ | ⟨k, h1, _⟩
  · refine absurd (fun f hf => ?_) hadm
    rw [hfield f hf]
    exact (h4 f hf).1
  · rw [h1]

/-- Two readings of the same file agree: the numbers, positions and lengths of its traces are determined by its bytes. -/
theorem C61_unique (T : Format) (e : Endian) (data : Bytes) (bps pos : Nat) (starts starts' : List Nat)
    (h : Traces T e data bps pos starts) (h' : Traces T e data bps pos starts') : starts = starts' :=
  (C43_traces T e data bps pos).2.1 _ _ h h'

-- a file of three traces that opens; its traces begin at 3600, 3844 and 4084
example : ∃ r progress s', createReader (some .ebcdic) fmtBinaryReelHeader fmtTraceHeaderRev1 .big none sampleFile =
      (.ok (r, progress), s') ∧
    ∃ t starts, starts ≠ [] ∧ Traces fmtTraceHeaderRev1 .big sampleFile.data t.size
      (3600 + 3200 * r.extended_textual_headers.length) starts ∧
      Describes fmtTraceHeaderRev1 .big sampleFile.data t starts r ∧ s'.data = sampleFile.data := by
  obtain ⟨r, progress, s', h⟩ := sampleFile_ok none (by simp)
  exact ⟨r, progress, s', h, C61_describes _ _ (C43_rev1_cataloguable _) _ _ _ _ _ _ _ h⟩

example : ((createReader (some .ebcdic) fmtBinaryReelHeader fmtTraceHeaderRev1 .big none sampleFile).1.map fun x =>
    (x.1.trace_offset_catalog.get 0, x.1.trace_offset_catalog.get 1, x.1.trace_offset_catalog.get 2)) =
    .ok (.ok 3600, .ok 3844, .ok 4084) := by
  decide +kernel

-- the fields of every trace header are admissible, so that `C61_trace_header` applies
example : ∀ p ∈ [3600, 3844, 4084], ∀ f ∈ fmtTraceHeaderRev1.fields,
    f.value_type.Admits (fieldAt fmtTraceHeaderRev1 .big sampleFile.data p f.name) := by
  decide +kernel

example : ((createReader (some .ebcdic) fmtBinaryReelHeader fmtTraceHeaderRev1 .big none sampleFile).1.map fun x =>
    (x.1.traceHeader 2 none sampleFile).1.map fun hd => hd.get "inline_number") = .ok (.ok (.ok 7)) := by
  decide +kernel

/-! ## C45 sub-ranges of samples -/

/-- If all samples of a trace can be read then every valid sub-range can, and consists of the corresponding part of them;
a missing start is 0 and a missing stop the number of samples. -/
theorem C45_subrange (r : Reader) (native : Endian) (i : Int) (s : FileH) (l : List PyNum)
    (h : (r.traceSamples native i none none s).1 = .ok l) :
    r.numTraceSamples i = .ok l.length ∧
    (∀ a b : Nat, a ≤ b → b ≤ l.length →
      (r.traceSamples native i (some a) (some b) s).1 = .ok ((l.take b).drop a)) ∧
    (∀ b : Nat, b ≤ l.length → (r.traceSamples native i none (some b) s).1 = .ok (l.take b)) ∧
    (∀ a : Nat, a ≤ l.length → (r.traceSamples native i (some a) none s).1 = .ok (l.drop a)) := by
  rw [traceSamples_eq] at h
  cases hn : r.numTraces with
  | error err => simp [Reader.locateSamples, hn, bind, Except.bind] at h
  | ok n =>
  by_cases hi : 0 ≤ i ∧ i < n
  swap
  · simp [Reader.locateSamples, hn, bind, Except.bind, hi] at h
  cases hm : r.numTraceSamples i with
  | error err => simp [Reader.locateSamples, hn, hi, hm, bind, Except.bind] at h
  | ok m =>
  by_cases h0 : 0 ≤ m
  swap
  · simp [Reader.locateSamples, hn, hi, hm, h0, bind, Except.bind] at h
  cases ht : r.dataSampleFormat with
  | error err => simp [Reader.locateSamples, hn, hi, hm, ht, h0, bind, Except.bind] at h
  | ok t =>
  cases ho : r.trace_offset_catalog.get i with
  | error err => simp [Reader.locateSamples, hn, hi, hm, ht, ho, h0, bind, Except.bind] at h
  | ok o =>
  obtain ⟨m, rfl⟩ := Int.eq_ofNat_of_zero_le h0
  have hloc : ∀ (a b : Nat) (start stop : Option Int), start.getD 0 = a → stop.getD m = b → a ≤ b → b ≤ m →
      r.locateSamples i start stop = .ok (o + 240 + a * t.size, t, (b : Int) - a) := by
    intro a b start stop ha hb hab hbm
    unfold Reader.locateSamples
    simp only [hn, hm, ht, ho, bind, Except.bind, ha, hb, pure, Except.pure]
    rw [if_neg (not_not.mpr hi), if_neg (by push Not; constructor <;> omega), if_neg (by push Not; constructor <;> omega)]
    rfl
  rw [hloc 0 m none none rfl rfl (Nat.zero_le _) le_rfl] at h
  by_cases hneg : o + 240 < 0
  · exfalso
    simp only at h
    unfold readBinaryValues at h
    rw [bind_error (e := .valueError) (s' := s)] at h
    · cases h
    · unfold seek
      rw [if_pos (by simpa using hneg)]
  obtain ⟨p, hp⟩ := Int.eq_ofNat_of_zero_le (not_lt.mp hneg)
  have e0 : o + 240 + ((0 : Nat) : Int) * t.size = (p : Int) := by rw [hp]; simp
  have e1 : (m : Int) - ((0 : Nat) : Int) = (m : Int) := by simp
  simp only [e0, e1] at h
  have hfit : p + m * t.size ≤ s.data.length ∨ m = 0 := by
    by_contra hc
    push Not at hc
    obtain ⟨k, hk⟩ := readBinaryValues_eof native r.endian t m p s hc.1 hc.2
    rw [hk] at h
    cases h
  rw [readBinaryValues_ok native r.endian t m p s hfit] at h
  simp only [Except.ok.injEq] at h
  subst h
  rw [samplesFrom_length]
  have key : ∀ (a b : Nat) (start stop : Option Int), start.getD 0 = a → stop.getD m = b → a ≤ b → b ≤ m →
      (r.traceSamples native i start stop s).1 = .ok (((samplesFrom native r.endian t s.data p m).take b).drop a) := by
    intro a b start stop ha hb hab hbm
    have e2 : o + 240 + (a : Int) * t.size = ((p + a * t.size : Nat) : Int) := by rw [hp]; push_cast; rfl
    have e3 : (b : Int) - a = ((b - a : Nat) : Int) := by omega
    have hle : a * t.size + (b - a) * t.size ≤ m * t.size := by
      rw [← Nat.add_mul]; exact Nat.mul_le_mul_right _ (by omega)
    rw [traceSamples_eq, hloc a b start stop ha hb hab hbm]
    simp only [e2, e3]
    rw [readBinaryValues_ok native r.endian t (b - a) (p + a * t.size) s (by omega),
      samplesFrom_sub native r.endian t s.data p m a b hab hbm]
  refine ⟨rfl, fun a b hab hb => key a b _ _ rfl rfl hab hb, fun b hb => ?_, fun a ha => ?_⟩
  · have := key 0 b none (some b) rfl rfl (Nat.zero_le _) hb
    rwa [List.drop_zero] at this
  · have := key a m (some a) none rfl rfl ha le_rfl
    rwa [List.take_of_length_le (by rw [samplesFrom_length])] at this

/-- A trace index, stop or start out of range raises `ValueError`, whatever the file holds. -/
theorem C45_invalid (r : Reader) (native : Endian) (i n m : Int) (start stop : Option Int) (s : FileH)
    (hn : r.numTraces = .ok n) (hm : r.numTraceSamples i = .ok m ∨ ¬ (0 ≤ i ∧ i < n))
    (h : i < 0 ∨ n ≤ i ∨ stop.getD m < 0 ∨ m < stop.getD m ∨ start.getD 0 < 0 ∨ stop.getD m < start.getD 0) :
    r.traceSamples native i start stop s = (.error .valueError, s) := by
  have hl : r.locateSamples i start stop = .error .valueError := by
    unfold Reader.locateSamples
    simp only [hn, bind, Except.bind]
    by_cases hi : 0 ≤ i ∧ i < n
    · rw [if_neg (not_not.mpr hi)]
      rcases hm with hm | hm
      · simp only [hm]
        split
        · rfl
        · rw [if_pos]
          omega
      · exact absurd hi hm
    · rw [if_pos hi]
  rw [traceSamples_eq, hl]

/-- Reading samples `a` to `b` of a trace of an opened file: `EOFError` if the file ends before the last of them, and
otherwise the numbers stored in the file. -/
theorem C45_reads (T : Format) (e : Endian) (hT : Cataloguable T e) (encoding : Option Encoding) (B : Format)
    (dim : Option Int) (s s' : FileH) (r : Reader) (progress : List ℚ)
    (h : createReader encoding B T e dim s = (.ok (r, progress), s')) :
    ∃ t starts, Describes T e s.data t starts r ∧
      Traces T e s.data t.size (3600 + 3200 * r.extended_textual_headers.length) starts ∧
      ∀ (native : Endian) (i : Nat) (hi : i < starts.length) (a b pos : Nat), a ≤ b →
        (b : Int) ≤ fieldAt T e s.data starts[i] "num_samples" →
        (a < b → s.data.length < starts[i] + 240 + b * t.size →
          (r.traceSamples native i (some a) (some b) { s with pos := pos }).1 = .error .eofError) ∧
        (a = b ∨ starts[i] + 240 + b * t.size ≤ s.data.length →
          ∃ l, (r.traceSamples native i (some a) (some b) { s with pos := pos }).1 = .ok l ∧ l.length = b - a ∧
            SamplesStored e t s.data (starts[i] + 240 + a * t.size) l) := by
  obtain ⟨t', starts', _, g1, g2, _⟩ := C61_describes T e hT encoding B dim s s' r progress h
  obtain ⟨t, starts, ho⟩ := createReader_opened hT h
  have htt : t' = t := by
    have := g2.data_sample_format
    rw [ho.format] at this
    exact (Except.ok.inj this).symm
  subst htt
  have hss := (C43_traces T e s.data t'.size (3600 + 3200 * r.extended_textual_headers.length)).2.1 _ _ g1 ho.traces
  subst hss
  refine ⟨t', starts', g2, g1, ?_⟩
  intro native i hi a b pos hab hb
  have hloc : r.locateSamples i (some a) (some b) = .ok (((starts'[i] + 240 + a * t'.size : Nat) : Int), t', ((b - a : Nat) : Int)) := by
    unfold Reader.locateSamples
    simp only [g2.num_traces, g2.num_trace_samples i hi, ho.format, ho.offset.get_number hi, bind, Except.bind, pure,
      Except.pure, Option.getD_some]
    rw [if_neg (by omega), if_neg (by omega), if_neg (by omega)]
    congr 3
    omega
  have hmul : a * t'.size + (b - a) * t'.size = b * t'.size := by rw [← Nat.add_mul]; congr 1; omega
  have hloc2 := traceSamples_eq r native i (some a) (some b) { s with pos := pos }
  rw [hloc] at hloc2
  simp only at hloc2
  rw [hloc2, ho.endian]
  constructor
  · intro hlt hshort
    obtain ⟨k, hk⟩ := readBinaryValues_eof native e t' (b - a) (starts'[i] + 240 + a * t'.size) { s with pos := pos }
      (by simp only; omega) (by omega)
    rw [hk]
  · intro hfit
    have hfit' : starts'[i] + 240 + a * t'.size + (b - a) * t'.size ≤ s.data.length ∨ b - a = 0 := by omega
    rw [readBinaryValues_ok native e t' (b - a) (starts'[i] + 240 + a * t'.size) { s with pos := pos } hfit']
    exact ⟨_, rfl, samplesFrom_length _ _ _ _ _ _, samplesFrom_stored _ _ _ _ _ _ hfit'⟩

-- `C45_subrange` on the first trace, `C45_invalid` and `C45_reads` on a shortened file
example : ((createReader (some .ebcdic) fmtBinaryReelHeader fmtTraceHeaderRev1 .big none sampleFile).1.map fun x =>
    ((x.1.traceSamples .little 0 none none sampleFile).1, (x.1.traceSamples .little 0 (some 1) (some 2) sampleFile).1,
      (x.1.traceSamples .big 0 (some 1) (some 3) sampleFile).1,
      (x.1.traceSamples .big 2 none none { sampleFile with data := sampleFile.data.dropLast }).1)) =
    .ok (.ok [.int 7, .int (-1)], .ok [.int (-1)], .error .valueError, .error .eofError) := by
  decide +kernel

/-! ## C46 answers do not depend on history -/

/-- After any sequence of calls on a reader, interleaved with anything else moving the position of the shared file, every
call answers what it would have answered at first, and the file is unchanged. -/
theorem C46_history (native : Endian) (r : Reader) (s : FileH) (calls : List Call) (c : Call) :
    ((r.calls native calls s).1.call native c (r.calls native calls s).2).1 = (r.call native c s).1 ∧
      (r.calls native calls s).2.data = s.data := by
  have hfile : ∀ (calls : List Call) (r : Reader) (s : FileH), ∃ k, (r.calls native calls s).2 = { s with pos := k } := by
    intro calls
    induction calls with
    | nil => intro r s; exact ⟨s.pos, rfl⟩
    | cons a calls ih =>
      intro r s
      obtain ⟨k, hk⟩ := call_file r native a s
      obtain ⟨k', hk'⟩ := ih (r.call native a s).2.1 (r.call native a s).2.2
      refine ⟨k', ?_⟩
      unfold Reader.calls
      rw [hk', hk]
  have hans : ∀ (calls : List Call) (r : Reader) (s s' : FileH),
      ((r.calls native calls s).1.call native c s').1 = (r.call native c s').1 := by
    intro calls
    induction calls with
    | nil => intro r s s'; rfl
    | cons a calls ih =>
      intro r s s'
      unfold Reader.calls
      rw [ih, step_answer]
  obtain ⟨k, hk⟩ := hfile calls r s
  refine ⟨?_, by rw [hk]⟩
  rw [hans, hk, answer_pos]

-- the calls in between do change something: they move the file and make the reader remember answers
example : ((createReader (some .ebcdic) fmtBinaryReelHeader fmtTraceHeaderRev1 .big none sampleFile).1.map fun x =>
    let q := x.1.calls .big [.maxNumTraceSamples, .traceSamples 0 none none, .inlineNumbers] sampleFile
    (decide (q.1 = x.1), q.2.pos, (q.1.call .big (.traceSamples 2 none none) q.2).1)) =
    .ok (false, 3844, .ok (.samples [.int 256])) := by
  decide +kernel

/-! ## C49 finding traces by their numbers, C50 dimensionality -/

/-- A reader in which traces cannot be found by number: the catalog asked for is empty. -/
structure FindsNothing3 (r : Reader) : Prop where
  dimensionality : r.dimensionality = .ok 3
  not_found : ∀ k, r.traceIndex3 k = .error .keyError
  has : ∀ k, r.hasTraceIndex3 k = .ok false
  lines : r.inlineXlineNumbers = .ok []
  inlines : r.inlineNumbers = .error .runtimeError
  xlines : r.xlineNumbers = .error .runtimeError

/-- Likewise for a 2D reader. -/
structure FindsNothing2 (r : Reader) : Prop where
  dimensionality : r.dimensionality = .ok 2
  not_found : ∀ k, r.traceIndex2 k = .error .keyError
  has : ∀ k, r.hasTraceIndex2 k = .ok false
  num : r.numCdps = .ok 0
  cdps : r.cdpNumbers = .error .runtimeError

/-- A reader that is neither 2D nor 3D: only a reader of a single trace has a dimension, and it has no method to find
traces by number. -/
structure FindsNone (r : Reader) (n : Nat) : Prop where
  dimensionality : r.dimensionality = .ok (if n = 1 then 1 else 0)
  no_lines : r.inlineXlineNumbers = .error .attributeError ∧ ∀ k, r.traceIndex3 k = .error .attributeError
  no_cdps : r.cdpNumbers = .error .attributeError ∧ ∀ k, r.traceIndex2 k = .error .attributeError

private theorem finds3 {r : Reader} {T : Format} {e : Endian} {data : Bytes} {starts : List Nat} {c : Catalog2}
    (hk : r.kind = .threeD (some c) none none)
    (h : Refines2 (toNumber starts fun p => (fieldAt T e data p "inline_number", fieldAt T e data p "crossline_number")) c) :
    FindsByLines r (linePairs T e data starts) := by
  have hkeys := toNumber_keys starts
    (fun p => (fieldAt T e data p "inline_number", fieldAt T e data p "crossline_number"))
  have hex : ∀ (g : Int × Int → Int) (a : Int), (∃ x ∈ toNumber starts
      (fun p => (fieldAt T e data p "inline_number", fieldAt T e data p "crossline_number")), g x.1 = a) ↔
      a ∈ (linePairs T e data starts).map g := by
    intro g a
    unfold linePairs
    rw [← hkeys, List.map_map, List.mem_map]
    rfl
  refine ⟨?_, ?_, ?_, ?_, ?_, ?_, ?_⟩
  · unfold Reader.dimensionality; rw [hk]
  · intro i hi
    have hi' : i < starts.length := by simpa [linePairs] using hi
    unfold Reader.traceIndex3
    rw [hk]
    have := h.lookup _ _ (toNumber_mem (f := fun p =>
      (fieldAt T e data p "inline_number", fieldAt T e data p "crossline_number")) hi')
    simpa [linePairs] using this
  · intro k hmem
    unfold Reader.traceIndex3
    rw [hk]
    exact h.missing k (by rw [hkeys]; exact hmem)
  · intro k
    unfold Reader.hasTraceIndex3
    rw [hk]
    have := h.contains k
    rw [hkeys] at this
    exact this
  · refine ⟨c.keys, ?_, h.iter.1, ?_⟩
    · unfold Reader.inlineXlineNumbers; rw [hk]
    · intro k; rw [h.iter.2, hkeys]; rfl
  · refine ⟨c.iRange, _, by unfold Reader.inlineNumbers; rw [hk], h.iRange.1, ?_⟩
    intro a
    rw [h.iRange.2]
    exact hex Prod.fst a
  · refine ⟨c.jRange, _, by unfold Reader.xlineNumbers; rw [hk], h.jRange.1, ?_⟩
    intro a
    rw [h.jRange.2]
    exact hex Prod.snd a

private theorem finds2 {r : Reader} {T : Format} {e : Endian} {data : Bytes} {starts : List Nat} {c : Catalog1}
    (hne : starts ≠ []) (hk : r.kind = .twoD c none)
    (h : Refines1 (toNumber starts fun p => fieldAt T e data p "ensemble_num") c) :
    FindsByEnsemble r (ensembles T e data starts) := by
  have hkeys := toNumber_keys starts (fun p => fieldAt T e data p "ensemble_num")
  refine ⟨?_, ?_, ?_, ?_, ?_, ?_⟩
  · unfold Reader.dimensionality; rw [hk]
  · intro i hi
    have hi' : i < starts.length := by simpa [ensembles] using hi
    unfold Reader.traceIndex2
    rw [hk]
    have := h.lookup _ _ (toNumber_mem (f := fun p => fieldAt T e data p "ensemble_num") hi')
    simpa [ensembles] using this
  · intro k hmem
    unfold Reader.traceIndex2
    rw [hk]
    exact h.missing k (by rw [hkeys]; exact hmem)
  · intro k
    unfold Reader.hasTraceIndex2
    rw [hk]
    have := h.contains k
    rw [hkeys] at this
    exact this
  · unfold Reader.numCdps
    rw [hk]
    have := h.len
    rw [toNumber_length] at this
    simpa [ensembles] using this
  · obtain ⟨ks, h1, h2, h3⟩ := h.iter
    have hks : ks ≠ [] := by
      obtain ⟨p, hp⟩ := List.exists_mem_of_ne_nil _ hne
      refine List.ne_nil_of_mem (a := fieldAt T e data p "ensemble_num") ((h3 _).mpr ?_)
      rw [hkeys]
      exact List.mem_map.mpr ⟨p, hp, rfl⟩
    obtain ⟨out, o1, o2⟩ := C15_list ks hks (some .ascending)
    refine ⟨out, { r with kind := .twoD c (some out) }, ?_, ?_, ?_⟩
    · unfold Reader.cdpNumbers
      rw [hk]
      simp only [h1, o1, bind, Except.bind, pure, Except.pure]
    · simpa using o2.sorted
    · intro a
      rw [o2.mem, h3, hkeys]
      rfl

/-- Traces are found by their line numbers in a 3D reader of a file whose traces have distinct pairs of line numbers, and
by their ensemble numbers in a 2D reader of a file whose traces have distinct ensemble numbers. -/
theorem C49_finds (T : Format) (e : Endian) (hT : Cataloguable T e) (encoding : Option Encoding) (B : Format)
    (dim : Option Int) (s s' : FileH) (r : Reader) (progress : List ℚ)
    (h : createReader encoding B T e dim s = (.ok (r, progress), s')) :
    ∃ t starts, Describes T e s.data t starts r ∧
      Traces T e s.data t.size (3600 + 3200 * r.extended_textual_headers.length) starts ∧
      (r.dimensionality = .ok 3 → (linePairs T e s.data starts).Nodup → FindsByLines r (linePairs T e s.data starts)) ∧
      (r.dimensionality = .ok 2 → (ensembles T e s.data starts).Nodup → FindsByEnsemble r (ensembles T e s.data starts)) ∧
      (r.dimensionality = .ok 3 → ¬ (linePairs T e s.data starts).Nodup → FindsNothing3 r) ∧
      (r.dimensionality = .ok 2 → ¬ (ensembles T e s.data starts).Nodup → FindsNothing2 r) ∧
      (r.dimensionality ≠ .ok 3 → r.dimensionality ≠ .ok 2 → FindsNone r starts.length) ∧
      r.dimensionality = (match dim with
        | none => if (linePairs T e s.data starts).Nodup then .ok 3
            else if (ensembles T e s.data starts).Nodup then .ok 2 else .ok 0
        | some n => if n = 1 then .ok (if starts.length = 1 then 1 else 0) else .ok n) := by
  obtain ⟨t', starts', _, g1, g2, _⟩ := C61_describes T e hT encoding B dim s s' r progress h
  obtain ⟨t, starts, ho⟩ := createReader_opened hT h
  have htt : t' = t := by
    have := g2.data_sample_format
    rw [ho.format] at this
    exact (Except.ok.inj this).symm
  subst htt
  have hss := (C43_traces T e s.data t'.size (3600 + 3200 * r.extended_textual_headers.length)).2.1 _ _ g1 ho.traces
  subst hss
  refine ⟨t', starts', g2, g1, ?_⟩
  obtain ⟨cdp, line, k1, k2, k3, k4, hk⟩ := ho.kind
  have hshape : r.kind = .plain ∨ r.kind = .twoD cdp none ∨ r.kind = .threeD line none none := by
    rw [hk]
    cases dim with
    | none => simp only; split_ifs <;> simp
    | some n => simp only; split_ifs <;> simp
  have hd : r.dimensionality = match r.kind with
      | .plain => .ok (if starts'.length = 1 then 1 else 0)
      | .twoD _ _ => .ok 2
      | .threeD _ _ _ => .ok 3 := by
    unfold Reader.dimensionality
    cases r.kind with
    | plain =>
      simp only [g2.num_traces, bind, Except.bind, pure, Except.pure]
      congr 1
      by_cases h1 : starts'.length = 1
      · rw [if_pos h1, if_pos (by omega)]
      · rw [if_neg h1, if_neg (by omega)]
    | twoD _ _ => rfl
    | threeD _ _ _ => rfl
  have hplain : r.kind = .plain → r.dimensionality ≠ .ok 3 ∧ r.dimensionality ≠ .ok 2 := by
    intro hp
    rw [hd, hp]
    simp only
    split_ifs <;> simp
  have h3 : r.dimensionality = .ok 3 → r.kind = .threeD line none none := by
    intro h'
    rcases hshape with hs | hs | hs
    · exact absurd h' (hplain hs).1
    · rw [hd, hs] at h'; cases h'
    · exact hs
  have h2 : r.dimensionality = .ok 2 → r.kind = .twoD cdp none := by
    intro h'
    rcases hshape with hs | hs | hs
    · exact absurd h' (hplain hs).2
    · exact hs
    · rw [hd, hs] at h'; cases h'
  refine ⟨?_, ?_, ?_, ?_, ?_, ?_⟩
  · intro h' hn
    obtain ⟨c, rfl, hc⟩ := k3 hn
    exact finds3 (h3 h') hc
  · intro h' hn
    exact finds2 ho.some_trace (h2 h') (k1 hn)
  · intro h' hn
    have hkind := h3 h'
    rw [k4 hn] at hkind
    refine ⟨h', fun k => ?_, fun k => ?_, ?_, ?_, ?_⟩
    · unfold Reader.traceIndex3; rw [hkind]
    · unfold Reader.hasTraceIndex3; rw [hkind]
    · unfold Reader.inlineXlineNumbers; rw [hkind]
    · unfold Reader.inlineNumbers; rw [hkind]; rfl
    · unfold Reader.xlineNumbers; rw [hkind]; rfl
  · intro h' hn
    have hkind := h2 h'
    rw [k2 hn] at hkind
    refine ⟨h', fun k => ?_, fun k => ?_, ?_, ?_⟩
    · unfold Reader.traceIndex2; rw [hkind]; rfl
    · unfold Reader.hasTraceIndex2; rw [hkind]; rfl
    · unfold Reader.numCdps; rw [hkind]; rfl
    · unfold Reader.cdpNumbers; rw [hkind]; rfl
  · intro n3 n2
    have hkind : r.kind = .plain := by
      rcases hshape with hs | hs | hs
      · exact hs
      · exact absurd (by rw [hd, hs]) n2
      · exact absurd (by rw [hd, hs]) n3
    refine ⟨by rw [hd, hkind], ⟨?_, fun k => ?_⟩, ?_, fun k => ?_⟩
    · unfold Reader.inlineXlineNumbers; rw [hkind]
    · unfold Reader.traceIndex3; rw [hkind]
    · unfold Reader.cdpNumbers; rw [hkind]
    · unfold Reader.traceIndex2; rw [hkind]
  · rw [hd, hk]
    have hdims := ho.dims
    simp only [List.mem_cons, List.not_mem_nil, or_false] at hdims
    rcases hdims with rfl | rfl | rfl | rfl
    · simp only
      by_cases hl : (linePairs T e s.data starts').Nodup
      · simp [hl]
      · have hone : starts'.length ≠ 1 := by
          intro h1
          obtain ⟨p, hp⟩ := List.length_eq_one_iff.mp h1
          apply hl
          rw [hp]
          simp [linePairs]
        by_cases hc : (ensembles T e s.data starts').Nodup
        · simp [hl, hc]
        · simp [hl, hc, hone]
    · simp
    · simp
    · simp

/-- Without a dimensionality argument the reader is 3D exactly if all pairs of line numbers are distinct, otherwise 2D
exactly if all ensemble numbers are, and otherwise neither; with one it is what was asked for. -/
theorem C50_dimensionality (T : Format) (e : Endian) (hT : Cataloguable T e) (encoding : Option Encoding) (B : Format)
    (s s' : FileH) (r : Reader) (progress : List ℚ)
    (h : createReader encoding B T e none s = (.ok (r, progress), s')) :
    ∃ t starts, Traces T e s.data t.size (3600 + 3200 * r.extended_textual_headers.length) starts ∧
      r.dataSampleFormat = .ok t ∧
      (r.dimensionality = .ok 3 ↔ (linePairs T e s.data starts).Nodup) ∧
      (r.dimensionality = .ok 2 ↔ ¬ (linePairs T e s.data starts).Nodup ∧ (ensembles T e s.data starts).Nodup) ∧
      (r.dimensionality = .ok 0 ↔ ¬ (linePairs T e s.data starts).Nodup ∧ ¬ (ensembles T e s.data starts).Nodup) := by
  obtain ⟨t, starts, g1, g2, _, _, _, _, _, hd⟩ := C49_finds T e hT encoding B none s s' r progress h
  refine ⟨t, starts, g2, g1.data_sample_format, ?_⟩
  simp only at hd
  rw [hd]
  by_cases hl : (linePairs T e s.data starts).Nodup
  · simp [hl]
  · by_cases hc : (ensembles T e s.data starts).Nodup
    · simp [hl, hc]
    · simp [hl, hc]

/-- A requested dimensionality is honoured whatever the numbers of the traces are. -/
theorem C50_forced (T : Format) (e : Endian) (hT : Cataloguable T e) (encoding : Option Encoding) (B : Format)
    (dim : Int) (s s' : FileH) (r : Reader) (progress : List ℚ)
    (h : createReader encoding B T e (some dim) s = (.ok (r, progress), s')) :
    (dim = 2 ∧ r.dimensionality = .ok 2) ∨ (dim = 3 ∧ r.dimensionality = .ok 3) ∨
      (dim = 1 ∧ ∃ n, r.numTraces = .ok n ∧ r.dimensionality = .ok (if n = 1 then 1 else 0)) := by
  obtain ⟨t, starts, g1, g2, _, _, _, _, _, hd⟩ := C49_finds T e hT encoding B (some dim) s s' r progress h
  obtain ⟨_, _, ho⟩ := createReader_opened hT h
  have hdims := ho.dims
  simp only [List.mem_cons, List.not_mem_nil, or_false, Option.some.injEq, reduceCtorEq, false_or] at hdims
  rcases hdims with rfl | rfl | rfl
  · right; right
    refine ⟨rfl, _, g1.num_traces, ?_⟩
    rw [hd]
    by_cases h1 : starts.length = 1
    · simp [h1]
    · simp [h1]
  · left; exact ⟨rfl, by rw [hd]; simp⟩
  · right; left; exact ⟨rfl, by rw [hd]; simp⟩

/-- Another dimensionality, or a file without room for the reel headers, is refused with `ValueError`. -/
theorem C50_refused (encoding : Option Encoding) (B T : Format) (e : Endian) (dim : Option Int) (s : FileH)
    (h : s.data.length < 3600 ∨ dim ∉ [none, some 1, some 2, some 3]) :
    createReader encoding B T e dim s = (.error .valueError, s) := by
  unfold createReader
  rw [bind_ok (show fileLength s = (.ok s.data.length, s) from rfl)]
  have h36 : REEL_HEADER_NUM_BYTES = 3600 := rfl
  split
  · rfl
  · rename_i hlen
    rw [if_pos (by rcases h with h | h; exact absurd h (by omega); exact h)]
    rfl

-- the three traces have distinct line numbers but not distinct ensemble numbers: of the readers of the four
-- dimensionalities the 3D ones find traces and the 2D one does not
example : [3600, 3844, 4084].map (fun p => (fieldAt fmtTraceHeaderRev1 .big sampleFile.data p "ensemble_num",
    fieldAt fmtTraceHeaderRev1 .big sampleFile.data p "inline_number")) = [(1, 5), (1, 6), (2, 7)] := by
  decide +kernel

example : [none, some 1, some 2, some 3].map (fun dim =>
    (createReader (some .ebcdic) fmtBinaryReelHeader fmtTraceHeaderRev1 .big dim sampleFile).1.map fun x =>
      (x.1.dimensionality, x.1.traceIndex3 (6, 0), x.1.traceIndex2 2, x.1.numCdps)) =
    [.ok (.ok 3, .ok 1, .error .attributeError, .error .attributeError),
     .ok (.ok 0, .error .attributeError, .error .attributeError, .error .attributeError),
     .ok (.ok 2, .error .attributeError, .error .keyError, .ok 0),
     .ok (.ok 3, .ok 1, .error .attributeError, .error .attributeError)] := by
  decide +kernel

/-- The sample file with the inline numbers of its first two traces alike and distinct ensemble numbers. -/
private def twoDFile : FileH :=
  { data := sampleReel ++ sampleHeader 1 0 5 ++ sampleHeader 4 0 5 ++ sampleHeader 2 0 7, pos := 0 }

-- this one opens as 2D, but as 3D if that is asked for, and then nothing is found
example : [none, some 3].map (fun dim =>
    (createReader (some .ebcdic) fmtBinaryReelHeader fmtTraceHeaderRev1 .big dim twoDFile).1.map fun x =>
      (x.1.dimensionality, x.1.traceIndex3 (7, 0), x.1.traceIndex2 4, x.1.numCdps)) =
    [.ok (.ok 2, .error .attributeError, .ok 1, .ok 3),
     .ok (.ok 3, .error .keyError, .error .attributeError, .error .attributeError)] := by
  decide +kernel

-- the hypotheses of `C50_refused`
example : createReader none fmtBinaryReelHeader fmtTraceHeaderRev1 .big (some 4) sampleFile =
    (.error .valueError, sampleFile) :=
  C50_refused _ _ _ _ _ _ (Or.inr (by decide))

end Segpy.Props
