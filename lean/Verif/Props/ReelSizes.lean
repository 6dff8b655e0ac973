import Verif.Model.ReelSizes
import Verif.Lemmas.Copy
import Verif.Lemmas.ExampleFile

/-! # Properties of what the reel header says about all traces: C92, C93 -/

namespace Segpy.Props

open Segpy.Spec Segpy.FileM

/-! ## C92 traces of equal length -/

private theorem spaced {T : Format} {e : Endian} {data : Bytes} {bps pos : Nat} {starts : List Nat} {stop N : Nat}
    (h : TraceChain T e data bps pos starts stop) (hN : ∀ p ∈ starts, samplesAt T e data p = N) :
    stop = pos + starts.length * (240 + N * bps) ∧
    ∀ i (hi : i < starts.length), starts[i] = pos + i * (240 + N * bps) := by
  induction h with
  | nil => exact ⟨by simp, fun i hi => by simp at hi⟩
  | cons complete indexable rest ih =>
    obtain ⟨h1, h2⟩ := ih fun p hp => hN p (List.mem_cons_of_mem _ hp)
    rw [hN _ List.mem_cons_self] at h1 h2
    refine ⟨?_, ?_⟩
    · rw [h1, List.length_cons]; ring
    · intro i hi
      cases i with
      | zero => simp
      | succ i =>
        rw [List.getElem_cons_succ, h2 i (by simpa using hi)]
        ring

/-- A file has been opened, and all its traces have as many samples as its binary reel header says.  Then
`trace_length_bytes` of that header and of its `bytes_per_sample` is the distance between the beginnings of consecutive
traces; and if the last trace lies in the file in full, it is what to divide the rest of the file by to count the
traces. -/
theorem C92_equal_lengths (T : Format) (e : Endian) (hT : Cataloguable T e) (encoding : Option Encoding) (B : Format)
    (dim : Option Int) (s s' : FileH) (r : Reader) (progress : List ℚ)
    (h : createReader encoding B T e dim s = (.ok (r, progress), s')) (N n : Int)
    (hN : r.binary_reel_header.get "num_samples" = .ok N) (hn : r.numTraces = .ok n)
    (hsame : ∀ i : Nat, (i : Int) < n → r.numTraceSamples i = .ok N) :
    ∃ (t : SegYType) (starts : List Nat) (bps L : Nat), Describes T e s.data t starts r ∧
      Traces T e s.data t.size (3600 + 3200 * r.extended_textual_headers.length) starts ∧
      samplesPerTrace r.binary_reel_header = .ok N ∧ headerBytesPerSample r.binary_reel_header = .ok bps ∧
      traceLengthBytes r.binary_reel_header bps = .ok (L : Int) ∧
      (∀ i (hi : i < starts.length), starts[i] = 3600 + 3200 * r.extended_textual_headers.length + i * L) ∧
      (3600 + 3200 * r.extended_textual_headers.length + starts.length * L ≤ s.data.length →
        n = ((s.data.length - (3600 + 3200 * r.extended_textual_headers.length)) / L : Nat)) := by
  obtain ⟨t, starts, ⟨hd, -⟩, ho⟩ := createReader_all hT h
  have hnl : n = starts.length := by
    have := hd.num_traces
    rw [hn] at this
    exact Except.ok.inj this
  have hs : ∀ p ∈ starts, samplesAt T e s.data p = N.toNat ∧ 0 ≤ N := by
    intro p hp
    obtain ⟨i, hi, rfl⟩ := List.getElem_of_mem hp
    have h1 := hd.num_trace_samples i hi
    rw [hsame i (by omega)] at h1
    obtain ⟨-, -, h3⟩ := start_facts hT ho hp
    rw [← Except.ok.inj h1] at h3
    exact ⟨by omega, by omega⟩
  obtain ⟨p, hp⟩ := List.exists_mem_of_ne_nil _ ho.some_trace
  have h0 := (hs p hp).2
  obtain ⟨stop, hc, hend⟩ := id ho.traces
  obtain ⟨g1, g2⟩ := spaced hc fun p hp => (hs p hp).1
  have hbps : headerBytesPerSample r.binary_reel_header = .ok t.size := by
    have := ho.format
    unfold Reader.dataSampleFormat at this
    unfold headerBytesPerSample bytesPerSample
    cases hg : r.binary_reel_header.get "data_sample_format" with
    | error err => rw [hg] at this; cases this
    | ok v =>
      rw [hg] at this
      simp only [bind, Except.bind] at this ⊢
      rw [this]
  refine ⟨t, starts, t.size, 240 + N.toNat * t.size, hd, ho.traces, hN, hbps, ?_, g2, ?_⟩
  · unfold traceLengthBytes samplesPerTrace
    rw [hN]
    simp only [bind, Except.bind, pure, Except.pure, Except.ok.injEq]
    push_cast
    rw [Int.toNat_of_nonneg h0]
    ring
  · intro hfull
    rw [hnl]
    rw [g1] at hend
    generalize 3600 + 3200 * r.extended_textual_headers.length = A at *
    generalize hL : 240 + N.toNat * t.size = L at *
    have hL240 : 240 ≤ L := by omega
    have key : (s.data.length - A) / L = starts.length := by
      apply Nat.div_eq_of_lt_le
      · omega
      · rw [Nat.succ_mul]; omega
    rw [key]

-- two traces of two samples of two bytes, in a file that says so
example : ((createReader (some .ebcdic) fmtBinaryReelHeader fmtTraceHeaderRev1 .big none
      { data := List.replicate 3200 0x40 ++ List.replicate 20 0 ++ [0, 2, 0, 0, 0, 3] ++ List.replicate 374 0 ++
          (sampleHeader 1 2 8 ++ [0, 1, 0, 2]) ++ (sampleHeader 2 2 8 ++ [0, 3, 0, 4]), pos := 0 }).1.map fun x =>
        (samplesPerTrace x.1.binary_reel_header, x.1.numTraces, x.1.numTraceSamples 0, x.1.numTraceSamples 1,
          traceLengthBytes x.1.binary_reel_header 2)) = .ok (.ok 2, .ok 2, .ok 2, .ok 2, .ok 244) := by
  decide +kernel

/-- `bytes_per_sample` and `data_sample_format_size_in_bytes` agree on every format; on a number that is no format the
first raises `ValueError` and the second `KeyError`. -/
theorem C92_sizes (h : Header) (dsf : Int) (hd : h.get "data_sample_format" = .ok dsf) :
    (dsf = 1 ∨ dsf = 2 ∨ dsf = 5 → headerBytesPerSample h = .ok 4 ∧ dataSampleFormatSizeInBytes dsf = .ok 4) ∧
    (dsf = 3 → headerBytesPerSample h = .ok 2 ∧ dataSampleFormatSizeInBytes dsf = .ok 2) ∧
    (dsf = 8 → headerBytesPerSample h = .ok 1 ∧ dataSampleFormatSizeInBytes dsf = .ok 1) ∧
    (dsf ∉ [1, 2, 3, 5, 8] →
      headerBytesPerSample h = .error .valueError ∧ dataSampleFormatSizeInBytes dsf = .error .keyError) := by
  unfold headerBytesPerSample
  rw [hd]
  refine ⟨?_, ?_, ?_, ?_⟩
  · rintro (rfl | rfl | rfl) <;> exact ⟨rfl, rfl⟩
  · rintro rfl; exact ⟨rfl, rfl⟩
  · rintro rfl; exact ⟨rfl, rfl⟩
  · intro hn
    simp only [List.mem_cons, List.not_mem_nil, or_false, not_or] at hn
    obtain ⟨h1, h2, h3, h5, h8⟩ := hn
    have : dataSampleFormatToSegYType dsf = .error .keyError := by
      unfold dataSampleFormatToSegYType
      rw [if_neg h1, if_neg h2, if_neg h3, if_neg h5, if_neg h8]
    constructor
    · simp only [bind, Except.bind, bytesPerSample, this]
    · simp only [dataSampleFormatSizeInBytes, this, bind, Except.bind]

/-! ## C93 the decimal form of a revision -/

/-- A revision number of which both bytes are the digits of a decimal, the second less than ten, is converted to that
decimal; so different ones are told apart. -/
theorem C93_decimal_partial (hi lo : Int) (h : 0 ≤ hi ∧ hi < 256) (l : 0 ≤ lo ∧ lo < 10) :
    integerToDecimalRevision (hi * 256 + lo) = hi + lo / 10 ∧
    ∀ hi' lo' : Int, 0 ≤ hi' ∧ hi' < 256 → 0 ≤ lo' ∧ lo' < 10 →
      integerToDecimalRevision (hi' * 256 + lo') = integerToDecimalRevision (hi * 256 + lo) → hi' = hi ∧ lo' = lo := by
  have key : ∀ hi lo : Int, 0 ≤ hi ∧ hi < 256 → 0 ≤ lo ∧ lo < 10 →
      integerToDecimalRevision (hi * 256 + lo) = hi + lo / 10 := by
    intro hi lo h l
    unfold integerToDecimalRevision
    have h1 : (hi * 256 + lo) % 256 = lo := by omega
    have h2 : (hi * 256 + lo) / 256 % 256 = hi := by omega
    simp only [h1, h2]
  refine ⟨key hi lo h l, ?_⟩
  intro hi' lo' h' l' heq
  rw [key hi lo h l, key hi' lo' h' l'] at heq
  have : ((hi' * 10 + lo' : Int) : ℚ) = ((hi * 10 + lo : Int) : ℚ) := by
    push_cast
    linarith
  have := Int.cast_injective this
  omega

/-- The two revisions segpy knows are 0 and 1 in decimal form. -/
theorem C93_known (revision canonical : Int) (h : canonicalizeRevision revision = .ok canonical) :
    (canonical = 0 ∧ integerToDecimalRevision canonical = 0) ∨ (canonical = 256 ∧ integerToDecimalRevision canonical = 1) := by
  have : canonical = 0 ∨ canonical = 256 := by
    unfold canonicalizeRevision at h
    split at h
    · left; exact (Except.ok.inj h).symm
    · split at h
      · right; exact (Except.ok.inj h).symm
      · split at h
        · right; exact (Except.ok.inj h).symm
        · split at h
          · right; exact (Except.ok.inj h).symm
          · cases h
  rcases this with rfl | rfl
  · left; exact ⟨rfl, by norm_num [integerToDecimalRevision]⟩
  · right; exact ⟨rfl, by norm_num [integerToDecimalRevision]⟩

/-- But 1.10 in binary-coded decimal, which the code says it assumes, becomes 2.6; and the decimal does not tell
revisions apart. -/
theorem C93_decimal_fails :
    integerToDecimalRevision 0x0110 = 26 / 10 ∧ integerToDecimalRevision 0x010A = integerToDecimalRevision 0x0200 := by
  norm_num [integerToDecimalRevision]

end Segpy.Props
