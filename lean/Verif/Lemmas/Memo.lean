import Verif.Lemmas.Reader2

/-! # Answers of a reader do not depend on the file position, nor on what it remembers -/

namespace Segpy

open Spec FileM

theorem values_pos (native : Endian) (p : Int) (t : SegYType) (n : Int) (e : Endian) (s : FileH) (k : Nat) :
    (readBinaryValues native p t n e { s with pos := k }).1 = (readBinaryValues native p t n e s).1 := by
  unfold readBinaryValues
  by_cases hp : p < 0
  · rw [bind_error (e := .valueError) (s' := { s with pos := k }), bind_error (e := .valueError) (s' := s)]
    · unfold seek; rw [if_pos hp]
    · unfold seek; rw [if_pos hp]
  · obtain ⟨q, rfl⟩ := Int.eq_ofNat_of_zero_le (not_lt.mp hp)
    rw [bind_ok (seek_apply q _), bind_ok (seek_apply q _)]

theorem header_pos (pk : HeaderPacker) (p : Int) (s : FileH) (k : Nat) :
    (readTraceHeader pk p { s with pos := k }).1 = (readTraceHeader pk p s).1 := by
  unfold readTraceHeader
  by_cases hp : p < 0
  · rw [bind_error (e := .valueError) (s' := { s with pos := k }), bind_error (e := .valueError) (s' := s)]
    · unfold seek; rw [if_pos hp]
    · unfold seek; rw [if_pos hp]
  · obtain ⟨q, rfl⟩ := Int.eq_ofNat_of_zero_le (not_lt.mp hp)
    rw [bind_ok (seek_apply q _), bind_ok (seek_apply q _)]

theorem traceSamples_pos (r : Reader) (native : Endian) (i : Int) (start stop : Option Int) (s : FileH) (k : Nat) :
    (r.traceSamples native i start stop { s with pos := k }).1 = (r.traceSamples native i start stop s).1 := by
  rw [traceSamples_eq, traceSamples_eq]
  split
  · exact values_pos _ _ _ _ _ _ _
  · rfl

theorem traceHeader_eq (r : Reader) (i : Int) (packer : Option HeaderPacker) (s : FileH) :
    r.traceHeader i packer s = match r.numTraces with
      | .error err => (.error err, s)
      | .ok n => if ¬ (0 ≤ i ∧ i < n) then (.error .valueError, s) else
        match r.trace_offset_catalog.get i with
        | .error err => (.error err, s)
        | .ok p => readTraceHeader (packer.getD r.trace_header_packer) p s := by
  unfold Reader.traceHeader
  cases hn : r.numTraces with
  | error err => rw [bind_error (lift_apply _ _)]
  | ok n =>
    rw [bind_ok (lift_apply _ _)]
    simp only
    split
    · rfl
    · cases hp : r.trace_offset_catalog.get i with
      | error err => rw [bind_error (lift_apply _ _)]
      | ok p => rw [bind_ok (lift_apply _ _)]

theorem traceHeader_pos (r : Reader) (i : Int) (packer : Option HeaderPacker) (s : FileH) (k : Nat) :
    (r.traceHeader i packer { s with pos := k }).1 = (r.traceHeader i packer s).1 := by
  rw [traceHeader_eq, traceHeader_eq]
  split
  · rfl
  · split
    · rfl
    · split
      · rfl
      · exact header_pos _ _ _ _

theorem answer_pos (r : Reader) (native : Endian) (c : Call) (s : FileH) (k : Nat) :
    (r.call native c { s with pos := k }).1 = (r.call native c s).1 := by
  cases c
  case traceSamples i start stop =>
    exact congrArg (Except.map Answer.samples) (traceSamples_pos r native i start stop s k)
  case traceHeader i packer =>
    exact congrArg (Except.map Answer.header) (traceHeader_pos r i packer s k)
  all_goals rfl

theorem call_file (r : Reader) (native : Endian) (c : Call) (s : FileH) :
    ∃ k, (r.call native c s).2.2 = { s with pos := k } := by
  cases c
  case traceSamples i start stop =>
    show ∃ k, (r.traceSamples native i start stop s).2 = _
    rw [traceSamples_eq]
    split
    · exact reads_values _ _ _ _ _ s
    · exact ⟨s.pos, rfl⟩
  case traceHeader i packer =>
    show ∃ k, (r.traceHeader i packer s).2 = _
    rw [traceHeader_eq]
    split
    · exact ⟨s.pos, rfl⟩
    · split
      · exact ⟨s.pos, rfl⟩
      · split
        · exact ⟨s.pos, rfl⟩
        · exact reads_traceHeader _ _ s
  case seekElsewhere pos => exact ⟨pos, rfl⟩
  all_goals exact ⟨s.pos, rfl⟩

/-- The two readers give the same answers. -/
structure Same (r r' : Reader) : Prop where
  endian : r'.endian = r.endian
  binary_format : r'.binary_reel_header.format = r.binary_reel_header.format
  binary : ∀ n, r'.binary_reel_header.get n = r.binary_reel_header.get n
  encoding : r'.encoding = r.encoding
  textual : r'.textual_reel_header = r.textual_reel_header
  extended : r'.extended_textual_headers = r.extended_textual_headers
  revision : r'.revision = r.revision
  bytes_per_sample : r'.bytes_per_sample = r.bytes_per_sample
  packer : r'.trace_header_packer = r.trace_header_packer
  offset : r'.trace_offset_catalog = r.trace_offset_catalog
  length : r'.trace_length_catalog = r.trace_length_catalog
  max : r'.maxNumTraceSamples.map Prod.fst = r.maxNumTraceSamples.map Prod.fst
  inline : r'.inlineNumbers.map Prod.fst = r.inlineNumbers.map Prod.fst
  xline : r'.xlineNumbers.map Prod.fst = r.xlineNumbers.map Prod.fst
  cdp : r'.cdpNumbers.map Prod.fst = r.cdpNumbers.map Prod.fst
  dim : r'.dimensionality = r.dimensionality
  pairs : r'.inlineXlineNumbers = r.inlineXlineNumbers
  has3 : ∀ k, r'.hasTraceIndex3 k = r.hasTraceIndex3 k
  index3 : ∀ k, r'.traceIndex3 k = r.traceIndex3 k
  cdps : r'.numCdps = r.numCdps
  has2 : ∀ k, r'.hasTraceIndex2 k = r.hasTraceIndex2 k
  index2 : ∀ k, r'.traceIndex2 k = r.traceIndex2 k

theorem Same.refl (r : Reader) : Same r r :=
  ⟨rfl, rfl, fun _ => rfl, rfl, rfl, rfl, rfl, rfl, rfl, rfl, rfl, rfl, rfl, rfl, rfl, rfl, rfl, fun _ => rfl, fun _ => rfl, rfl,
    fun _ => rfl, fun _ => rfl⟩

theorem Same.trans {r r' r'' : Reader} (h : Same r r') (h' : Same r' r'') : Same r r'' :=
  ⟨h'.endian.trans h.endian, h'.binary_format.trans h.binary_format, fun n => (h'.binary n).trans (h.binary n),
    h'.encoding.trans h.encoding, h'.textual.trans h.textual, h'.extended.trans h.extended, h'.revision.trans h.revision,
    h'.bytes_per_sample.trans h.bytes_per_sample, h'.packer.trans h.packer, h'.offset.trans h.offset,
    h'.length.trans h.length, h'.max.trans h.max, h'.inline.trans h.inline, h'.xline.trans h.xline, h'.cdp.trans h.cdp,
    h'.dim.trans h.dim, h'.pairs.trans h.pairs, fun k => (h'.has3 k).trans (h.has3 k),
    fun k => (h'.index3 k).trans (h.index3 k), h'.cdps.trans h.cdps, fun k => (h'.has2 k).trans (h.has2 k),
    fun k => (h'.index2 k).trans (h.index2 k)⟩

theorem remember_answer {α : Type} (r : Reader) (f : α → Answer) (x : Res (α × Reader)) :
    (remember r f x).1 = (x.map Prod.fst).map f := by
  cases x <;> rfl

theorem Same.call {r r' : Reader} (h : Same r r') (native : Endian) (c : Call) (s : FileH) :
    (r'.call native c s).1 = (r.call native c s).1 := by
  have hn : r'.numTraces = r.numTraces := by unfold Reader.numTraces; rw [h.offset]
  have hl : ∀ i, r'.numTraceSamples i = r.numTraceSamples i := by
    intro i; unfold Reader.numTraceSamples; rw [h.length]
  cases c
  case traceIndexes => exact congrArg (fun c : Catalog1 => c.keys.map Answer.ints) h.offset
  case numTraces => exact congrArg (Except.map Answer.int) hn
  case maxNumTraceSamples =>
    show (remember _ _ _).1 = (remember _ _ _).1
    rw [remember_answer, remember_answer, h.max]
  case numTraceSamples i => exact congrArg (Except.map Answer.int) (hl i)
  case traceSamples i start stop =>
    refine congrArg (Except.map Answer.samples) ?_
    have : r'.locateSamples i start stop = r.locateSamples i start stop := by
      unfold Reader.locateSamples Reader.dataSampleFormat
      rw [hn, hl, h.offset, h.binary]
    rw [traceSamples_eq, traceSamples_eq, this, h.endian]
  case traceHeader i packer =>
    refine congrArg (Except.map Answer.header) ?_
    rw [traceHeader_eq, traceHeader_eq, hn, h.offset, h.packer]
  case dimensionality => exact congrArg (Except.map Answer.int) h.dim
  case inlineNumbers =>
    show (remember _ _ _).1 = (remember _ _ _).1
    rw [remember_answer, remember_answer, h.inline]
  case xlineNumbers =>
    show (remember _ _ _).1 = (remember _ _ _).1
    rw [remember_answer, remember_answer, h.xline]
  case numInlines =>
    show (remember _ _ _).1 = (remember _ _ _).1
    rw [remember_answer, remember_answer, h.inline]
  case numXlines =>
    show (remember _ _ _).1 = (remember _ _ _).1
    rw [remember_answer, remember_answer, h.xline]
  case inlineXlineNumbers => exact congrArg (Except.map Answer.pairs) h.pairs
  case hasTraceIndex3 k => exact congrArg (Except.map Answer.bool) (h.has3 k)
  case traceIndex3 k => exact congrArg (Except.map Answer.int) (h.index3 k)
  case cdpNumbers =>
    show (remember _ _ _).1 = (remember _ _ _).1
    rw [remember_answer, remember_answer, h.cdp]
  case numCdps => exact congrArg (Except.map Answer.int) h.cdps
  case hasTraceIndex2 k => exact congrArg (Except.map Answer.bool) (h.has2 k)
  case traceIndex2 k => exact congrArg (Except.map Answer.int) (h.index2 k)
  case seekElsewhere _ => rfl

theorem max_answer (r r' : Reader) (h : r'.max_num_trace_samples = r.max_num_trace_samples)
    (hl : r'.trace_length_catalog = r.trace_length_catalog) :
    r'.maxNumTraceSamples.map Prod.fst = r.maxNumTraceSamples.map Prod.fst := by
  unfold Reader.maxNumTraceSamples
  rw [h, hl]
  cases r.max_num_trace_samples with
  | some m => rfl
  | none =>
    simp only [bind, Except.bind, pure, Except.pure]
    cases r.trace_length_catalog.keys with
    | error _ => rfl
    | ok keys =>
      simp only
      cases List.mapM r.trace_length_catalog.get keys <;> rfl

theorem inline_answer (r r' : Reader) (h : r'.kind = r.kind) :
    r'.inlineNumbers.map Prod.fst = r.inlineNumbers.map Prod.fst := by
  unfold Reader.inlineNumbers
  rw [h]
  cases r.kind with
  | plain => rfl
  | twoD _ _ => rfl
  | threeD line i j => cases line <;> cases i <;> rfl

theorem xline_answer (r r' : Reader) (h : r'.kind = r.kind) :
    r'.xlineNumbers.map Prod.fst = r.xlineNumbers.map Prod.fst := by
  unfold Reader.xlineNumbers
  rw [h]
  cases r.kind with
  | plain => rfl
  | twoD _ _ => rfl
  | threeD line i j => cases line <;> cases j <;> rfl

theorem cdp_answer (r r' : Reader) (h : r'.kind = r.kind) :
    r'.cdpNumbers.map Prod.fst = r.cdpNumbers.map Prod.fst := by
  unfold Reader.cdpNumbers
  rw [h]
  cases r.kind with
  | plain => rfl
  | threeD _ _ _ => rfl
  | twoD c n =>
    cases n with
    | some _ => rfl
    | none =>
      simp only [bind, Except.bind]
      cases c.keys with
      | error _ => rfl
      | ok keys =>
        simp only
        cases makeSortedDistinctSequence (.list keys) (some .ascending) <;> rfl

theorem max_same (r r' : Reader) (n : Int) (h : r.maxNumTraceSamples = .ok (n, r')) : Same r r' := by
  have h0 := h
  unfold Reader.maxNumTraceSamples at h
  cases hm : r.max_num_trace_samples with
  | some m => rw [hm] at h; cases h; exact Same.refl r
  | none =>
    rw [hm] at h
    have hr' : r' = { r with max_num_trace_samples := some n } := by
      simp only [bind, Except.bind] at h
      split at h
      · cases h
      split at h
      · cases h
      simp only [pure, Except.pure, Except.ok.injEq, Prod.mk.injEq] at h
      rw [← h.2, h.1]
    subst hr'
    refine ⟨rfl, rfl, fun _ => rfl, rfl, rfl, rfl, rfl, rfl, rfl, rfl, rfl, ?_, inline_answer _ _ rfl, xline_answer _ _ rfl, cdp_answer _ _ rfl, rfl, rfl,
      fun _ => rfl, fun _ => rfl, rfl, fun _ => rfl, fun _ => rfl⟩
    rw [h0]
    rfl

theorem inline_same (r r' : Reader) (i : PyIter) (h : r.inlineNumbers = .ok (i, r')) : Same r r' := by
  have h0 := h
  unfold Reader.inlineNumbers at h
  cases hk : r.kind with
  | plain => rw [hk] at h; cases h
  | twoD _ _ => rw [hk] at h; cases h
  | threeD line mi mj =>
    rw [hk] at h
    have hr' : r' = { r with kind := .threeD line (some i) mj } := by
      cases mi with
      | some i' => simp only [Except.ok.injEq, Prod.mk.injEq] at h; rw [← h.2, h.1]
      | none =>
        cases line with
        | some c => simp only [Except.ok.injEq, Prod.mk.injEq] at h; rw [← h.2, h.1]
        | none =>
          simp only [bind, Except.bind] at h
          split at h
          · cases h
          · simp only [pure, Except.pure, Except.ok.injEq, Prod.mk.injEq] at h; rw [← h.2, h.1]
    subst hr'
    refine ⟨rfl, rfl, fun _ => rfl, rfl, rfl, rfl, rfl, rfl, rfl, rfl, rfl, max_answer _ _ rfl rfl, ?_, ?_, ?_, ?_, ?_, fun _ => ?_, fun _ => ?_, ?_,
      fun _ => ?_, fun _ => ?_⟩
    · rw [h0]; cases line <;> rfl
    · unfold Reader.xlineNumbers; rw [hk]; cases line <;> cases mj <;> rfl
    · unfold Reader.cdpNumbers; rw [hk]
    · unfold Reader.dimensionality; rw [hk]
    · unfold Reader.inlineXlineNumbers; rw [hk]; cases line <;> rfl
    · unfold Reader.hasTraceIndex3; rw [hk]; cases line <;> rfl
    · unfold Reader.traceIndex3; rw [hk]; cases line <;> rfl
    · unfold Reader.numCdps; rw [hk]
    · unfold Reader.hasTraceIndex2; rw [hk]
    · unfold Reader.traceIndex2; rw [hk]

theorem xline_same (r r' : Reader) (j : PyIter) (h : r.xlineNumbers = .ok (j, r')) : Same r r' := by
  have h0 := h
  unfold Reader.xlineNumbers at h
  cases hk : r.kind with
  | plain => rw [hk] at h; cases h
  | twoD _ _ => rw [hk] at h; cases h
  | threeD line mi mj =>
    rw [hk] at h
    have hr' : r' = { r with kind := .threeD line mi (some j) } := by
      cases mj with
      | some i' => simp only [Except.ok.injEq, Prod.mk.injEq] at h; rw [← h.2, h.1]
      | none =>
        cases line with
        | some c => simp only [Except.ok.injEq, Prod.mk.injEq] at h; rw [← h.2, h.1]
        | none =>
          simp only [bind, Except.bind] at h
          split at h
          · cases h
          · simp only [pure, Except.pure, Except.ok.injEq, Prod.mk.injEq] at h; rw [← h.2, h.1]
    subst hr'
    refine ⟨rfl, rfl, fun _ => rfl, rfl, rfl, rfl, rfl, rfl, rfl, rfl, rfl, max_answer _ _ rfl rfl, ?_, ?_, ?_, ?_, ?_, fun _ => ?_, fun _ => ?_, ?_,
      fun _ => ?_, fun _ => ?_⟩
    · unfold Reader.inlineNumbers; rw [hk]; cases line <;> cases mi <;> rfl
    · rw [h0]; cases line <;> rfl
    · unfold Reader.cdpNumbers; rw [hk]
    · unfold Reader.dimensionality; rw [hk]
    · unfold Reader.inlineXlineNumbers; rw [hk]; cases line <;> rfl
    · unfold Reader.hasTraceIndex3; rw [hk]; cases line <;> rfl
    · unfold Reader.traceIndex3; rw [hk]; cases line <;> rfl
    · unfold Reader.numCdps; rw [hk]
    · unfold Reader.hasTraceIndex2; rw [hk]
    · unfold Reader.traceIndex2; rw [hk]

theorem cdp_same (r r' : Reader) (i : PyIter) (h : r.cdpNumbers = .ok (i, r')) : Same r r' := by
  have h0 := h
  unfold Reader.cdpNumbers at h
  cases hk : r.kind with
  | plain => rw [hk] at h; cases h
  | threeD _ _ _ => rw [hk] at h; cases h
  | twoD cat mn =>
    rw [hk] at h
    have hr' : r' = { r with kind := .twoD cat (some i) } := by
      cases mn with
      | some i' => simp only [Except.ok.injEq, Prod.mk.injEq] at h; rw [← h.2, h.1]
      | none =>
        simp only [bind, Except.bind] at h
        split at h
        · cases h
        split at h
        · cases h
        simp only [pure, Except.pure, Except.ok.injEq, Prod.mk.injEq] at h; rw [← h.2, h.1]
    subst hr'
    refine ⟨rfl, rfl, fun _ => rfl, rfl, rfl, rfl, rfl, rfl, rfl, rfl, rfl, max_answer _ _ rfl rfl, ?_, ?_, ?_, ?_, ?_, fun _ => ?_, fun _ => ?_, ?_,
      fun _ => ?_, fun _ => ?_⟩
    · unfold Reader.inlineNumbers; rw [hk]
    · unfold Reader.xlineNumbers; rw [hk]
    · rw [h0]; rfl
    · unfold Reader.dimensionality; rw [hk]
    · unfold Reader.inlineXlineNumbers; rw [hk]
    · unfold Reader.hasTraceIndex3; rw [hk]
    · unfold Reader.traceIndex3; rw [hk]
    · unfold Reader.numCdps; rw [hk]
    · unfold Reader.hasTraceIndex2; rw [hk]
    · unfold Reader.traceIndex2; rw [hk]

/-- The answers of a reader that has remembered something are those of the reader before. -/
theorem step_answer (r : Reader) (native : Endian) (c c' : Call) (s s' : FileH) :
    ((r.call native c s).2.1.call native c' s').1 = (r.call native c' s').1 := by
  have hrem : ∀ {α : Type} (x : Res (α × Reader)) (f : α → Answer), (∀ r' a, x = .ok (a, r') → Same r r') →
      ((remember r f x).2.call native c' s').1 = (r.call native c' s').1 := by
    intro α x f h
    cases x with
    | error err => rfl
    | ok y => exact (h y.2 y.1 rfl).call native c' s'
  cases c
  case maxNumTraceSamples => exact hrem _ _ (max_same r)
  case inlineNumbers => exact hrem _ _ (inline_same r)
  case xlineNumbers => exact hrem _ _ (xline_same r)
  case numInlines => exact hrem _ _ (inline_same r)
  case numXlines => exact hrem _ _ (xline_same r)
  case cdpNumbers => exact hrem _ _ (cdp_same r)
  all_goals rfl

end Segpy
