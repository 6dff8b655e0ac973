import Verif.Lemmas.Scan

/-!
# C43, C44, C54, C60: cataloguing the traces of a file

The theorems are about any open file: `s.data` are its bytes, `s.pos` its position.
-/

namespace Segpy.Props

open Spec

/-! ## C43 -/

/-- The default trace header format is one that files can be catalogued by. -/
theorem C43_rev1_cataloguable (e : Endian) : Cataloguable fmtTraceHeaderRev1 e := by
  have hm : (fmtTraceHeaderRev1, 240) ∈ shippedFormats := by decide +kernel
  obtain ⟨⟨p, hp, _⟩, _, _, h1, h2, h3, h4, _⟩ := C34_shipped_formats _ hm e
  refine ⟨⟨⟨p, hp⟩, h1, h2, h4, h3, by decide +kernel, ?_⟩, ?_⟩
  · have h : ["file_sequence_num", "ensemble_num", "num_samples", "inline_number", "crossline_number"].Pairwise
        fun a b => ∀ f ∈ fmtTraceHeaderRev1.attr a, ∀ g ∈ fmtTraceHeaderRev1.attr b, f.offset ≤ g.offset := by
      decide +kernel
    exact h.imp fun hab f g hf hg => hab f hf g hg
  · intro f hf v hv
    have : fmtTraceHeaderRev1.attr "num_samples" = some ⟨"num_samples", vtNNInt16, 115, 0⟩ := by decide +kernel
    rw [this] at hf
    injection hf with hf
    subst hf
    exact hv.1

/-- Traces lie end to end: the first begins at `pos`, and each of the others begins where the header and samples of the
one before end; all headers are complete and no further header fits in the file. -/
theorem C43_tiles (T : Format) (e : Endian) (data : Bytes) (bps pos : Nat) (starts : List Nat)
    (h : Traces T e data bps pos starts) :
    starts.head? = (if starts = [] then none else some pos) ∧
    (∀ i (hi : i + 1 < starts.length), starts[i + 1] = starts[i] + 240 + samplesAt T e data starts[i] * bps) ∧
    (∀ p ∈ starts, p + 240 ≤ data.length) ∧
    (starts = [] → data.length < pos + 240) ∧
    (∀ p, starts.getLast? = some p → data.length < p + 240 + samplesAt T e data p * bps + 240) := by
  obtain ⟨stop, hc, hend⟩ := h
  refine ⟨?_, ?_, fun p hp => (hc.le_stop.2 p hp).2.2.1, ?_, ?_⟩
  · cases hc <;> simp
  · clear hend
    induction hc with
    | nil => intro i hi; simp at hi
    | @cons p l stop hp _ hr ih =>
      intro i hi
      cases i with
      | zero =>
        cases hr with
        | nil => simp at hi
        | cons => rfl
      | succ i => exact ih i (by simpa using hi)
  · intro he; subst he; cases hc; exact hend
  · induction hc with
    | nil => intro p hp; simp at hp
    | @cons p l stop hp _ hr ih =>
      intro q hq
      cases hr with
      | nil =>
        simp only [List.getLast?_singleton, Option.some.injEq] at hq
        subst hq
        exact hend
      | cons a b c => exact ih hend q (by simpa using hq)

/-- A file whose traces all have complete and indexable headers is catalogued: the catalogs index exactly its traces,
numbered from 0 in the order of the file.  The file itself is not changed. -/
theorem C43_indexes (T : Format) (e : Endian) (hT : Cataloguable T e) (bps : Nat) (s : FileH) (starts : List Nat)
    (h : Traces T e s.data bps s.pos starts) (hne : starts ≠ []) :
    ∃ c k, catalogTraces bps T e s = (.ok c, { s with pos := k }) ∧
      Indexes T e s.data starts c.trace_offset c.trace_length c.cdp c.line := by
  obtain ⟨stop, hc, hend⟩ := h
  obtain ⟨S, q, hS, hq, hr⟩ := hT.packer
  have hlen := hc.length_le hne
  have hpos : 0 < starts.length := List.length_pos_iff.mpr hne
  have hk := (catalogLoop_ok hr hT (by omega) hc s rfl (s.data.length + 1) 0 {} (by omega)).1 hend
  obtain ⟨c, h1, h2, _⟩ := Scan.create_after T e s.data hne stop
  refine ⟨c, stop + (headerBytes s.data stop).length, ?_, h2⟩
  unfold catalogTraces
  rw [catalogTracesFuel_eq hS hq, FileM.bind_ok hk, FileM.lift_apply, h1]

/-- Every file either consists, from the position on, of traces with complete and indexable headers, or holds a complete
header that is not indexable after some of them; there is one way only to divide it into traces. -/
theorem C43_traces (T : Format) (e : Endian) (data : Bytes) (bps pos : Nat) :
    ((∃ starts, Traces T e data bps pos starts) ∨
      ∃ starts stop, TraceChain T e data bps pos starts stop ∧ stop + 240 ≤ data.length ∧ ¬ Indexable T e data stop) ∧
    (∀ a b, Traces T e data bps pos a → Traces T e data bps pos b → a = b) ∧
    (∀ a b stop, Traces T e data bps pos a → TraceChain T e data bps pos b stop → stop + 240 ≤ data.length →
      Indexable T e data stop) := by
  refine ⟨?_, ?_, ?_⟩
  · obtain ⟨starts, stop, h1, h2 | h2⟩ := chain_exists T e data bps pos
    · exact Or.inl ⟨starts, stop, h1, h2⟩
    · exact Or.inr ⟨starts, stop, h1, h2⟩
  · rintro a b ⟨s1, h1, e1⟩ ⟨s2, h2, e2⟩
    exact (chain_unique h1 h2 (Or.inl e1) (Or.inl e2)).1
  · rintro a b stop ⟨s1, h1, e1⟩ h2 e2
    by_contra hn
    have := (chain_unique h1 h2 (Or.inl e1) (Or.inr ⟨e2, hn⟩)).2
    omega

/-- In the second case, an inadmissible value in one of the five fields, `ValueError` is raised. -/
theorem C43_bad_header (T : Format) (e : Endian) (hT : Cataloguable T e) (bps : Nat) (s : FileH) (starts : List Nat)
    (stop : Nat) (h : TraceChain T e s.data bps s.pos starts stop) (hroom : stop + 240 ≤ s.data.length)
    (hbad : ¬ Indexable T e s.data stop) :
    ∃ k, catalogTraces bps T e s = (.error .valueError, { s with pos := k }) := by
  obtain ⟨S, q, hS, hq, hr⟩ := hT.packer
  have hlen : starts.length ≤ s.data.length := by
    by_cases hne : starts = []
    · subst hne; simp
    · have := h.length_le hne; omega
  have hk := (catalogLoop_ok hr hT (by omega) h s rfl (s.data.length + 1) 0 {} (by omega)).2 hroom hbad
  refine ⟨stop + (headerBytes s.data stop).length, ?_⟩
  unfold catalogTraces
  rw [catalogTracesFuel_eq hS hq, FileM.bind_error hk]

/-- Without any trace `RuntimeError` is raised, or `ZeroDivisionError` if the file is empty altogether. -/
theorem C43_no_traces (T : Format) (e : Endian) (hT : Cataloguable T e) (bps : Nat) (s : FileH)
    (h : Traces T e s.data bps s.pos []) :
    ∃ k, catalogTraces bps T e s =
      (.error (if s.data = [] then .zeroDivisionError else .runtimeError), { s with pos := k }) := by
  obtain ⟨stop, hc, hend⟩ := h
  obtain ⟨S, q, hS, hq, hr⟩ := hT.packer
  unfold catalogTraces
  rw [catalogTracesFuel_eq hS hq]
  by_cases h0 : s.data = []
  · refine ⟨s.pos, ?_⟩
    rw [if_pos h0]
    apply FileM.bind_error
    unfold catalogLoop
    apply FileM.bind_error
    rw [show s.data.length = 0 by rw [h0]; rfl]
    rfl
  · rw [if_neg h0]
    have hk := (catalogLoop_ok hr hT (by simpa using h0) hc s rfl (s.data.length + 1) 0 {} (by simp)).1 hend
    refine ⟨stop + (headerBytes s.data stop).length, ?_⟩
    rw [FileM.bind_ok hk, FileM.lift_apply]
    congr 1

/-- Cataloguing ends: the number of traces visited is bounded by the length of the file, whatever the bound on the number
of iterations that the model is given. -/
theorem C43_terminates (T : Format) (e : Endian) (hT : Cataloguable T e) (bps : Nat) (s : FileH) (fuel : Nat)
    (hf : s.data.length < fuel) :
    catalogTracesFuel fuel bps T e s = catalogTraces bps T e s ∧
      (catalogTraces bps T e s).1 ≠ .error .nonTermination := by
  obtain ⟨S, q, hS, hq, hr⟩ := hT.packer
  have key : ∀ fuel, s.data.length < fuel → catalogTracesFuel fuel bps T e s = catalogTraces bps T e s := by
    intro fuel hf
    unfold catalogTraces
    rw [catalogTracesFuel_eq hS hq, catalogTracesFuel_eq hS hq]
    by_cases h0 : s.data.length = 0
    · obtain ⟨f, rfl⟩ : ∃ f, fuel = f + 1 := ⟨fuel - 1, by omega⟩
      rw [FileM.bind_error (e := .zeroDivisionError) (s' := s), FileM.bind_error (e := .zeroDivisionError) (s' := s)]
      all_goals
        unfold catalogLoop
        apply FileM.bind_error
        rw [h0]
        rfl
    · obtain ⟨starts, stop, h1, h2⟩ := chain_exists T e s.data bps s.pos
      have hlen : starts.length ≤ s.data.length := by
        by_cases hne : starts = []
        · subst hne; simp
        · have := h1.length_le hne; omega
      obtain ⟨a1, a2⟩ := catalogLoop_ok hr hT h0 h1 s rfl fuel 0 {} (by omega)
      obtain ⟨b1, b2⟩ := catalogLoop_ok hr hT h0 h1 s rfl (s.data.length + 1) 0 {} (by omega)
      rcases h2 with h2 | ⟨h2, h3⟩
      · rw [FileM.bind_ok (a1 h2), FileM.bind_ok (b1 h2)]
      · rw [FileM.bind_error (a2 h2 h3), FileM.bind_error (b2 h2 h3)]
  refine ⟨key fuel hf, ?_⟩
  rcases (C43_traces T e s.data bps s.pos).1 with ⟨starts, h⟩ | ⟨starts, stop, h1, h2, h3⟩
  · by_cases hne : starts = []
    · subst hne
      obtain ⟨k, hk⟩ := C43_no_traces T e hT bps s h
      rw [hk]
      split <;> simp
    · obtain ⟨c, k, hk, _⟩ := C43_indexes T e hT bps s starts h hne
      rw [hk]; simp
  · obtain ⟨k, hk⟩ := C43_bad_header T e hT bps s starts stop h1 h2 h3
    rw [hk]; simp

/-- If the number of samples can be negative, cataloguing need not end: a trace header that gives a length of −240 bytes
for its samples is visited again and again, whatever the bound on the number of iterations. -/
theorem C43_may_not_terminate (T : Format) (e : Endian) (hT : CatalogLayout T e) (bps : Nat) (s : FileH)
    (hroom : s.pos + 240 ≤ s.data.length) (hi : Indexable T e s.data s.pos)
    (hneg : fieldAt T e s.data s.pos "num_samples" * bps = -240) (fuel : Nat) :
    (catalogTracesFuel fuel bps T e s).1 = .error .nonTermination := by
  obtain ⟨S, q, hS, hq, hr⟩ := hT.packer
  have key : ∀ (s' : FileH), s'.data = s.data → ∀ n scan,
      ∃ s'', catalogLoop q bps s.data.length fuel n s.pos scan s' = (.error .nonTermination, s'') := by
    induction fuel with
    | zero => intro s' _ n scan; exact ⟨s', rfl⟩
    | succ fuel ih =>
      intro s' hs' n scan
      have h := catalogLoop_step q T e hr bps s' (by rw [hs']; omega) fuel n s.pos scan (by rw [hs']; exact hroom)
        (by rw [hs']; exact hi)
      rw [hs', hneg, show (s.pos : Int) + 240 + -240 = s.pos by omega] at h
      rw [h]
      exact ih _ (by simp) _ _
  obtain ⟨s'', h⟩ := key s rfl 0 {}
  rw [catalogTracesFuel_eq hS hq, FileM.bind_error h]

section Example

instance (T : Format) (e : Endian) (data : Bytes) (pos : Nat) : Decidable (Indexable T e data pos) :=
  decidable_of_iff (∀ name ∈ ["file_sequence_num", "ensemble_num", "num_samples", "inline_number", "crossline_number"],
    ∀ f ∈ T.attr name, f.value_type.Admits (fieldAt T e data pos name)) Iff.rfl

/-- A big-endian trace header, blank but for the ensemble number, the number of samples and the inline number. -/
private def exampleHeader (ensemble samples inline : UInt8) : Bytes :=
  List.replicate 23 0 ++ [ensemble] ++ List.replicate 91 0 ++ [samples] ++ List.replicate 75 0 ++ [inline] ++
    List.replicate 48 0

/-- Ten bytes of something else, three traces and the beginning of a fourth. -/
private def exampleFile : FileH :=
  { data := List.replicate 10 7 ++ exampleHeader 1 2 5 ++ [1, 2, 3, 4] ++ exampleHeader 1 0 6 ++ exampleHeader 2 1 7 ++
      [5, 6] ++ List.replicate 239 0
    pos := 10 }

private theorem exampleChain : TraceChain fmtTraceHeaderRev1 .big exampleFile.data 2 10 [10, 254, 494] 736 := by
  have c1 : samplesAt fmtTraceHeaderRev1 .big exampleFile.data 10 = 2 := by decide +kernel
  have c2 : samplesAt fmtTraceHeaderRev1 .big exampleFile.data 254 = 0 := by decide +kernel
  have c3 : samplesAt fmtTraceHeaderRev1 .big exampleFile.data 494 = 1 := by decide +kernel
  refine .cons (by decide +kernel) (by decide +kernel) ?_
  rw [c1]
  refine .cons (by decide +kernel) (by decide +kernel) ?_
  rw [c2]
  refine .cons (by decide +kernel) (by decide +kernel) ?_
  rw [c3]
  exact .nil _

private theorem exampleTraces : Traces fmtTraceHeaderRev1 .big exampleFile.data 2 10 [10, 254, 494] :=
  ⟨736, exampleChain, by decide +kernel⟩

-- the hypotheses of `C43_indexes`; two traces share their ensemble number, so that there is no CDP catalog
example : ∃ c k, catalogTraces 2 fmtTraceHeaderRev1 .big exampleFile = (.ok c, { exampleFile with pos := k }) ∧
    Indexes fmtTraceHeaderRev1 .big exampleFile.data [10, 254, 494] c.trace_offset c.trace_length c.cdp c.line :=
  C43_indexes _ _ (C43_rev1_cataloguable _) 2 exampleFile _ exampleTraces (by simp)

example : ((catalogTraces 2 fmtTraceHeaderRev1 .big exampleFile).1.map fun c =>
    (c.trace_offset.map fun o => o.get 2, c.cdp.isSome, c.line.map fun l => l.get (6, 0))) =
    .ok (some (.ok 494), false, some (.ok 1)) := by
  decide +kernel

-- `C43_bad_header`: a header whose sample count has its high bit set after one complete trace
example : ∃ k, catalogTraces 2 fmtTraceHeaderRev1 .big
    { data := exampleHeader 1 2 5 ++ [1, 2, 3, 4] ++ (List.replicate 114 0 ++ [128] ++ List.replicate 125 0), pos := 0 } =
    (.error .valueError, { data := exampleHeader 1 2 5 ++ [1, 2, 3, 4] ++
      (List.replicate 114 0 ++ [128] ++ List.replicate 125 0), pos := k }) := by
  refine C43_bad_header _ _ (C43_rev1_cataloguable _) 2 _ [0] 244 ?_ (by decide +kernel) (by decide +kernel)
  refine .cons (by decide +kernel) (by decide +kernel) ?_
  exact .nil _

/-- The default format with a signed number of samples. -/
private def signedFormat : Format :=
  fmtTraceHeaderRev1 ++ [⟨"Signed", [⟨"num_samples", vtInt16, 115, 0⟩], none, none⟩]

-- `C43_may_not_terminate`: a format in which the number of samples is signed, and −120 samples of 2 bytes
example (fuel : Nat) : (catalogTracesFuel fuel 2 signedFormat .big
    { data := List.replicate 114 0 ++ [0xFF, 0x88] ++ List.replicate 124 0, pos := 0 }).1 = .error .nonTermination := by
  refine C43_may_not_terminate _ _ ⟨?_, by decide +kernel, by decide +kernel, by decide +kernel, by decide +kernel,
    by decide +kernel, ?_⟩ 2 _ (by decide +kernel) (by decide +kernel) (by decide +kernel) fuel
  · have h : ((makeHeaderPacker signedFormat .big).map fun p => p.structure_.size) = .ok 240 := by decide +kernel
    cases hp : makeHeaderPacker signedFormat .big with
    | ok p => exact ⟨p, rfl⟩
    | error err => rw [hp] at h; simp [Except.map] at h
  · have h : ["file_sequence_num", "ensemble_num", "num_samples", "inline_number", "crossline_number"].Pairwise
        fun a b => ∀ f ∈ signedFormat.attr a, ∀ g ∈ signedFormat.attr b, f.offset ≤ g.offset := by
      decide +kernel
    exact h.imp fun hab f g hf hg => hab f hf g hg

end Example

/-! ## C44 -/

/-- Progress is not always between zero and one, nor non-decreasing: whenever cataloguing succeeds, values greater than
one have been reported, and after them the final 1. -/
theorem C44_exceeds_one (T : Format) (e : Endian) (bps : Nat) (s s' : FileH) (c : Catalogs)
    (h : catalogTraces bps T e s = (.ok c, s')) :
    (∃ x ∈ c.progress, 1 < x) ∧ ¬ c.progress.Pairwise (· ≤ ·) := by
  obtain ⟨l, hl⟩ : ∃ l, c.progress = l ++ [3 / 4, 15 / 16, 9 / 8, 21 / 16, 1] := by
    unfold catalogTraces catalogTracesFuel at h
    simp only [FileM.bind_apply, FileM.lift_apply, fileLength, FileM.tell_apply] at h
    split at h <;> first | (simp at h; done) | skip
    split at h <;> first | (simp at h; done) | skip
    split at h <;> first | (simp at h; done) | skip
    rename_i scan _ _
    unfold Scan.create at h
    simp only [bind, Except.bind, pure, Except.pure] at h
    split at h <;> first | (simp at h; done) | skip
    split at h <;> first | (simp at h; done) | skip
    split at h <;> first | (simp at h; done) | skip
    split at h <;> first | (simp at h; done) | skip
    simp only [Prod.mk.injEq, Except.ok.injEq] at h
    refine ⟨scan.progress, ?_⟩
    rw [← h.1]
    norm_num
  rw [hl]
  refine ⟨⟨9 / 8, by simp, by norm_num⟩, ?_⟩
  rw [List.pairwise_append]
  rintro ⟨_, h, _⟩
  norm_num at h

private theorem progress_mono {a b : Nat} (h : a ≤ b) (n : Nat) :
    round64 (round64 (3 / 4 * round64 (a : Int)) / round64 n) ≤ round64 (round64 (3 / 4 * round64 (b : Int)) / round64 n) := by
  have hn : 0 ≤ round64 (n : ℚ) := (roundTo_sign _ _ _).1 (by positivity)
  apply roundTo_mono (by norm_num)
  apply div_le_div_of_nonneg_right _ hn
  apply roundTo_mono (by norm_num)
  apply mul_le_mul_of_nonneg_left _ (by norm_num)
  apply roundTo_mono (by norm_num)
  exact_mod_cast h

/-- The full claim would be that all values are between 0 and 1 and non-decreasing, and the last is 1.  What holds: the
last value is 1, and the values reported while the file is being read, that is all but the last five, are non-decreasing
from 0 or more, and at most 1 if the last trace is complete. -/
theorem C44_reading_partial (T : Format) (e : Endian) (hT : Cataloguable T e) (bps : Nat) (s : FileH) (starts : List Nat)
    (stop : Nat) (hc : TraceChain T e s.data bps s.pos starts stop) (hend : s.data.length < stop + 240)
    (hne : starts ≠ []) :
    ∃ c k l, catalogTraces bps T e s = (.ok c, { s with pos := k }) ∧
      c.progress = l ++ [3 / 4, 15 / 16, 9 / 8, 21 / 16, 1] ∧ l.length = starts.length + 1 ∧
      l.Pairwise (· ≤ ·) ∧ (∀ x ∈ l, 0 ≤ x) ∧ (stop ≤ s.data.length → ∀ x ∈ l, x ≤ 1) := by
  obtain ⟨S, q, hS, hq, hr⟩ := hT.packer
  have hlen := hc.length_le hne
  have hpos : 0 < starts.length := List.length_pos_iff.mpr hne
  have hk := (catalogLoop_ok hr hT (by omega) hc s rfl (s.data.length + 1) 0 {} (by omega)).1 hend
  obtain ⟨c, h1, hix, h2⟩ := Scan.create_after T e s.data hne stop
  refine ⟨c, stop + (headerBytes s.data stop).length, _, ?_, h2, by simp, ?_, ?_, ?_⟩
  · unfold catalogTraces
    rw [catalogTracesFuel_eq hS hq, FileM.bind_ok hk, FileM.lift_apply, h1]
  · have hsorted : (starts ++ [stop]).Pairwise (· ≤ ·) := by
      clear hend hne hlen hpos hk h1 h2 hix
      generalize s.pos = pos at hc
      induction hc with
      | nil => simp
      | @cons p l stop hp _ hr ih =>
        rw [List.cons_append, List.pairwise_cons]
        refine ⟨?_, ih⟩
        have hb := hr.le_stop
        intro a ha
        rcases List.mem_append.mp ha with ha | ha
        · have := (hb.2 a ha).1; omega
        · rw [List.mem_singleton] at ha; omega
    rw [List.pairwise_map]
    exact hsorted.imp fun h => progress_mono h _
  · intro x hx
    obtain ⟨p, _, rfl⟩ := List.mem_map.mp hx
    refine (roundTo_sign _ _ _).1 (div_nonneg ((roundTo_sign _ _ _).1 (mul_nonneg (by norm_num) ?_))
      ((roundTo_sign _ _ _).1 (by positivity)))
    exact (roundTo_sign _ _ _).1 (by positivity)
  · intro hstop x hx
    obtain ⟨p, hp, rfl⟩ := List.mem_map.mp hx
    have hple : p ≤ s.data.length := by
      rcases List.mem_append.mp hp with hp | hp
      · have := (hc.le_stop.2 p hp).2.2.1; omega
      · rw [List.mem_singleton] at hp; omega
    refine (progress_mono hple _).trans ?_
    rw [Int.cast_natCast]
    have h0 : (0 : ℚ) ≤ round64 (s.data.length : ℚ) := (roundTo_sign _ _ _).1 (by positivity)
    have hr : round64 (round64 (s.data.length : ℚ)) = round64 (s.data.length : ℚ) :=
      roundTo_of_representable (roundTo_representable (by norm_num) _ _)
    have h3 : round64 (3 / 4 * round64 (s.data.length : ℚ)) ≤ round64 (s.data.length : ℚ) := by
      conv_rhs => rw [← hr]
      apply roundTo_mono (by norm_num)
      generalize round64 (s.data.length : ℚ) = a at h0
      linarith
    have h4 : round64 1 = 1 := by decide +kernel
    conv_rhs => rw [← h4]
    apply roundTo_mono (by norm_num)
    exact div_le_one_of_le₀ h3 h0

-- the hypotheses of `C44_reading_partial`
example : ∃ c k l, catalogTraces 2 fmtTraceHeaderRev1 .big exampleFile = (.ok c, { exampleFile with pos := k }) ∧
    c.progress = l ++ [3 / 4, 15 / 16, 9 / 8, 21 / 16, 1] ∧ l.length = 4 ∧
    l.Pairwise (· ≤ ·) ∧ (∀ x ∈ l, 0 ≤ x) ∧ (736 ≤ exampleFile.data.length → ∀ x ∈ l, x ≤ 1) :=
  C44_reading_partial _ _ (C43_rev1_cataloguable _) 2 exampleFile [10, 254, 494] 736 exampleChain (by decide +kernel)
    (by simp)

-- a file that ends within its only trace, of 255 samples: progress exceeds 1 in the reading phase too
example : ((catalogTraces 2 fmtTraceHeaderRev1 .big { data := exampleHeader 1 255 5, pos := 0 }).1.map fun c =>
    c.progress.map fun x => decide (x ≤ 1)) = .ok [true, false, true, true, false, false, true] := by
  decide +kernel

/-! ## C54 -/

/-- The full claim would be that `EOFError` is raised exactly when fewer than 240 bytes remain, and `ValueError` for a
complete header with an inadmissible field.  What holds: a header is returned exactly when 240 bytes remain and all their
fields are admissible, holding what the bytes say; otherwise `EOFError` is raised, in both cases alike. -/
theorem C54_read_header_partial (T : Format) (e : Endian) (p : HeaderPacker) (hp : makeHeaderPacker T e = .ok p)
    (hstart : T.AfterStart) (horder : T.OrderSafe) (hlen : T.lengthInBytes = some 240) (pos : Nat) (s : FileH) :
    (∃ h, readTraceHeader p pos s = (.ok h, { s with pos := pos + 240 }) ∧ pos + 240 ≤ s.data.length ∧ h.format = T ∧
      ∀ f ∈ T.fields, f.value_type.Admits (storedInt e f.value_type.segy (T.fieldBytes f (headerBytes s.data pos))) ∧
        h.get f.name = .ok (storedInt e f.value_type.segy (T.fieldBytes f (headerBytes s.data pos)))) ∨
    (∃ k, readTraceHeader p pos s = (.error .eofError, { s with pos := k }) ∧
      (s.data.length < pos + 240 ∨ ∃ f ∈ T.fields,
        ¬ f.value_type.Admits (storedInt e f.value_type.segy (T.fieldBytes f (headerBytes s.data pos))))) := by
  have hl : T.packedLength (headerBytes s.data pos).length ↔ pos + 240 ≤ s.data.length := by
    unfold Format.packedLength headerBytes
    rw [hlen, List.length_take, List.length_drop]
    simp only
    omega
  unfold readTraceHeader
  simp only [FileM.bind_apply, FileM.seek_apply, FileM.read_apply, TRACE_HEADER_NUM_BYTES]
  rcases C29_unpack T e p (headerBytes s.data pos) hp hstart horder with ⟨h, h1, h2, h3, h4⟩ | ⟨h1, h2⟩
  · left
    rw [hl] at h3
    refine ⟨h, ?_, h3, h2, h4⟩
    unfold headerBytes at h1
    rw [h1, List.length_take, List.length_drop, Nat.min_eq_left (by omega)]
    rfl
  · right
    unfold headerBytes at h1
    rw [h1]
    refine ⟨_, rfl, ?_⟩
    rw [hl] at h2
    rcases h2 with h2 | h2
    · exact Or.inl (by omega)
    · exact Or.inr h2

/-- A complete trace header with an inadmissible field is reported as a truncated one: `EOFError`, although 240 bytes were
read. A header of zeros only is one. -/
theorem C54_zeros_reported_as_truncated (e : Endian) (p : HeaderPacker)
    (hp : makeHeaderPacker fmtTraceHeaderRev1 e = .ok p) (pre post : Bytes) (s : FileH)
    (hs : s.data = pre ++ List.replicate 240 0 ++ post) :
    ∃ k, readTraceHeader p pre.length s = (.error .eofError, { s with pos := k }) := by
  have hm : (fmtTraceHeaderRev1, 240) ∈ shippedFormats := by decide +kernel
  obtain ⟨_, h1, _, h2, _, h3, _, _⟩ := C34_shipped_formats _ hm e
  have hb : headerBytes s.data pre.length = List.replicate 240 0 := by
    unfold headerBytes
    rw [hs, List.append_assoc, List.drop_left, List.take_left' List.length_replicate]
  rcases C54_read_header_partial fmtTraceHeaderRev1 e p hp h2 (Or.inl h1) h3 pre.length s with ⟨h, _, _, _, h4⟩ | ⟨k, h4, _⟩
  · exfalso
    rw [hb] at h4
    have : ∃ f ∈ fmtTraceHeaderRev1.fields, ∀ e ∈ [Endian.big, Endian.little],
      ¬ f.value_type.Admits (storedInt e f.value_type.segy (fmtTraceHeaderRev1.fieldBytes f (List.replicate 240 0))) := by
      decide +kernel
    obtain ⟨f, hf, hn⟩ := this
    exact hn e (by cases e <;> simp) (h4 f hf).1
  · exact ⟨k, h4⟩

/-! ## C60 -/

/-- With the trace header format of revision 0 no file can be catalogued, and hence none opened: it lacks the line numbers,
and `AttributeError` is raised. -/
theorem C60_rev0_fails (bps : Nat) (e : Endian) (s : FileH) :
    catalogTraces bps fmtTraceHeaderRev0 e s = (.error .attributeError, s) := by
  unfold catalogTraces catalogTracesFuel
  apply FileM.bind_error
  rw [FileM.lift_apply]
  congr 1

end Segpy.Props
