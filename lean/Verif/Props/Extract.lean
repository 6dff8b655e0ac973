import Verif.Lemmas.Extract3
import Verif.Lemmas.ExampleFile

/-! # Extracting arrays from three-dimensional readers: C64 -/

namespace Segpy.Props

open Segpy Spec FileM

/-! ## C64 sections and time slices -/

/-- Extracting an inline section.  An inline number of no trace is refused with `ValueError`.  Otherwise, for any
selection of crosslines and samples, the rows of the array belong to the selected crosslines and its columns to the
selected samples, both in increasing order, and each element is the sample of the trace with these line numbers, or null
if there is no such trace.
Partial: the traces must have all the samples asked for (see `C64_short_trace_fails`), and selections that are refused by
mistake are left out (`Chooses`; see C58). -/
theorem C64_inline_partial (T : Format) (e : Endian) (hT : Cataloguable T e) (encoding : Option Encoding) (B : Format)
    (dim : Option Int) (s s' : FileH) (r : Reader) (progress : List ℚ)
    (h : createReader encoding B T e dim s = (.ok (r, progress), s')) (h3 : r.dimensionality = .ok 3) :
    ∃ t starts, Describes T e s.data t starts r ∧
      Traces T e s.data t.size (3600 + 3200 * r.extended_textual_headers.length) starts ∧
      ((linePairs T e s.data starts).Nodup →
        (∀ native inl xsel ssel null pos, inl ∉ (linePairs T e s.data starts).map Prod.fst →
          (extractInline3d r native inl xsel ssel null { s with pos := pos }).1 = .error .valueError) ∧
        ∀ native inl xsel ssel null pos m xlines X S, inl ∈ (linePairs T e s.data starts).map Prod.fst →
          Arranges ((linePairs T e s.data starts).map Prod.snd) xlines → Chooses xlines xsel X →
          MostSamples T e s.data starts m → Chooses (sampleNumbers m) ssel S →
          (∀ p ∈ starts, ∀ x ∈ X, linesAt T e s.data p = (inl, x) → Whole T e s.data t p ∧
            ∀ n ∈ S, n < fieldAt T e s.data p "num_samples") →
          ∃ rows k, extractInline3d r native inl xsel ssel null { s with pos := pos } = (.ok rows, { s with pos := k }) ∧
            Tabulates X S (fun x n c => CellOf T e s.data t starts null (inl, x) n c) rows) := by
  obtain ⟨t, starts, g1, g2, -, g3, -⟩ := createReader_sectioned hT h
  refine ⟨t, starts, g1, g2, fun hn => ?_⟩
  have hs := g3 h3 hn
  obtain ⟨is, ri, i1, i2⟩ := hs.finds.inlines
  have ic := hs.inline_canonical _ _ i1
  constructor
  · intro native inl xsel ssel null pos hnot
    unfold extractInline3d
    have hb : is.contains inl = .ok false := by
      rw [ic.contains, decide_eq_false (fun hh => hnot ((i2.2 _).mp hh))]
    rw [i1]
    simp only [bind, FileM.bind, FileM.lift, hb]
    rfl
  · intro native inl xsel ssel null pos m xlines X S hin hx hX hm hS hw
    obtain ⟨xs, rx, x1, x2⟩ := hs.finds.xlines
    obtain ⟨xo, xo1, xo2⟩ := lines_ensure (hs.xline_canonical _ _ x1) x2 hx hX
    obtain ⟨r', so, s1, s2, s3, s4, s5⟩ := samples_ensure hs.toReadable hm hS
    obtain ⟨d, hd⟩ := makeDtype_of_format g1.data_sample_format
    have hb : is.contains inl = .ok true := by
      rw [ic.contains, decide_eq_true ((i2.2 _).mpr hin)]
    obtain ⟨rows, hr1, hr2⟩ := FileM.Yields.mapM (s := s)
      (f := fun x => sectionRow r native (inl, x) so d null)
      (P := fun x row => List.Forall₂ (fun n c => CellOf T e s.data t starts null (inl, x) n c) S row) xo.toList
      (fun x hx' => by
        obtain ⟨row, w1, w2⟩ := hs.row native (inl, x) s4 s5 hd null (fun p hp hpk => by
          rw [s3]
          exact hw p hp x (by rw [← xo2]; exact hx') hpk)
        rw [s3] at w2
        exact ⟨row, w1, w2⟩)
    have hy : (extractInline3d r native inl xsel ssel null).Yields s rows := by
      unfold extractInline3d
      refine (FileM.Yields.lift i1).bind ((FileM.Yields.lift hb).bind ?_)
      simp only [not_true_eq_false, if_false]
      refine (FileM.Yields.lift x1).bind ((FileM.Yields.lift xo1).bind ((FileM.Yields.lift s1).bind
        ((FileM.Yields.lift s2).bind ((FileM.Yields.lift (a := d) ?_).bind hr1))))
      rw [g1.data_sample_format]
      exact hd
    obtain ⟨k, hk⟩ := hy pos
    rw [xo2] at hr2
    exact ⟨rows, k, hk, hr2⟩

/-- Extracting a crossline section, in the same way: the rows belong to the selected inlines. -/
theorem C64_xline_partial (T : Format) (e : Endian) (hT : Cataloguable T e) (encoding : Option Encoding) (B : Format)
    (dim : Option Int) (s s' : FileH) (r : Reader) (progress : List ℚ)
    (h : createReader encoding B T e dim s = (.ok (r, progress), s')) (h3 : r.dimensionality = .ok 3) :
    ∃ t starts, Describes T e s.data t starts r ∧
      Traces T e s.data t.size (3600 + 3200 * r.extended_textual_headers.length) starts ∧
      ((linePairs T e s.data starts).Nodup →
        (∀ native xl isel ssel null pos, xl ∉ (linePairs T e s.data starts).map Prod.snd →
          (extractXline3d r native xl isel ssel null { s with pos := pos }).1 = .error .valueError) ∧
        ∀ native xl isel ssel null pos m inlines X S, xl ∈ (linePairs T e s.data starts).map Prod.snd →
          Arranges ((linePairs T e s.data starts).map Prod.fst) inlines → Chooses inlines isel X →
          MostSamples T e s.data starts m → Chooses (sampleNumbers m) ssel S →
          (∀ p ∈ starts, ∀ x ∈ X, linesAt T e s.data p = (x, xl) → Whole T e s.data t p ∧
            ∀ n ∈ S, n < fieldAt T e s.data p "num_samples") →
          ∃ rows k, extractXline3d r native xl isel ssel null { s with pos := pos } = (.ok rows, { s with pos := k }) ∧
            Tabulates X S (fun x n c => CellOf T e s.data t starts null (x, xl) n c) rows) := by
  obtain ⟨t, starts, g1, g2, -, g3, -⟩ := createReader_sectioned hT h
  refine ⟨t, starts, g1, g2, fun hn => ?_⟩
  have hs := g3 h3 hn
  obtain ⟨xs, rx, x1, x2⟩ := hs.finds.xlines
  have xc := hs.xline_canonical _ _ x1
  constructor
  · intro native xl isel ssel null pos hnot
    unfold extractXline3d
    have hb : xs.contains xl = .ok false := by
      rw [xc.contains, decide_eq_false (fun hh => hnot ((x2.2 _).mp hh))]
    rw [x1]
    simp only [bind, FileM.bind, FileM.lift, hb]
    rfl
  · intro native xl isel ssel null pos m inlines X S hin hx hX hm hS hw
    obtain ⟨is, ri, i1, i2⟩ := hs.finds.inlines
    obtain ⟨xo, xo1, xo2⟩ := lines_ensure (hs.inline_canonical _ _ i1) i2 hx hX
    obtain ⟨r', so, s1, s2, s3, s4, s5⟩ := samples_ensure hs.toReadable hm hS
    obtain ⟨d, hd⟩ := makeDtype_of_format g1.data_sample_format
    have hb : xs.contains xl = .ok true := by
      rw [xc.contains, decide_eq_true ((x2.2 _).mpr hin)]
    obtain ⟨rows, hr1, hr2⟩ := FileM.Yields.mapM (s := s)
      (f := fun x => sectionRow r native (x, xl) so d null)
      (P := fun x row => List.Forall₂ (fun n c => CellOf T e s.data t starts null (x, xl) n c) S row) xo.toList
      (fun x hx' => by
        obtain ⟨row, w1, w2⟩ := hs.row native (x, xl) s4 s5 hd null (fun p hp hpk => by
          rw [s3]
          exact hw p hp x (by rw [← xo2]; exact hx') hpk)
        rw [s3] at w2
        exact ⟨row, w1, w2⟩)
    have hy : (extractXline3d r native xl isel ssel null).Yields s rows := by
      unfold extractXline3d
      refine (FileM.Yields.lift x1).bind ((FileM.Yields.lift hb).bind ?_)
      simp only [not_true_eq_false, if_false]
      refine (FileM.Yields.lift i1).bind ((FileM.Yields.lift xo1).bind ((FileM.Yields.lift s1).bind
        ((FileM.Yields.lift s2).bind ((FileM.Yields.lift (a := d) ?_).bind hr1))))
      rw [g1.data_sample_format]
      exact hd
    obtain ⟨k, hk⟩ := hy pos
    rw [xo2] at hr2
    exact ⟨rows, k, hk, hr2⟩

/-- Extracting a time slice: the rows belong to the selected inlines and the columns to the selected crosslines. -/
theorem C64_timeslice_partial (T : Format) (e : Endian) (hT : Cataloguable T e) (encoding : Option Encoding) (B : Format)
    (dim : Option Int) (s s' : FileH) (r : Reader) (progress : List ℚ)
    (h : createReader encoding B T e dim s = (.ok (r, progress), s')) (h3 : r.dimensionality = .ok 3) :
    ∃ t starts, Describes T e s.data t starts r ∧
      Traces T e s.data t.size (3600 + 3200 * r.extended_textual_headers.length) starts ∧
      ((linePairs T e s.data starts).Nodup →
        ∀ native (n : Nat) isel xsel null pos inlines xlines I X,
          Arranges ((linePairs T e s.data starts).map Prod.fst) inlines → Chooses inlines isel I →
          Arranges ((linePairs T e s.data starts).map Prod.snd) xlines → Chooses xlines xsel X →
          (∀ p ∈ starts, ∀ i ∈ I, ∀ x ∈ X, linesAt T e s.data p = (i, x) → Whole T e s.data t p ∧
            (n : Int) < fieldAt T e s.data p "num_samples") →
          ∃ rows k, extractTimeslice3d r native n isel xsel null { s with pos := pos } = (.ok rows, { s with pos := k }) ∧
            Tabulates I X (fun i x c => CellOf T e s.data t starts null (i, x) n c) rows) := by
  obtain ⟨t, starts, g1, g2, -, g3, -⟩ := createReader_sectioned hT h
  refine ⟨t, starts, g1, g2, fun hn => ?_⟩
  have hs := g3 h3 hn
  intro native n isel xsel null pos inlines xlines I X hi hI hx hX hw
  obtain ⟨is, ri, i1, i2⟩ := hs.finds.inlines
  obtain ⟨io, io1, io2⟩ := lines_ensure (hs.inline_canonical _ _ i1) i2 hi hI
  obtain ⟨xs, rx, x1, x2⟩ := hs.finds.xlines
  obtain ⟨xo, xo1, xo2⟩ := lines_ensure (hs.xline_canonical _ _ x1) x2 hx hX
  obtain ⟨d, hd⟩ := makeDtype_of_format g1.data_sample_format
  obtain ⟨rows, hr1, hr2⟩ := FileM.Yields.mapM (s := s)
    (f := fun i => xo.toList.mapM fun x => timesliceCell r native (i, x) n d null)
    (P := fun i row => List.Forall₂ (fun x c => CellOf T e s.data t starts null (i, x) n c) X row) io.toList
    (fun i hi' => by
      have := FileM.Yields.mapM (s := s) (f := fun x => timesliceCell r native (i, x) n d null)
        (P := fun x c => CellOf T e s.data t starts null (i, x) n c) xo.toList (fun x hx' =>
          hs.cell native (i, x) n hd null (fun p hp hpk =>
            hw p hp i (by rw [← io2]; exact hi') x (by rw [← xo2]; exact hx') hpk))
      obtain ⟨row, w1, w2⟩ := this
      rw [xo2] at w2
      exact ⟨row, w1, w2⟩)
  have hy : (extractTimeslice3d r native n isel xsel null).Yields s rows := by
    unfold extractTimeslice3d
    refine (FileM.Yields.lift i1).bind ((FileM.Yields.lift io1).bind ((FileM.Yields.lift x1).bind
      ((FileM.Yields.lift xo1).bind ((FileM.Yields.lift (a := d) ?_).bind hr1))))
    rw [g1.data_sample_format]
    exact hd
  obtain ⟨k, hk⟩ := hy pos
  rw [io2] at hr2
  exact ⟨rows, k, hk, hr2⟩

/-- Which elements IBM floats become: from `2^-126` on and below `2^128`, and for zero, the number is kept exactly. -/
theorem C64_ibm_exact (e : Endian) (a b c d : UInt8) (x : Scalar) (h : ElementOf e .ibm [a, b, c, d] x)
    (hr : ibmValue a b c d = 0 ∨ (2 : ℚ) ^ (-126 : Int) ≤ |ibmValue a b c d| ∧ |ibmValue a b c d| < (2 : ℚ) ^ (128 : Int)) :
    x = .float (.fin (ibmValue a b c d)) := by
  obtain ⟨a', b', c', d', heq, hx⟩ := h
  obtain ⟨rfl, rfl, rfl, rfl⟩ : a = a' ∧ b = b' ∧ c = c' ∧ d = d' := by simpa using heq
  have hf : IsFloat32 (ibmValue a b c d) := by
    rcases hr with h0 | ⟨h1, h2⟩
    · rw [h0]
      exact ⟨⟨0, 0, by simp, by norm_num, by norm_num⟩, by rw [abs_zero]; positivity⟩
    refine ⟨?_, h2⟩
    have hm : ibmMantissa b c d < 2 ^ 24 := by
      unfold ibmMantissa
      have := b.toNat_lt; have := c.toNat_lt; have := d.toNat_lt
      omega
    unfold ibmValue at h1 h2 ⊢
    generalize ibmMantissa b c d = f at hm h1 h2
    generalize hq : ((a.toNat % 128 : Nat) : Int) = q at h1 h2
    have hv : ((f : ℚ) / 2 ^ 24) * (16 : ℚ) ^ (q - 64) = (f : ℚ) * 2 ^ (4 * q - 280) := by
      rw [show (16 : ℚ) = 2 ^ (4 : Int) by norm_num, ← zpow_mul, show 4 * q - 280 = 4 * (q - 64) + (-24) by ring,
        zpow_add₀ (by norm_num)]
      rw [show (2 : ℚ) ^ (-24 : Int) = 1 / 2 ^ 24 by norm_num]
      ring
    have habs : ∀ sg : ℚ, |sg| = 1 → |sg * ((f : ℚ) / 2 ^ 24) * (16 : ℚ) ^ (q - 64)| = (f : ℚ) * 2 ^ (4 * q - 280) := by
      intro sg hsg
      rw [mul_assoc, hv, abs_mul, hsg, one_mul, abs_of_nonneg (by positivity)]
    have hsg : ∃ si : Int, |si| = 1 ∧ (if a.toNat < 128 then (1 : ℚ) else -1) = si := by
      split
      · exact ⟨1, by norm_num, by norm_num⟩
      · exact ⟨-1, by norm_num, by norm_num⟩
    obtain ⟨si, hs1, hs2⟩ := hsg
    rw [hs2] at h1 h2 ⊢
    have hs3 : |(si : ℚ)| = 1 := by exact_mod_cast hs1
    rw [habs _ hs3] at h1 h2
    have hfq : (f : ℚ) < 2 ^ (24 : Int) := by
      have : (f : ℚ) < ((2 ^ 24 : Nat) : ℚ) := by exact_mod_cast hm
      norm_num at this ⊢
      exact this
    have hpos : (0 : ℚ) < 2 ^ (4 * q - 280) := by positivity
    have hu : -149 ≤ 4 * q - 280 := by
      by_contra hlt
      have h3 : (2 : ℚ) ^ (4 * q - 280) ≤ 2 ^ (-150 : Int) := zpow_le_zpow_right₀ (by norm_num) (by omega)
      have h4 : (f : ℚ) * 2 ^ (4 * q - 280) < 2 ^ (24 : Int) * 2 ^ (-150 : Int) :=
        mul_lt_mul hfq h3 hpos (by positivity)
      rw [← zpow_add₀ (by norm_num), show (24 : Int) + -150 = -126 by norm_num] at h4
      exact absurd h1 (not_le.mpr h4)
    refine ⟨si * f, 4 * q - 280, ?_, ?_, hu⟩
    · rw [mul_assoc, hv]
      push_cast
      ring
    · rw [abs_mul, hs1, one_mul, abs_of_nonneg (by positivity)]
      exact_mod_cast hm
  have hfit : |ibmValue a b c d| < (2 : ℚ) ^ (128 : Int) - 2 ^ (103 : Int) := fits32_of_float32 hf
  rw [if_pos hfit] at hx
  obtain ⟨g, rfl, r, h1, h2, h3⟩ := hx
  have := rounding32_self hf h1
  subst this
  by_cases h0 : ibmValue a b c d = 0
  · rw [h3 h0, h0]; simp
  · rw [h2 h0]

-- -118.625 as an element
example : ElementOf .big .ibm [0xC2, 0x76, 0xA0, 0] (.float (.fin (-118.625))) ∧
    (2 : ℚ) ^ (-126 : Int) ≤ |ibmValue 0xC2 0x76 0xA0 0| ∧ |ibmValue 0xC2 0x76 0xA0 0| < (2 : ℚ) ^ (128 : Int) := by
  have hv : ibmValue 0xC2 0x76 0xA0 0 = -118.625 := by decide +kernel
  have hb : (2 : ℚ) ^ (-126 : Int) ≤ |ibmValue 0xC2 0x76 0xA0 0| ∧
      |ibmValue 0xC2 0x76 0xA0 0| < (2 : ℚ) ^ (128 : Int) := by
    rw [hv]; constructor <;> decide +kernel
  obtain ⟨x, h1, h2⟩ := cast_elementOf (e := .big) (t := .ibm) (d := .f4) (item := [0xC2, 0x76, 0xA0, 0]) rfl rfl
    (v := .ibm ⟨0xC2, 0x76, 0xA0, 0⟩) ⟨_, _, _, _, rfl, rfl⟩
  refine ⟨?_, hb⟩
  have := C64_ibm_exact _ _ _ _ _ x h2 (Or.inr hb)
  rw [hv] at this
  rw [← this]
  exact h2

/-- The hypothesis that the traces have the samples asked for cannot be dropped.  In a file of three traces with two, no
and one samples, extracting the crossline section of all of them is refused with `ValueError`, instead of giving null for
the samples that do not exist, and in the section of the last trace its only sample is also given as the second one. -/
theorem C64_short_trace_fails : ∃ r progress s',
    createReader (some .ebcdic) fmtBinaryReelHeader fmtTraceHeaderRev1 .big none sampleFile = (.ok (r, progress), s') ∧
    r.dimensionality = .ok 3 ∧ r.numTraceSamples 0 = .ok 2 ∧ r.numTraceSamples 1 = .ok 0 ∧ r.numTraceSamples 2 = .ok 1 ∧
    (extractXline3d r .big 0 .all .all none sampleFile).1 = .error .valueError ∧
    (extractXline3d r .big 0 (.items (.list [7])) .all none sampleFile).1 =
      .ok [[some (.int 256), some (.int 256)]] := by
  obtain ⟨r, progress, s', h⟩ := sampleFile_ok none (by simp)
  have key : ((createReader (some .ebcdic) fmtBinaryReelHeader fmtTraceHeaderRev1 .big none sampleFile).1.map fun x =>
      (x.1.dimensionality, x.1.numTraceSamples 0, x.1.numTraceSamples 1, x.1.numTraceSamples 2,
        (extractXline3d x.1 .big 0 .all .all none sampleFile).1,
        (extractXline3d x.1 .big 0 (.items (.list [7])) .all none sampleFile).1)) =
      .ok (.ok 3, .ok 2, .ok 0, .ok 1, .error .valueError, .ok [[some (.int 256), some (.int 256)]]) := by
    decide +kernel
  rw [h] at key
  simp only [Except.map, Except.ok.injEq, Prod.mk.injEq] at key
  exact ⟨r, progress, s', h, key⟩

/-- Selecting samples by a slice that goes backwards is refused with `ValueError`. -/
theorem C64_reversed_slice_fails : ∃ r progress s',
    createReader (some .ebcdic) fmtBinaryReelHeader fmtTraceHeaderRev1 .big none sampleFile = (.ok (r, progress), s') ∧
    r.dimensionality = .ok 3 ∧ r.numTraceSamples 0 = .ok 2 ∧
    (extractInline3d r .big 5 .all (.slice ⟨none, none, some (-1)⟩) none sampleFile).1 = .error .valueError := by
  obtain ⟨r, progress, s', h⟩ := sampleFile_ok none (by simp)
  have key : ((createReader (some .ebcdic) fmtBinaryReelHeader fmtTraceHeaderRev1 .big none sampleFile).1.map fun x =>
      (x.1.dimensionality, x.1.numTraceSamples 0,
        (extractInline3d x.1 .big 5 .all (.slice ⟨none, none, some (-1)⟩) none sampleFile).1)) =
      .ok (.ok 3, .ok 2, .error .valueError) := by
    decide +kernel
  rw [h] at key
  simp only [Except.map, Except.ok.injEq, Prod.mk.injEq] at key
  exact ⟨r, progress, s', h, key⟩

-- arrays extracted from a file of three traces
example : ((createReader (some .ebcdic) fmtBinaryReelHeader fmtTraceHeaderRev1 .big none sampleFile).1.map fun x =>
    (x.1.dimensionality,
      (extractInline3d x.1 .big 5 .all .all none sampleFile).1,
      (extractXline3d x.1 .big 0 (.items (.list [7, 5, 7])) (.items (.list [0])) none sampleFile).1,
      (extractTimeslice3d x.1 .big 0 (.slice ⟨none, none, some 2⟩) .all (some (.int 9)) sampleFile).1,
      (extractTimeslice3d x.1 .big 1 (.items (.list [5])) .all none sampleFile).1)) =
    .ok (.ok 3, .ok [[some (.int 7), some (.int (-1))]], .ok [[some (.int 7)], [some (.int 256)]],
      .ok [[some (.int 7)], [some (.int 256)]], .ok [[some (.int (-1))]]) := by
  decide +kernel

-- the hypotheses of the theorems, for the same file: its traces and what is selected above
example : linePairs fmtTraceHeaderRev1 .big sampleFile.data [3600, 3844, 4084] = [(5, 0), (6, 0), (7, 0)] ∧
    MostSamples fmtTraceHeaderRev1 .big sampleFile.data [3600, 3844, 4084] 2 ∧
    Whole fmtTraceHeaderRev1 .big sampleFile.data (.int .int16) 3600 ∧
    Whole fmtTraceHeaderRev1 .big sampleFile.data (.int .int16) 4084 :=
  ⟨by decide +kernel, ⟨⟨3600, by simp, by decide +kernel⟩, by decide +kernel⟩,
    ⟨2, by decide +kernel, by decide +kernel⟩, ⟨1, by decide +kernel, by decide +kernel⟩⟩

example : Arranges ([((5 : Int), (0 : Int)), (6, 0), (7, 0)].map Prod.fst) [5, 6, 7] ∧
    Chooses [5, 6, 7] (.items (.list [7, 5, 7])) [5, 7] ∧ Chooses [5, 6, 7] (.slice ⟨none, none, some 2⟩) [5, 7] ∧
    Chooses (sampleNumbers 2) .all [0, 1] := by
  refine ⟨⟨by decide, by simp⟩, ⟨by simp, ⟨by decide, ?_⟩, by decide, by simp, fun s h => by cases h⟩,
    ⟨by decide, by decide⟩, rfl⟩
  intro x
  simp [PyIter.toList]
  tauto

end Segpy.Props
