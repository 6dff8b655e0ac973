import Verif.Lemmas.Extract2
import Verif.Lemmas.NumpyReader
import Verif.Lemmas.Memo
import Verif.Props.Reader

/-! # Lemmas about extracting arrays: the file -/

namespace Segpy

open FileM Spec

-- found at once, these keep the search for instances of the examples small
instance : DecidableEq (Res Rows) := inferInstance
instance : DecidableEq (Res Int) := inferInstance

theorem makeDtype_of_format {r : Reader} {t : SegYType} (h : r.dataSampleFormat = .ok t) : ∃ d, makeDtype t = .ok d := by
  unfold Reader.dataSampleFormat at h
  obtain ⟨dsf, -, h⟩ := res_bind_ok h
  unfold dataSampleFormatToSegYType at h
  split at h
  · cases h; exact ⟨_, rfl⟩
  split at h
  · cases h; exact ⟨_, rfl⟩
  split at h
  · cases h; exact ⟨_, rfl⟩
  split at h
  · cases h; exact ⟨_, rfl⟩
  split at h
  · cases h; exact ⟨_, rfl⟩
  · cases h

theorem range_toList (m : Nat) : (PyRange.make1 0 (m : Int)).toList = sampleNumbers m := by
  refine strictSorted_ext (range_sorted_pos _ Int.one_pos) (range_sorted m) (fun x => ?_)
  rw [← PyRange.contains_iff]
  unfold PyRange.contains PyRange.make1 sampleNumbers
  simp only [Int.one_pos, if_true, Bool.and_eq_true, decide_eq_true_iff, List.mem_map, List.mem_range]
  constructor
  · rintro ⟨⟨h1, h2⟩, -⟩
    exact ⟨x.toNat, by omega, by omega⟩
  · rintro ⟨k, h1, rfl⟩
    simp
    omega

/-- What the lemmas below need to know about an opened reader. -/
structure Readable (T : Format) (e : Endian) (s : FileH) (t : SegYType) (starts : List Nat) (r : Reader) : Prop where
  describes : Describes T e s.data t starts r
  reads : ∀ (native : Endian) (i : Nat) (hi : i < starts.length) (a b pos : Nat), a ≤ b →
    (b : Int) ≤ fieldAt T e s.data starts[i] "num_samples" →
    (a < b → s.data.length < starts[i] + 240 + b * t.size →
      (r.traceSamples native i (some a) (some b) { s with pos := pos }).1 = .error .eofError) ∧
    (a = b ∨ starts[i] + 240 + b * t.size ≤ s.data.length →
      ∃ l, (r.traceSamples native i (some a) (some b) { s with pos := pos }).1 = .ok l ∧ l.length = b - a ∧
        SamplesStored e t s.data (starts[i] + 240 + a * t.size) l)

/-- And about an opened 3D reader. -/
structure Sectioned (T : Format) (e : Endian) (s : FileH) (t : SegYType) (starts : List Nat) (r : Reader) : Prop
    extends Readable T e s t starts r where
  finds : FindsByLines r (linePairs T e s.data starts)
  inline_canonical : ∀ x r', r.inlineNumbers = .ok (x, r') → Canonical x
  xline_canonical : ∀ x r', r.xlineNumbers = .ok (x, r') → Canonical x

theorem createReader_sectioned {T : Format} {e : Endian} (hT : Cataloguable T e) {encoding : Option Encoding} {B : Format}
    {dim : Option Int} {s s' : FileH} {r : Reader} {progress : List ℚ}
    (h : createReader encoding B T e dim s = (.ok (r, progress), s')) :
    ∃ t starts, Describes T e s.data t starts r ∧
      Traces T e s.data t.size (3600 + 3200 * r.extended_textual_headers.length) starts ∧
      Readable T e s t starts r ∧
      (r.dimensionality = .ok 3 → (linePairs T e s.data starts).Nodup → Sectioned T e s t starts r) ∧
      (r.dimensionality = .ok 2 → (ensembles T e s.data starts).Nodup →
        FindsByEnsemble r (ensembles T e s.data starts)) := by
  obtain ⟨t, starts, g1, g2, g3, g4, -⟩ := Props.C49_finds T e hT encoding B dim s s' r progress h
  obtain ⟨t', starts', f1, f2, f3⟩ := Props.C45_reads T e hT encoding B dim s s' r progress h
  have htt : t' = t := by
    have := f1.data_sample_format
    rw [g1.data_sample_format] at this
    exact (Except.ok.inj this).symm
  subst htt
  have hss := Props.C61_unique _ _ _ _ _ _ _ f2 g2
  subst hss
  obtain ⟨c1, c2⟩ := createReader_canonical h
  exact ⟨t', starts', g1, g2, ⟨g1, f3⟩, fun h3 hn => ⟨⟨g1, f3⟩, g3 h3 hn, c1, c2⟩, g4⟩

theorem traceSamples_all (r : Reader) (native : Endian) (i : Int) (n : Int) (h : r.numTraceSamples i = .ok n) (s : FileH) :
    r.traceSamples native i none none s = r.traceSamples native i (some 0) (some n) s := by
  rw [traceSamples_eq, traceSamples_eq]
  have : r.locateSamples i none none = r.locateSamples i (some 0) (some n) := by
    unfold Reader.locateSamples
    simp only [h, bind, Except.bind, Option.getD_none, Option.getD_some]
  rw [this]

/-- The samples of a trace that is in the file. -/
theorem Readable.trace {T : Format} {e : Endian} {s : FileH} {t : SegYType} {starts : List Nat} {r : Reader}
    (h : Readable T e s t starts r) (native : Endian) {i : Nat} (hi : i < starts.length)
    (hw : Whole T e s.data t starts[i]) :
    ∃ l, (r.traceSamples native i none none).Yields s l ∧ (l.length : Int) = fieldAt T e s.data starts[i] "num_samples" ∧
      ∀ d, makeDtype t = .ok d → ∀ k v, l[k]? = some v →
        ∃ x, d.cast v = .ok x ∧ ElementOf e t (storedSample t s.data starts[i] k) x := by
  obtain ⟨n, hn, hfit⟩ := hw
  have hnum := h.describes.num_trace_samples i hi
  rw [hn] at hnum
  have hr := fun pos => (h.reads native i hi 0 n pos (Nat.zero_le _) (by rw [hn])).2 (Or.inr hfit)
  obtain ⟨l, h1, h2, h3⟩ := hr 0
  rw [Nat.cast_zero] at h1
  refine ⟨l, ?_, by rw [h2, hn]; simp, ?_⟩
  · refine FileM.Yields.of_reads (reads_traceSamples _ _ _ _ _) (fun pos => ?_)
    rw [traceSamples_all r native i n hnum]
    obtain ⟨k, hk⟩ := reads_traceSamples r native i (some 0) (some n) { s with pos := pos }
    have := traceSamples_eq r native i (some 0) (some n)
    rw [this] at h1
    rw [this]
    cases hl : r.locateSamples i (some 0) (some n) with
    | error er => rw [hl] at h1; cases h1
    | ok x =>
      rw [hl] at h1
      exact (values_pos native x.1 x.2.1 x.2.2 r.endian { s with pos := 0 } pos).trans h1
  · intro d hd k v hk
    obtain ⟨hlt, rfl⟩ := List.getElem?_eq_some_iff.mp hk
    have hs := h3 k hlt
    rw [Nat.zero_mul, Nat.add_zero] at hs
    refine cast_elementOf hd ?_ hs
    have : (k + 1) * t.size ≤ n * t.size := Nat.mul_le_mul_right _ (by omega)
    rw [Nat.add_mul, Nat.one_mul] at this
    unfold storedSample
    rw [List.length_take, List.length_drop]
    omega

theorem Sectioned.unique {T : Format} {e : Endian} {s : FileH} {t : SegYType} {starts : List Nat} {r : Reader}
    (h : Sectioned T e s t starts r) {i j : Nat} (hi : i < starts.length) (hj : j < starts.length)
    (heq : linesAt T e s.data starts[i] = linesAt T e s.data starts[j]) : i = j := by
  have hl : (linePairs T e s.data starts).length = starts.length := by simp [linePairs]
  have h1 := h.finds.found i (by rw [hl]; exact hi)
  have h2 := h.finds.found j (by rw [hl]; exact hj)
  have e1 : (linePairs T e s.data starts)[i]'(by rw [hl]; exact hi) = linesAt T e s.data starts[i] := by
    simp [linePairs, linesAt]
  have e2 : (linePairs T e s.data starts)[j]'(by rw [hl]; exact hj) = linesAt T e s.data starts[j] := by
    simp [linePairs, linesAt]
  rw [e1, heq] at h1
  rw [e2, h1] at h2
  injection h2 with h2
  exact_mod_cast h2

theorem Sectioned.cases {T : Format} {e : Endian} {s : FileH} {t : SegYType} {starts : List Nat} {r : Reader}
    (h : Sectioned T e s t starts r) (k : Int × Int) :
    (r.hasTraceIndex3 k = .ok false ∧ ∀ p ∈ starts, linesAt T e s.data p ≠ k) ∨
    ∃ (i : Nat) (hi : i < starts.length), r.hasTraceIndex3 k = .ok true ∧ r.traceIndex3 k = .ok i ∧
      linesAt T e s.data starts[i] = k ∧ ∀ p ∈ starts, linesAt T e s.data p = k → p = starts[i] := by
  have hl : (linePairs T e s.data starts).length = starts.length := by simp [linePairs]
  by_cases hk : k ∈ linePairs T e s.data starts
  · right
    obtain ⟨i, hi, hik⟩ := List.mem_iff_getElem.mp hk
    have hi' : i < starts.length := by rw [← hl]; exact hi
    have e1 : linesAt T e s.data starts[i] = k := by rw [← hik]; simp [linePairs, linesAt]
    refine ⟨i, hi', by rw [h.finds.has]; simp [hk], by rw [← hik]; exact h.finds.found i hi, e1, ?_⟩
    intro p hp hpk
    obtain ⟨j, hj, rfl⟩ := List.mem_iff_getElem.mp hp
    have := h.unique hj hi' (hpk.trans e1.symm)
    subst this
    rfl
  · left
    refine ⟨by rw [h.finds.has]; simp [hk], fun p hp hpk => hk ?_⟩
    rw [← hpk]
    exact List.mem_map.mpr ⟨p, hp, rfl⟩

/-- A row of a section. -/
theorem Sectioned.row {T : Format} {e : Endian} {s : FileH} {t : SegYType} {starts : List Nat} {r : Reader}
    (h : Sectioned T e s t starts r) (native : Endian) (k : Int × Int) {S : PyIter} (hS : SampleSelection S)
    (hnn : ∀ n ∈ S.toList, 0 ≤ n) {d : DType} (hd : makeDtype t = .ok d) (null : Option Scalar)
    (hw : ∀ p ∈ starts, linesAt T e s.data p = k → Whole T e s.data t p ∧
      ∀ n ∈ S.toList, n < fieldAt T e s.data p "num_samples") :
    ∃ row, (sectionRow r native k S d null).Yields s row ∧
      List.Forall₂ (fun n c => CellOf T e s.data t starts null k n c) S.toList row := by
  rcases h.cases k with ⟨h1, h2⟩ | ⟨i, hi, h1, h2, h3, h4⟩
  · refine ⟨_, sectionRow_absent h1, ?_⟩
    rw [List.forall₂_iff_get]
    refine ⟨by simp, fun j _ _ => ⟨fun p hp hpk => absurd hpk (h2 p hp), fun _ => by simp⟩⟩
  · obtain ⟨w1, w2⟩ := hw starts[i] (List.getElem_mem hi) h3
    obtain ⟨l, l1, l2, l3⟩ := h.toReadable.trace native hi w1
    obtain ⟨row, r1, r2⟩ := sectionRow_present (null := null) h1 h2 l1 hS
      (fun n hn => ⟨hnn n hn, by rw [l2]; exact w2 n hn⟩) (l3 d hd)
    refine ⟨row, r1, r2.imp ?_⟩
    rintro n c ⟨y, rfl, hy⟩
    constructor
    · intro p hp hpk
      rw [h4 p hp hpk]
      exact ⟨y, rfl, hy⟩
    · intro hno
      exact absurd h3 (hno _ (List.getElem_mem hi))

/-- An element of a time slice. -/
theorem Sectioned.cell {T : Format} {e : Endian} {s : FileH} {t : SegYType} {starts : List Nat} {r : Reader}
    (h : Sectioned T e s t starts r) (native : Endian) (k : Int × Int) (n : Nat) {d : DType} (hd : makeDtype t = .ok d)
    (null : Option Scalar)
    (hw : ∀ p ∈ starts, linesAt T e s.data p = k → Whole T e s.data t p ∧ (n : Int) < fieldAt T e s.data p "num_samples") :
    ∃ c, (timesliceCell r native k n d null).Yields s c ∧ CellOf T e s.data t starts null k n c := by
  rcases h.cases k with ⟨h1, h2⟩ | ⟨i, hi, h1, h2, h3, h4⟩
  · refine ⟨null, ?_, fun p hp hpk => absurd hpk (h2 p hp), fun _ => rfl⟩
    unfold timesliceCell
    exact (FileM.Yields.lift h1).bind (FileM.Yields.pure s _)
  · obtain ⟨w1, w2⟩ := hw starts[i] (List.getElem_mem hi) h3
    obtain ⟨l, l1, l2, l3⟩ := h.toReadable.trace native hi w1
    have hlt : n < l.length := by omega
    obtain ⟨x, x1, x2⟩ := l3 d hd n _ (List.getElem?_eq_getElem hlt)
    have hread := (traceSamples_sub l1).2 n (n + 1) (by omega) (by omega)
    refine ⟨some x, ?_, ?_, ?_⟩
    · unfold timesliceCell
      refine (FileM.Yields.lift h1).bind ?_
      rw [if_pos rfl]
      refine (FileM.Yields.lift h2).bind (FileM.Yields.bind (by exact_mod_cast hread) (FileM.Yields.lift ?_))
      rw [pyGet_zero _ (by rw [List.length_drop, List.length_take]; omega)]
      simp only [bind, Except.bind, List.getElem_drop, List.getElem_take, Nat.add_zero, x1]
      rfl
    · intro p hp hpk
      rw [h4 p hp hpk]
      exact ⟨x, rfl, x2⟩
    · intro hno
      exact absurd h3 (hno _ (List.getElem_mem hi))

/-! ## Selections -/

theorem chooses_subset {available X : List Int} {sel : Selection} (h : Chooses available sel X) :
    ∀ x ∈ X, x ∈ available := by
  cases sel with
  | all => exact fun x hx => by rw [← (show X = available from h)]; exact hx
  | slice s => exact fun x hx => (pySliceList_sublist h.2 h.1).subset hx
  | items it => exact h.2.2.1

theorem sampleNumbers_nonneg {m : Nat} : ∀ x ∈ sampleNumbers m, 0 ≤ x := by
  intro x hx
  obtain ⟨k, -, rfl⟩ := List.mem_map.mp hx
  exact Int.natCast_nonneg k

theorem most_unique {T : Format} {e : Endian} {data : Bytes} {starts : List Nat} {m : Nat} {m' : Int}
    (h : MostSamples T e data starts m)
    (h' : (∃ p ∈ starts, fieldAt T e data p "num_samples" = m') ∧ ∀ p ∈ starts, fieldAt T e data p "num_samples" ≤ m') :
    m' = m := by
  obtain ⟨⟨p, p1, p2⟩, p3⟩ := h
  obtain ⟨⟨q, q1, q2⟩, q3⟩ := h'
  have := p3 q q1
  have := q3 p p1
  omega

theorem samples_ensure {T : Format} {e : Endian} {s : FileH} {t : SegYType} {starts : List Nat} {r : Reader}
    (hs : Readable T e s t starts r) {m : Nat} {ssel : Selection} {S : List Int}
    (hm : MostSamples T e s.data starts m) (hS : Chooses (sampleNumbers m) ssel S) :
    ∃ r' out, r.maxNumTraceSamples = .ok ((m : Int), r') ∧
      ensureSuperset (.range (PyRange.make1 0 (m : Int))) ssel = .ok out ∧ out.toList = S ∧ SampleSelection out ∧
      ∀ n ∈ out.toList, 0 ≤ n := by
  obtain ⟨m', r', h1, h2⟩ := hs.describes.max_num_trace_samples
  have := most_unique hm h2
  subst this
  obtain ⟨out, o1, o2, -, o4⟩ := ensure_chooses (.range (PyRange.make1 0 (m : Int))) ⟨Int.one_pos, fun _ => rfl⟩ ssel S (by
    show Chooses (PyRange.make1 0 (m : Int)).toList ssel S
    rw [range_toList]; exact hS)
  refine ⟨r', out, h1, o1, o2, o4 m (Int.natCast_nonneg m) rfl, ?_⟩
  rw [o2]
  exact fun n hn => sampleNumbers_nonneg n (chooses_subset hS n hn)

theorem lines_ensure {x : PyIter} {wanted available X : List Int} {sel : Selection} (hc : Canonical x)
    (hl : Lists x wanted) (ha : Arranges wanted available) (hX : Chooses available sel X) :
    ∃ out, ensureSuperset x sel = .ok out ∧ out.toList = X := by
  have : x.toList = available := strictSorted_ext hl.1 ha.1 (fun a => (hl.2 a).trans (ha.2 a).symm)
  rw [← this] at hX
  obtain ⟨out, o1, o2, -, -⟩ := ensure_chooses x hc sel X hX
  exact ⟨out, o1, o2⟩

end Segpy
