import Verif.Lemmas.Util
import Verif.Lemmas.Batched
import Mathlib.Data.List.Count

/-!
# Properties C14–C18 and C57: the sequence, interval and number helpers of `util.py`

Specifications use only lists, `List.IsChain`/`List.Pairwise`, membership and integer arithmetic.
-/

namespace Segpy.Props

/-! ## C14 `reversed_range` -/

/-- The reversed range yields the items of the range in reverse order. -/
theorem C14_reverse (r : PyRange) : (reversedRange r).toList = r.toList.reverse := reversedRange_toList r

/-- Reversing twice gives a range that is equal as a Python object (ranges compare as sequences). -/
theorem C14_involution (r : PyRange) :
    (reversedRange (reversedRange r)).toList = r.toList ∧ (reversedRange (reversedRange r)).eq r = true := by
  have h : (reversedRange (reversedRange r)).toList = r.toList := by
    rw [reversedRange_toList, reversedRange_toList, List.reverse_reverse]
  refine ⟨h, ?_⟩
  unfold PyRange.eq
  exact decide_eq_true h

example : (reversedRange ⟨3, 20, 5, by decide⟩).toList = [18, 13, 8, 3] := by decide +kernel
example : (reversedRange ⟨20, 3, -5, by decide⟩).toList = [5, 10, 15, 20] := by decide +kernel
example : (reversedRange ⟨3, 3, 5, by decide⟩).toList = [] := by decide +kernel

/-! ## C15 `make_sorted_distinct_sequence` -/

/-- What the result must be: the distinct items of `xs` in the given order, a `range` precisely when they
are equally spaced. -/
structure SortedDistinct (xs : List Int) (descending : Bool) (out : PyIter) : Prop where
  mem : ∀ a, a ∈ out.toList ↔ a ∈ xs
  sorted : if descending then out.toList.Pairwise (· > ·) else out.toList.Pairwise (· < ·)
  range_iff : out.isRange = true ↔
    (out.toList.length = 1 ∨ (2 ≤ out.toList.length ∧ ∃ d, out.toList.IsChain (fun a b => b - a = d)))

private theorem asc_case (it : PyIter) (hne : it.toList ≠ []) (hs : it.toSfs.items.Pairwise (· < ·))
    (hm : ∀ a, a ∈ it.toSfs.items ↔ a ∈ it.toList) :
    (∃ out, compressSortedSequenceToRange (.sfs it.toSfs) = .ok out ∧ SortedDistinct it.toList false out) ∧
    (∃ out, compressSortedSequenceToRange (.rev it.toSfs) = .ok out ∧ SortedDistinct it.toList true out) := by
  have hne2 : it.toSfs.items ≠ [] := by
    intro h
    obtain ⟨a, ha⟩ := List.exists_mem_of_ne_nil _ hne
    have := (hm a).mpr ha
    rw [h] at this; cases this
  have hnd := SortedFrozenSet.sorted_nodup hs
  constructor
  · obtain ⟨out, h1, h2, h3, _⟩ := compress_spec (.sfs it.toSfs) hne2 rfl hnd
    refine ⟨out, h1, ?_, ?_, ?_⟩
    · intro a; rw [h2]; exact hm a
    · rw [h2]; exact hs
    · rw [h3, h2]; rfl
  · obtain ⟨out, h1, h2, h3, _⟩ := compress_spec (.rev it.toSfs) (by simpa [PyIter.toList] using hne2) rfl
      (List.nodup_reverse.mpr hnd)
    refine ⟨out, h1, ?_, ?_, ?_⟩
    · intro a; rw [h2]; show a ∈ it.toSfs.items.reverse ↔ _; rw [List.mem_reverse]; exact hm a
    · rw [h2]; exact List.pairwise_reverse.mpr hs
    · rw [h3, h2]; rfl

/-- For every non-empty list and every sense: with an explicit sense the order is that sense; with none it
is ascending, unless the list was already strictly descending. -/
theorem C15_list (xs : List Int) (hne : xs ≠ []) (sense : Option SortSense) :
    ∃ out, makeSortedDistinctSequence (.list xs) sense = .ok out ∧
      SortedDistinct xs
        (match sense with
          | some .ascending => false
          | some .descending => true
          | none => decide (xs.Pairwise (· > ·))) out := by
  obtain ⟨ha, hd⟩ := asc_case (.list xs) hne (SortedFrozenSet.ofList_sorted xs) (SortedFrozenSet.mem_ofList xs)
  match sense with
  | some .ascending => exact ha
  | some .descending => exact hd
  | none =>
    have hs : isSorted (.list xs) id true true = .ok (decide (xs.Pairwise (· > ·))) := by
      have := pairwise_all (fun a b : Int => a > b) xs hne
      rw [show decide (xs.Pairwise (· > ·)) = decide (xs.IsChain (· > ·)) from by
        rw [decide_eq_decide]; exact List.isChain_iff_pairwise.symm]
      rw [← this]
      unfold isSorted
      simp only [PyIter.toList, List.map_id, sortOp]
    unfold makeSortedDistinctSequence
    simp only [PyIter.toList, hs, PyIter.again, bind, Except.bind]
    by_cases h : xs.Pairwise (· > ·)
    · simp only [h, decide_true, if_true]; exact hd
    · simp only [h, decide_false, Bool.false_eq_true, if_false]; exact ha

/-- A one-shot iterator works when the sense is given. -/
theorem C15_iterator (xs : List Int) (hne : xs ≠ []) (sense : SortSense) :
    ∃ out, makeSortedDistinctSequence (.gen xs) (some sense) = .ok out ∧
      SortedDistinct xs (decide (sense = .descending)) out := by
  obtain ⟨ha, hd⟩ := asc_case (.gen xs) hne (SortedFrozenSet.ofList_sorted xs) (SortedFrozenSet.mem_ofList xs)
  cases sense
  · exact ha
  · exact hd

/-- A one-shot iterator with `sense=None` always fails: the sortedness test consumes it. -/
theorem C15_iterator_none_fails (xs : List Int) :
    makeSortedDistinctSequence (.gen xs) none = .error .runtimeError := by
  unfold makeSortedDistinctSequence
  simp only [PyIter.toList, PyIter.again, bind, Except.bind]
  cases xs with
  | nil => rfl
  | cons a l =>
    have hs : ∃ b, isSorted (.list (a :: l)) id true true = .ok b := ⟨_, rfl⟩
    obtain ⟨b, hb⟩ := hs
    rw [hb]
    cases b <;> decide +kernel

/-- A `range` stays a `range` with the same items, in the requested order. -/
theorem C15_range (r : PyRange) (sense : Option SortSense) :
    ∃ out : PyRange, makeSortedDistinctSequence (.range r) sense = .ok (.range out) ∧
      (∀ a, a ∈ out.toList ↔ a ∈ r.toList) ∧
      (sense = none → out = r) ∧
      (sense = some .ascending → out.toList.Pairwise (· < ·)) ∧
      (sense = some .descending → out.toList.Pairwise (· > ·)) := by
  have hne := r.step_ne
  match sense with
  | none => exact ⟨r, rfl, fun _ => Iff.rfl, fun _ => rfl, by simp, by simp⟩
  | some .ascending =>
    refine ⟨_, rfl, ?_, by simp, ?_, by simp⟩
    · intro a; split
      · rfl
      · rw [reversedRange_toList, List.mem_reverse]
    · intro _
      split
      · rename_i h; exact range_sorted_pos r h
      · rename_i h
        rw [reversedRange_toList]
        exact List.pairwise_reverse.mpr (range_sorted_neg r (by omega))
  | some .descending =>
    refine ⟨_, rfl, ?_, by simp, by simp, ?_⟩
    · intro a; split
      · rfl
      · rw [reversedRange_toList, List.mem_reverse]
    · intro _
      split
      · rename_i h; exact range_sorted_neg r h
      · rename_i h
        rw [reversedRange_toList]
        exact List.pairwise_reverse.mpr (range_sorted_pos r (by omega))

example : makeSortedDistinctSequence (.list [9, 3, 6, 3]) none = .ok (.range ⟨3, 12, 3, by decide⟩) := by
  decide +kernel
example : makeSortedDistinctSequence (.list [9, 6, 3]) none = .ok (.range ⟨9, 0, -3, by decide⟩) := by
  decide +kernel
example : (makeSortedDistinctSequence (.list [9, 1, 3]) none).map PyIter.toList = .ok [1, 3, 9] := by decide +kernel

/-! ## C16 empty inputs -/

/-- The property is false under Python ≥ 3.7: each of these functions raises `RuntimeError` on an empty
sequence, because `pairwise` lets `StopIteration` escape from a generator. -/
theorem C16_empty_raises :
    containsDuplicates ([] : List Int) = .error .runtimeError ∧
    (∀ key rev dis, isSorted (.list []) key rev dis = .error .runtimeError) ∧
    measureStride (.list []) = .error .runtimeError ∧
    intervalsAreContiguous [] = .error .runtimeError ∧
    (∀ sense, makeSortedDistinctSequence (.list []) sense = .error .runtimeError) := by
  refine ⟨rfl, ?_, rfl, rfl, ?_⟩
  · intro key rev dis; cases rev <;> cases dis <;> rfl
  · intro sense
    match sense with
    | none => decide +kernel
    | some .ascending => decide +kernel
    | some .descending => decide +kernel

/-- What does hold: no non-empty input makes them raise. -/
theorem C16_nonempty_partial (a : Int) (l : List Int) (i : Interval) (is : List Interval) :
    (∃ b, containsDuplicates (a :: l) = .ok b) ∧
    (∀ key rev dis, ∃ b, isSorted (.list (a :: l)) key rev dis = .ok b) ∧
    (∃ o, measureStride (.list (a :: l)) = .ok o) ∧
    (∃ b, intervalsAreContiguous (i :: is) = .ok b) := by
  refine ⟨⟨_, rfl⟩, ?_, ⟨_, rfl⟩, ⟨_, rfl⟩⟩
  intro key rev dis
  cases rev <;> cases dis <;> exact ⟨_, rfl⟩

/-! ## C17 `batched` -/

/-- Without padding the batches concatenate to the input; all but the last have exactly `n` items and the
last has between 1 and `n`. -/
theorem C17_batched {α : Type} (xs : List α) (n : Int) (hn : 1 ≤ n) :
    ∃ bs, batched xs n none = .ok bs ∧ bs.flatten = xs ∧
      (∀ b ∈ bs.dropLast, (b.length : Int) = n) ∧ (∀ b ∈ bs, 1 ≤ b.length ∧ (b.length : Int) ≤ n) := by
  unfold batched
  rw [if_neg (by omega)]
  obtain ⟨h1, h2, h3⟩ := batchedLoop_spec n.toNat (by omega) [] xs (by simp; omega)
  refine ⟨_, rfl, by simpa using h1, ?_, ?_⟩
  · intro b hb; have := h2 b hb; omega
  · intro b hb; have := h3 b hb; omega

/-- With padding every batch has exactly `n` items and fewer than `n` pads follow the input. -/
theorem C17_padded {α : Type} (xs : List α) (n : Int) (p : α) (hn : 1 ≤ n) :
    ∃ bs, batched xs n (some p) = .ok bs ∧ (∀ b ∈ bs, (b.length : Int) = n) ∧
      ∃ k : Nat, (k : Int) < n ∧ bs.flatten = xs ++ List.replicate k p := by
  unfold batched
  rw [if_neg (by omega)]
  obtain ⟨h1, k, h2, h3⟩ := batchedLoop_pad n.toNat p [] xs (by simp; omega)
  refine ⟨_, rfl, ?_, k, by omega, by simpa using h3⟩
  intro b hb; have := h1 b hb; omega

/-- A batch size below one is rejected. -/
theorem C17_rejects {α : Type} (xs : List α) (n : Int) (p : Option α) (hn : n < 1) :
    batched xs n p = .error .valueError := if_pos hn

example : batched [1, 2, 3, 4, 5] 2 none = .ok [[1, 2], [3, 4], [5]] := by decide
example : batched [1, 2, 3, 4, 5] 2 (some 0) = .ok [[1, 2], [3, 4], [5, 0]] := by decide

/-! ## C18 `complementary_intervals` -/

/-- The intervals are well formed, in order, disjoint and inside `[lo, hi)`. -/
def OrderedIn : Int → List Interval → Int → Prop
  | lo, [], hi => lo ≤ hi
  | lo, i :: rest, hi => lo ≤ i.start ∧ i.start ≤ i.stop ∧ OrderedIn i.stop rest hi

/-- The half-open interval contains the integer. -/
def Covers (i : Interval) (x : Int) : Bool := decide (i.start ≤ x) && decide (x < i.stop)

/-- The lists alternate: one of the first, one of the second, ..., ending with one of the first. -/
def interleave : List Interval → List Interval → List Interval
  | c :: cs, i :: is => c :: i :: interleave cs is
  | cs, _ => cs

private theorem orderedIn_le : ∀ (is : List Interval) (lo hi : Int), OrderedIn lo is hi → lo ≤ hi
  | [], _, _, h => h
  | i :: rest, lo, hi, ⟨h1, h2, h3⟩ => by have := orderedIn_le rest _ _ h3; omega

private theorem compl_count (x hi : Int) : ∀ (is : List Interval) (lo : Int), OrderedIn lo is hi →
    (complementaryLoop hi lo is).countP (Covers · x) + is.countP (Covers · x) =
      if lo ≤ x ∧ x < hi then 1 else 0
  | [], lo, h => by
    simp only [complementaryLoop, List.countP_cons, List.countP_nil, Covers]
    by_cases h1 : lo ≤ x <;> by_cases h2 : x < hi <;> simp [h1, h2]
  | i :: rest, lo, h => by
    obtain ⟨h1, h2, h3⟩ := h
    have h4 := orderedIn_le rest _ _ h3
    have ih := compl_count x hi rest i.stop h3
    simp only [complementaryLoop, List.countP_cons, Covers, Bool.and_eq_true, decide_eq_true_eq] at ih ⊢
    split_ifs at ih ⊢ <;> omega

private theorem compl_contig (hi : Int) : ∀ (is : List Interval) (lo : Int),
    (interleave (complementaryLoop hi lo is) is).IsChain (fun a b => a.stop = b.start) ∧
    (complementaryLoop hi lo is).length = is.length + 1 ∧
    (∃ c cs, complementaryLoop hi lo is = c :: cs ∧ c.start = lo) ∧
    (interleave (complementaryLoop hi lo is) is).getLast?.map Interval.stop = some hi
  | [], lo => by simp [complementaryLoop, interleave]
  | i :: rest, lo => by
    obtain ⟨h1, h2, ⟨c, cs, h3, h4⟩, h5⟩ := compl_contig hi rest i.stop
    have hne : ∃ r, interleave (c :: cs) rest = c :: r := by
      cases rest <;> exact ⟨_, rfl⟩
    obtain ⟨r, hr⟩ := hne
    refine ⟨?_, by simp [complementaryLoop, h2], ⟨_, _, rfl, rfl⟩, ?_⟩
    · simp only [complementaryLoop, interleave]
      rw [h3, hr] at h1 ⊢
      rw [List.isChain_cons_cons, List.isChain_cons_cons]
      exact ⟨rfl, h4.symm, h1⟩
    · simp only [complementaryLoop, interleave]
      rw [h3, hr] at h5 ⊢
      simpa [List.getLast?_cons_cons] using h5

/-- For ordered disjoint intervals inside the container, every integer of the container is covered exactly
once by the intervals and their complements together, and no other integer is covered. -/
theorem C18_tile (i : Interval) (is : List Interval) (start stop : Option Int)
    (h : OrderedIn (start.getD i.start) (i :: is) (stop.getD ((i :: is).getLast (by simp)).stop)) :
    ∃ cs, complementaryIntervals (i :: is) start stop = .ok cs ∧
      ∀ x, cs.countP (Covers · x) + (i :: is).countP (Covers · x) =
        if start.getD i.start ≤ x ∧ x < stop.getD ((i :: is).getLast (by simp)).stop then 1 else 0 :=
  ⟨_, rfl, fun x => compl_count x _ _ _ h⟩

/-- The complements interleave with the intervals without gaps: complement, interval, complement, ...,
complement, each ending where the next begins, from the container's start to its stop. -/
theorem C18_interleave (i : Interval) (is : List Interval) (start stop : Option Int) :
    ∃ cs, complementaryIntervals (i :: is) start stop = .ok cs ∧ cs.length = (i :: is).length + 1 ∧
      (interleave cs (i :: is)).IsChain (fun a b => a.stop = b.start) ∧
      (interleave cs (i :: is)).head?.map Interval.start = some (start.getD i.start) ∧
      (interleave cs (i :: is)).getLast?.map Interval.stop =
        some (stop.getD ((i :: is).getLast (by simp)).stop) := by
  obtain ⟨h1, h2, ⟨c, cs, h3, h4⟩, h5⟩ :=
    compl_contig (stop.getD ((i :: is).getLast (by simp)).stop) (i :: is) (start.getD i.start)
  refine ⟨_, rfl, h2, h1, ?_, h5⟩
  simp [complementaryLoop, interleave]

/-- No interval at all is rejected. -/
theorem C18_rejects (start stop : Option Int) : complementaryIntervals [] start stop = .error .valueError := rfl

example : OrderedIn 0 [⟨2, 5⟩, ⟨5, 6⟩, ⟨8, 9⟩] 10 := by simp [OrderedIn]
example : complementaryIntervals [⟨2, 5⟩, ⟨5, 6⟩, ⟨8, 9⟩] (some 0) (some 10) =
    .ok [⟨0, 2⟩, ⟨5, 5⟩, ⟨6, 8⟩, ⟨9, 10⟩] := by decide

/-! ## C57 interval, stride and rounding helpers -/

/-- Two non-empty intervals "partially overlap" iff they share an integer and are not equal.  (Containment
counts; the docstring's "partially" does not exclude it.) -/
theorem C57_overlap (a b : Interval) (ha : a.start < a.stop) (hb : b.start < b.stop) :
    intervalsPartiallyOverlap a b = true ↔ a ≠ b ∧ ∃ x, Covers a x = true ∧ Covers b x = true := by
  unfold intervalsPartiallyOverlap
  by_cases h : a = b
  · simp [h]
  · simp only [h, if_false, ne_eq, not_false_eq_true, true_and, Covers, Bool.and_eq_true, decide_eq_true_eq]
    by_cases h1 : a.start ≤ b.start
    · simp only [h1, if_true, decide_eq_true_eq]
      constructor
      · intro h2; exact ⟨b.start, ⟨h1, h2⟩, le_refl _, hb⟩
      · rintro ⟨x, ⟨h2, h3⟩, h4, h5⟩; omega
    · simp only [h1, if_false, decide_eq_true_eq]
      constructor
      · intro h2; exact ⟨a.start, ⟨le_refl _, ha⟩, by omega, h2⟩
      · rintro ⟨x, ⟨h2, h3⟩, h4, h5⟩; omega

example : intervalsPartiallyOverlap ⟨0, 5⟩ ⟨3, 9⟩ = true ∧ intervalsPartiallyOverlap ⟨0, 5⟩ ⟨5, 9⟩ = false ∧
    intervalsPartiallyOverlap ⟨0, 9⟩ ⟨3, 5⟩ = true := by decide

/-- Overlap is symmetric, for every pair. -/
theorem C57_overlap_symm (a b : Interval) : intervalsPartiallyOverlap a b = intervalsPartiallyOverlap b a ∨
    a.start = b.start := by
  unfold intervalsPartiallyOverlap
  by_cases h : a = b
  · simp [h]
  · rcases lt_trichotomy a.start b.start with h1 | h1 | h1
    · left
      simp [h, Ne.symm h, le_of_lt h1, not_le.mpr h1]
    · exact Or.inr h1
    · left
      simp [h, Ne.symm h, le_of_lt h1, not_le.mpr h1]

/-- `measure_stride` of a non-empty sequence that is not a range: `d` exactly when there are at least two
items and every adjacent difference is `d`; otherwise `None`. -/
theorem C57_stride (l : List Int) (h : l ≠ []) :
    (∀ d, measureStride (.list l) = .ok (some d) ↔ 2 ≤ l.length ∧ l.IsChain (fun a b => b - a = d)) ∧
    (measureStride (.list l) = .ok none ↔ ¬ (2 ≤ l.length ∧ ∃ d, l.IsChain (fun a b => b - a = d))) := by
  have h1 := measureStrideList_eq l h
  refine ⟨h1, ?_⟩
  obtain ⟨o, ho⟩ := measureStrideList_total l h
  show measureStrideList l = _ ↔ _
  cases o with
  | none =>
    simp only [ho, true_iff]
    rintro ⟨h2, d, hd⟩
    have := (h1 d).mpr ⟨h2, hd⟩
    rw [ho] at this; cases this
  | some d =>
    obtain ⟨h2, hd⟩ := (h1 d).mp ho
    rw [ho]
    constructor
    · intro e; cases e
    · intro e; exact absurd ⟨h2, d, hd⟩ e

example : measureStride (.list [2, 5, 8, 11]) = .ok (some 3) ∧ measureStride (.list [2, 5, 9]) = .ok none := by
  decide

/-- `round_up`: the least multiple that is not below the integer; `ValueError` unless the multiple is
positive. -/
theorem C57_round_up (x m : Int) :
    (m ≤ 0 → roundUp x m = .error .valueError) ∧
    (0 < m → ∃ r, roundUp x m = .ok r ∧ m ∣ r ∧ x ≤ r ∧ ∀ r', m ∣ r' → x ≤ r' → r ≤ r') := by
  constructor
  · intro h; exact if_pos h
  · intro h
    have h0 := Int.fmod_nonneg_of_pos x h
    have h1 := Int.fmod_lt_of_pos x h
    have h2 := Int.fmod_add_mul_fdiv x m
    unfold roundUp
    rw [if_neg (by omega)]
    refine ⟨_, rfl, ?_, ?_, ?_⟩
    · split
      · rename_i h3; rw [h3] at h2; exact ⟨x.fdiv m, by omega⟩
      · exact ⟨x.fdiv m + 1, by rw [mul_add, mul_one]; omega⟩
    · split <;> omega
    · rintro r' ⟨k, rfl⟩ h3
      split
      · exact h3
      · by_contra hc
        have h4 : x.fdiv m < k := by
          by_contra h5
          have : m * k ≤ m * x.fdiv m := by nlinarith
          omega
        have : m * (x.fdiv m + 1) ≤ m * k := by nlinarith
        rw [mul_add, mul_one] at this
        omega

example : roundUp 13 4 = .ok 16 ∧ roundUp 16 4 = .ok 16 ∧ roundUp (-13) 4 = .ok (-12) := by decide

private theorem minmax_fold {α : Type} [LinearOrder α] (l : List α) (m : α × α) :
    let r := l.foldl (fun m x => (min m.1 x, max m.2 x)) m
    (r.1 = m.1 ∨ r.1 ∈ l) ∧ (r.2 = m.2 ∨ r.2 ∈ l) ∧ r.1 ≤ m.1 ∧ m.2 ≤ r.2 ∧ ∀ x ∈ l, r.1 ≤ x ∧ x ≤ r.2 := by
  induction l generalizing m with
  | nil => simp
  | cons a l ih =>
    obtain ⟨h1, h2, h3, h4, h5⟩ := ih (min m.1 a, max m.2 a)
    simp only [List.foldl_cons]
    refine ⟨?_, ?_, h3.trans (min_le_left _ _), (le_max_left _ _).trans h4, ?_⟩
    · rcases h1 with h1 | h1
      · rcases min_choice m.1 a with h | h
        · exact Or.inl (h1.trans h)
        · exact Or.inr (by rw [h1]; simp [h])
      · exact Or.inr (List.mem_cons_of_mem _ h1)
    · rcases h2 with h2 | h2
      · rcases max_choice m.2 a with h | h
        · exact Or.inl (h2.trans h)
        · exact Or.inr (by rw [h2]; simp [h])
      · exact Or.inr (List.mem_cons_of_mem _ h2)
    · intro x hx
      rcases List.mem_cons.mp hx with rfl | hx
      · exact ⟨h3.trans (min_le_right _ _), (le_max_right _ _).trans h4⟩
      · exact h5 x hx

/-- `minmax`: the least and the greatest item; `ValueError` for an empty iterable. -/
theorem C57_minmax {α : Type} [LinearOrder α] (l : List α) :
    (l = [] → minmax l = .error .valueError) ∧
    (l ≠ [] → ∃ lo hi, minmax l = .ok (lo, hi) ∧ lo ∈ l ∧ hi ∈ l ∧ ∀ x ∈ l, lo ≤ x ∧ x ≤ hi) := by
  constructor
  · rintro rfl; rfl
  · intro h
    cases l with
    | nil => exact absurd rfl h
    | cons a l =>
      obtain ⟨h1, h2, h3, h4, h5⟩ := minmax_fold l (a, a)
      refine ⟨_, _, rfl, ?_, ?_, ?_⟩
      · rcases h1 with h1 | h1
        · rw [h1]; simp
        · exact List.mem_cons_of_mem _ h1
      · rcases h2 with h2 | h2
        · rw [h2]; simp
        · exact List.mem_cons_of_mem _ h2
      · intro x hx
        rcases List.mem_cons.mp hx with rfl | hx
        · exact ⟨h3, h4⟩
        · exact h5 x hx

example : minmax [3, 1, 4, 1, 5] = .ok (1, 5) := by decide

/-- `contains_duplicates` is exact on sorted input. -/
theorem C57_duplicates {α : Type} [LinearOrder α] (l : List α) (hne : l ≠ []) (h : l.Pairwise (· ≤ ·)) :
    containsDuplicates l = .ok (decide (¬ l.Nodup)) := by
  cases l with
  | nil => exact absurd rfl hne
  | cons a l =>
    simp only [containsDuplicates, pairwise, bind, Except.bind, pure, Except.pure]
    congr 1
    rw [Bool.eq_iff_iff, List.any_eq_true, decide_eq_true_iff]
    have hc : (∀ p ∈ List.zip (a :: l) l, p.1 ≠ p.2) ↔ (a :: l).Nodup := by
      rw [zip_tail_forall (fun x y => x ≠ y)]
      constructor
      · intro hch
        have hlt : (a :: l).IsChain (· < ·) := by
          have h2 := List.isChain_iff_pairwise.mpr h
          rw [List.isChain_iff_getElem] at hch h2 ⊢
          intro i hi
          exact lt_of_le_of_ne (h2 i hi) (hch i hi)
        exact (List.isChain_iff_pairwise.mp hlt).imp (fun h => ne_of_lt h)
      · intro hn; exact List.Pairwise.isChain hn
    rw [← hc]
    push Not
    simp only [decide_eq_true_eq]

example : containsDuplicates [1, 2, 2, 3] = .ok true ∧ containsDuplicates [1, 2, 3] = .ok false := by decide

/-- On unsorted input only adjacent duplicates are seen. -/
theorem C57_duplicates_unsorted : containsDuplicates [1, 2, 1] = .ok false ∧ ¬ [1, 2, 1].Nodup := by decide

/-- `is_sorted` without a key, in all four modes, for every non-empty list. -/
theorem C57_is_sorted (l : List Int) (hne : l ≠ []) (key : Int → Int) :
    isSorted (.list l) key false false = .ok (decide ((l.map key).Pairwise (· ≤ ·))) ∧
    isSorted (.list l) key true false = .ok (decide ((l.map key).Pairwise (· ≥ ·))) ∧
    isSorted (.list l) key false true = .ok (decide ((l.map key).Pairwise (· < ·))) ∧
    isSorted (.list l) key true true = .ok (decide ((l.map key).Pairwise (· > ·))) := by
  have hm : l.map key ≠ [] := by simpa using hne
  refine ⟨?_, ?_, ?_, ?_⟩
  · have := pairwise_all (fun a b : Int => a ≤ b) _ hm
    rw [decide_eq_decide.mpr List.isChain_iff_pairwise] at this
    rw [← this]; rfl
  · have := pairwise_all (fun a b : Int => a ≥ b) _ hm
    rw [decide_eq_decide.mpr List.isChain_iff_pairwise] at this
    rw [← this]; rfl
  · have := pairwise_all (fun a b : Int => a < b) _ hm
    rw [decide_eq_decide.mpr List.isChain_iff_pairwise] at this
    rw [← this]; rfl
  · have := pairwise_all (fun a b : Int => a > b) _ hm
    rw [decide_eq_decide.mpr List.isChain_iff_pairwise] at this
    rw [← this]; rfl

example : isSorted (.list [1, 2, 2]) id false false = .ok true ∧
    isSorted (.list [1, 2, 2]) id false true = .ok false := by decide

/-- With a `range` and a key the shortcut ignores the key: `is_sorted(range(3), key=neg, distinct=True)` is
`True` although the keys are strictly decreasing. -/
theorem C57_is_sorted_key_ignored :
    isSorted (.range ⟨0, 3, 1, by decide⟩) (fun x => -x) false true = .ok true ∧
    ¬ (([0, 1, 2] : List Int).map (fun x => -x)).Pairwise (· < ·) := by decide

/-- `intervals_are_contiguous`: each interval starts where the previous one stops. -/
theorem C57_contiguous (is : List Interval) (hne : is ≠ []) :
    intervalsAreContiguous is = .ok (decide (is.IsChain (fun a b => a.stop = b.start))) :=
  pairwise_all (fun a b : Interval => a.stop = b.start) is hne

/-- `cmp` and `sgn` are the sign of the comparison. -/
theorem C57_cmp_sgn (x y : Int) : pyCmp x y = (x - y).sign ∧ pySgn x = x.sign := by
  have h : ∀ x y : Int, pyCmp x y = (x - y).sign := by
    intro x y
    unfold pyCmp
    rcases lt_trichotomy x y with h | h | h
    · rw [Int.sign_eq_neg_one_of_neg (by omega)]; simp [h, not_lt.mpr h.le]
    · subst h; simp
    · rw [Int.sign_eq_one_of_pos (by omega)]; simp [h, not_lt.mpr h.le]
  exact ⟨h x y, by unfold pySgn; rw [h]; simp⟩

/-- `all_equal` is true iff any two items are equal (in particular for an empty iterable). -/
theorem C57_all_equal {α : Type} [DecidableEq α] (l : List α) :
    allEqual l = true ↔ ∀ x ∈ l, ∀ y ∈ l, x = y := allEqual_iff l

example : allEqual [3, 3, 3] = true ∧ allEqual [3, 4, 3] = false := by decide

/-- `first` and `last` give the first and last item, `ValueError` for an empty iterable. -/
theorem C57_first_last {α : Type} (l : List α) :
    (pyFirst l = match l.head? with | some a => .ok a | none => .error .valueError) ∧
    (pyLast l = match l.getLast? with | some a => .ok a | none => .error .valueError) := by
  cases l with
  | nil => exact ⟨rfl, rfl⟩
  | cons a l =>
    refine ⟨rfl, ?_⟩
    unfold pyLast
    have e : (((a :: l).length : Int) - 1) = ((l.length : Nat) : Int) := by simp
    rw [e, pyGet_nat _ _ (by simp)]
    simp [List.getLast?_eq_getElem?]

/-- The items at position `i` of each list that has one, for `i = 0, 1, ...` below `m`. -/
def rounds {α : Type} (m : Nat) (ls : List (List α)) : List α :=
  (List.range m).flatMap fun i => ls.filterMap (·[i]?)

private theorem rounds_succ {α : Type} (m : Nat) (ls : List (List α)) :
    rounds (m + 1) ls = ls.filterMap (·.head?) ++ rounds m (ls.map List.tail) := by
  unfold rounds
  rw [List.range_succ_eq_map, List.flatMap_cons, List.flatMap_map]
  congr 1
  · congr 1; funext l; cases l <;> rfl
  · congr 1; funext i; rw [List.filterMap_map]; congr 1; funext l; cases l <;> simp

private theorem rounds_stable {α : Type} (m k : Nat) (ls : List (List α)) (h : ∀ l ∈ ls, l.length ≤ m) :
    rounds (m + k) ls = rounds m ls := by
  induction k with
  | zero => rfl
  | succ k ih =>
    rw [← ih, ← Nat.add_assoc]
    unfold rounds
    rw [List.range_succ, List.flatMap_append]
    simp only [List.flatMap_cons, List.flatMap_nil, List.append_nil]
    have : ls.filterMap (fun l => l[m + k]?) = [] := by
      rw [List.filterMap_eq_nil_iff]
      intro l hl
      exact List.getElem?_eq_none (by have := h l hl; omega)
    rw [this, List.append_nil]

private theorem rounds_drop_nil {α : Type} (m : Nat) (as bs : List (List α)) :
    rounds m (as ++ [] :: bs) = rounds m (as ++ bs) := by
  unfold rounds
  congr 1; funext i
  simp

private theorem roundrobin_aux {α : Type} (fuel : Nat) : ∀ (q d : List (List α)) (m : Nat),
    ((q ++ d).map List.length).sum + (q ++ d).length ≤ fuel →
    (∀ l ∈ q, l.length ≤ m + 1) → (∀ l ∈ d, l.length ≤ m) →
    roundrobinLoop fuel (q ++ d) = q.filterMap (·.head?) ++ rounds m (d ++ q.map List.tail) := by
  induction fuel with
  | zero =>
    intro q d m hf _ _
    have h : q ++ d = [] := List.length_eq_zero_iff.mp (by omega)
    obtain ⟨rfl, rfl⟩ := List.append_eq_nil_iff.mp h
    simp [roundrobinLoop, rounds]
  | succ fuel ih =>
    have main : ∀ (a : List α) (q d : List (List α)) (m : Nat),
        (((a :: q) ++ d).map List.length).sum + ((a :: q) ++ d).length ≤ fuel + 1 →
        (∀ l ∈ a :: q, l.length ≤ m + 1) → (∀ l ∈ d, l.length ≤ m) →
        roundrobinLoop (fuel + 1) ((a :: q) ++ d) =
          (a :: q).filterMap (·.head?) ++ rounds m (d ++ (a :: q).map List.tail) := by
      intro a q d m hf h1 h2
      cases a with
      | nil =>
        have := ih q d m (by simp at hf ⊢; omega) (fun l hl => h1 l (List.mem_cons_of_mem _ hl)) h2
        show roundrobinLoop fuel (q ++ d) = _
        rw [this, List.filterMap_cons_none (by rfl)]
        simp [rounds_drop_nil]
      | cons x a =>
        have h3 : a.length ≤ m := by have := h1 (x :: a) List.mem_cons_self; simpa using this
        have := ih q (d ++ [a]) m (by simp at hf ⊢; omega) (fun l hl => h1 l (List.mem_cons_of_mem _ hl))
          (by intro l hl; rcases List.mem_append.mp hl with hl | hl
              · exact h2 l hl
              · rw [List.mem_singleton.mp hl]; exact h3)
        show x :: roundrobinLoop fuel ((q ++ d) ++ [a]) = _
        rw [List.append_assoc, this]
        simp
    intro q d m hf h1 h2
    cases q with
    | cons a q => exact main a q d m hf h1 h2
    | nil =>
      cases d with
      | nil => simp [roundrobinLoop, rounds]
      | cons a d =>
        have := main a d [] m (by simpa using hf) (fun l hl => Nat.le_succ_of_le (h2 l hl)) (by simp)
        simp only [List.append_nil, List.nil_append] at this
        simp only [List.nil_append, List.filterMap_nil, List.map_nil, List.append_nil]
        rw [this, ← rounds_succ, rounds_stable m 1 _ h2]

/-- `roundrobin` takes the first item of every iterable, then the second of every one that has two, and so
on: item `i` of each iterable, in argument order, for every `i` up to the longest. -/
theorem C57_roundrobin {α : Type} (ls : List (List α)) (m : Nat) (hm : ∀ l ∈ ls, l.length ≤ m) :
    roundrobin ls = rounds m ls := by
  unfold roundrobin
  have := roundrobin_aux ((ls.map List.length).sum + ls.length) ls [] m (by simp)
    (fun l hl => Nat.le_succ_of_le (hm l hl)) (by simp)
  simp only [List.append_nil, List.nil_append] at this
  rw [this, ← rounds_succ, rounds_stable m 1 _ hm]

example : roundrobin ["ABC".toList, "D".toList, "EF".toList] = "ADEBFC".toList := by decide

end Segpy.Props
