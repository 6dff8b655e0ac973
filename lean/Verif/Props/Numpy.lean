import Verif.Lemmas.Selection
import Verif.Spec.Numpy

/-! # Properties of the numpy extension: C58, C59 -/

namespace Segpy.Props

/-! ## C58 selecting numbers -/

/-- For ascending ranges, the second not empty, `is_range_superset_of_range` is true exactly when every element of the
second is an element of the first, except that a range with one element must besides have a step that is a multiple of
the step of the first (`C58_single_element_fails`). -/
theorem C58_range_partial (sup sub : PyRange) (h1 : 0 < sup.step) (h2 : 0 < sub.step) (hne : sub.toList ≠ []) :
    isRangeSupersetOfRange sup sub =
      .ok (decide ((∀ x ∈ sub.toList, x ∈ sup.toList) ∧ (sub.toList.length = 1 → sup.step ∣ sub.step))) :=
  isRangeSuperset_eq sup sub h1 h2 hne

example : (⟨102, 110, 4, by decide⟩ : PyRange).toList = [102, 106] ∧
    isRangeSupersetOfRange ⟨100, 200, 2, by decide⟩ ⟨102, 110, 4, by decide⟩ = .ok true ∧
    isRangeSupersetOfRange ⟨100, 200, 2, by decide⟩ ⟨102, 110, 3, by decide⟩ = .ok false ∧
    isRangeSupersetOfRange ⟨100, 200, 2, by decide⟩ ⟨190, 201, 2, by decide⟩ = .ok false := by decide +kernel

/-- The property is false for ranges of one element. -/
theorem C58_single_element_fails :
    ∃ sup sub : PyRange, 0 < sup.step ∧ 0 < sub.step ∧ (∀ x ∈ sub.toList, x ∈ sup.toList) ∧ sub.toList = [102] ∧
      isRangeSupersetOfRange sup sub = .ok false :=
  ⟨⟨100, 200, 2, by decide⟩, ⟨102, 103, 1, by decide⟩, by decide +kernel⟩

/-- The property is false for empty ranges: they are never found to be contained, and may even raise `IndexError`. -/
theorem C58_empty_fails (sup sub : PyRange) (h : sub.toList = []) :
    (∀ x ∈ sub.toList, x ∈ sup.toList) ∧ isRangeSupersetOfRange sup sub ≠ .ok true ∧
      isRangeSupersetOfRange ⟨0, 10, 1, by decide⟩ ⟨3, 3, 1, by decide⟩ = .error .indexError := by
  refine ⟨by rw [h]; simp, ?_, by decide +kernel⟩
  have hlen : sub.len = 0 := by rw [← PyRange.length_toList, h]; rfl
  have hget : sub.get (-1) = .error .indexError := by
    unfold PyRange.get
    rw [hlen]
    rfl
  unfold isRangeSupersetOfRange
  rw [hget]
  simp only [bind, Except.bind]
  by_cases h1 : sup.contains sub.start = true
  · rw [if_neg (not_not.mpr h1)]
    by_cases h2 : sub.step.fmod sup.step ≠ 0
    · rw [if_pos h2]; simp
    · rw [if_neg h2]; simp
  · rw [if_pos h1]; simp

/-- A selection by a list of numbers, in any order and with repetitions: if all of them are among those there are, they
are returned in increasing order without repetitions, and otherwise `ValueError` is raised.  What is missing is the
selection of a single number from a range of stride above one, and of none at all (`C58_single_number_fails`,
`C58_none_fails`). -/
theorem C58_ensure_list_partial (sup : PyIter) (hsup : Canonical sup) (xs : List Int) (hne : xs ≠ [])
    (hone : (∀ x ∈ xs, ∀ y ∈ xs, x = y) → ∀ r, sup = .range r → r.step = 1) :
    (∃ out, ensureSuperset sup (.items (.list xs)) = .ok out ∧ (∀ x ∈ xs, x ∈ sup.toList) ∧
      Spec.Arranges xs out.toList) ∨
    (ensureSuperset sup (.items (.list xs)) = .error .valueError ∧ ¬ ∀ x ∈ xs, x ∈ sup.toList) := by
  have hmem := SortedFrozenSet.mem_ofList xs
  have hs := SortedFrozenSet.ofList_sorted xs
  obtain ⟨x, hx⟩ := List.exists_mem_of_ne_nil _ hne
  rcases ensure_items sup (.list xs) hsup rfl hs (List.ne_nil_of_mem ((hmem x).mpr hx)) with
    ⟨out, h1, h2, h3, h4, h5⟩ | ⟨h1, h2⟩
  · refine Or.inl ⟨out, h1, fun x hx => h4 x ((hmem x).mpr hx), h3.sorted, fun x => ?_⟩
    rw [h2]; exact hmem x
  · refine Or.inr ⟨h1, ?_⟩
    rcases h2 with h | ⟨hl, r, hr, hn⟩
    · exact fun hc => h fun x hx => hc x ((hmem x).mp hx)
    · refine absurd (hone ?_ r hr) hn
      obtain ⟨a, ha⟩ := List.length_eq_one_iff.mp hl
      have key : ∀ x ∈ xs, x = a := by
        intro x hx
        have := (hmem x).mpr hx
        have hh : x ∈ (PyIter.list xs).toSfs.items := this
        rw [ha] at hh
        simpa using hh
      intro x hx y hy
      rw [key x hx, key y hy]

example : Canonical (.range ⟨100, 110, 2, by decide⟩) ∧ Canonical (.sfs ⟨[3, 4, 9]⟩) ∧
    (ensureSuperset (.range ⟨100, 110, 2, by decide⟩) (.items (.list [106, 100, 106]))).map PyIter.toList
      = .ok [100, 106] ∧
    (ensureSuperset (.range ⟨100, 110, 2, by decide⟩) (.items (.list [106, 101]))).map PyIter.toList
      = .error .valueError := by
  refine ⟨⟨by decide, by decide⟩, ?_, by decide +kernel, by decide +kernel⟩
  show List.Pairwise (· < ·) [3, 4, 9]
  decide

/-- One number cannot be selected from a range of stride above one, although it is there: `ValueError` is raised. -/
theorem C58_single_number_fails (r : PyRange) (hr : 1 < r.step) (h1 : r.len ≠ 1) (x : Int) :
    ensureSuperset (.range r) (.items (.list [x])) = .error .valueError := by
  rcases ensure_items (.range r) (.list [x]) ⟨by omega, fun h => absurd h h1⟩ rfl (SortedFrozenSet.ofList_sorted [x])
    (List.ne_nil_of_mem ((SortedFrozenSet.mem_ofList [x] x).mpr (by simp))) with ⟨out, -, -, -, -, h⟩ | ⟨h, -⟩
  · exact absurd ⟨rfl, r, rfl, by omega⟩ h
  · exact h

example : (102 : Int) ∈ (⟨100, 110, 2, by decide⟩ : PyRange).toList ∧ (⟨100, 110, 2, by decide⟩ : PyRange).len = 5 := by
  decide +kernel

/-- No numbers cannot be selected: `RuntimeError` is raised. -/
theorem C58_none_fails (sup : PyIter) : ensureSuperset sup (.items (.list [])) = .error .runtimeError := rfl

/-- A selection by a range, ascending or descending: likewise.  Missing are the empty range and, unless its step suits,
a range of one number. -/
theorem C58_ensure_range_partial (sup : PyIter) (hsup : Canonical sup) (r : PyRange) (hne : r.toList ≠ [])
    (hone : r.toList.length = 1 → ∀ p, sup = .range p → p.step ∣ r.step) :
    (∃ out, ensureSuperset sup (.items (.range r)) = .ok out ∧ (∀ x ∈ r.toList, x ∈ sup.toList) ∧
      Spec.Arranges r.toList out.toList) ∨
    (ensureSuperset sup (.items (.range r)) = .error .valueError ∧ ¬ ∀ x ∈ r.toList, x ∈ sup.toList) := by
  rcases ensure_range sup hsup r hne hone with ⟨out, h1, h2, h3, h4, h5⟩ | h
  · exact Or.inl ⟨.range out, h1, h3, h4, h5⟩
  · exact Or.inr h

example : (ensureSuperset (.range ⟨100, 110, 2, by decide⟩) (.items (.range ⟨108, 100, -4, by decide⟩))).map PyIter.toList
    = .ok [104, 108] := by decide +kernel

/-- A selection by a slice of the numbers there are, taken with any step above zero, has the numbers that the same slice
of a Python list of them has. -/
theorem C58_ensure_slice (sup : PyIter) (hsup : Canonical sup) (s : PySlice) (hs : 0 < s.step.getD 1) :
    (ensureSuperset sup (.slice s)).map PyIter.toList = pySliceList sup.toList s := by
  cases sup with
  | range r =>
    show (do return .range (← r.slice s) : Res PyIter).map PyIter.toList = pySliceList r.toList s
    rw [← PyRange.slice_eq]
    cases r.slice s <;> rfl
  | sfs x =>
    show (do return .sfs (SortedFrozenSet.ofList (← pySliceList x.items s)) : Res PyIter).map PyIter.toList = pySliceList x.items s
    cases h : pySliceList x.items s with
    | error e => rfl
    | ok l =>
      simp only [bind, Except.bind, pure, Except.pure, Except.map, PyIter.toList]
      congr 1
      exact strictSorted_ext (SortedFrozenSet.ofList_sorted l) (List.Pairwise.sublist (pySliceList_sublist h hs) hsup)
        (SortedFrozenSet.mem_ofList l)
  | _ => exact hsup.elim

example : pySliceList [100, 102, 104, 106, 108] ⟨some (-4), none, some 2⟩ = .ok [102, 106] := by decide +kernel

/-- With a negative step the answer depends on whether the numbers are equally spaced: if they are, they come in
descending order, and if not, in ascending order. -/
theorem C58_negative_step_differs :
    (ensureSuperset (.range ⟨0, 3, 1, by decide⟩) (.slice ⟨none, none, some (-1)⟩)).map PyIter.toList = .ok [2, 1, 0] ∧
      (ensureSuperset (.sfs ⟨[0, 1, 3]⟩) (.slice ⟨none, none, some (-1)⟩)).map PyIter.toList = .ok [0, 1, 3] := by
  decide +kernel

/-! ## C59 the traces of an array -/

/-- The trace indexes of an array of samples that has no traces missing are taken one-to-one to its positions exactly if
the array is square or empty. -/
theorem C59_iff (m n : Nat) :
    Spec.BijectsOnto (completeTraceIndexes (m, n)).toList (fun t => (completeInlineXlineIndex (m, n) t).toOption) m n ↔
      m = n ∨ m = 0 ∨ n = 0 := by
  have hmem : ∀ t : Int, t ∈ (completeTraceIndexes (m, n)).toList ↔ 0 ≤ t ∧ t < (m : Int) * n := by
    intro t
    rw [← PyRange.contains_iff]
    simp [completeTraceIndexes, PyRange.make1, PyRange.contains, Int.fmod_one]
  constructor
  · rintro ⟨h, -⟩
    by_contra hc
    push Not at hc
    obtain ⟨hmn, hm, hn⟩ := hc
    have hbad : ∃ t : Int, 0 ≤ t ∧ t < (m : Int) * n ∧ (completeInlineXlineIndex (m, n) t).toOption = none := by
      rcases Nat.lt_or_gt_of_ne hmn with hlt | hlt
      · refine ⟨(m : Int) * m, by positivity, ?_, ?_⟩
        · exact (mul_lt_mul_iff_right₀ (by omega)).mpr (by exact_mod_cast hlt)
        · unfold completeInlineXlineIndex
          rw [if_neg hm]
          simp only
          rw [if_pos]
          · rfl
          · rw [Int.mul_fdiv_cancel _ (by exact_mod_cast hm)]
            omega
      · refine ⟨n, by positivity, ?_, ?_⟩
        · have h1 : (1 : Int) < m := by omega
          have h2 : (0 : Int) < n := by omega
          nlinarith
        · unfold completeInlineXlineIndex
          rw [if_neg hm]
          simp only
          rw [if_pos]
          · rfl
          · rw [Int.fmod_eq_emod_of_nonneg _ (by omega), Int.emod_eq_of_lt (by omega) (by omega)]
            omega
    obtain ⟨t, h0, h1, h2⟩ := hbad
    obtain ⟨p, hp, -⟩ := h t ((hmem t).mpr ⟨h0, h1⟩)
    simp only [h2] at hp
    cases hp
  · intro h
    by_cases hz : m = 0 ∨ n = 0
    · refine ⟨fun t ht => ?_, fun i j h1 h2 h3 h4 => ?_⟩
      · have := (hmem t).mp ht
        rcases hz with rfl | rfl <;> simp at this <;> omega
      · rcases hz with rfl | rfl <;> simp at h2 h4 <;> omega
    · have hmn : m = n := by tauto
      subst hmn
      have hm : m ≠ 0 := by tauto
      have hpos : (0 : Int) < m := by omega
      have hval : ∀ t : Int, 0 ≤ t → t < (m : Int) * m →
          completeInlineXlineIndex (m, m) t = .ok (t / m, t % m) := by
        intro t h0 h1
        unfold completeInlineXlineIndex
        rw [if_neg hm]
        simp only
        rw [Int.fmod_eq_emod_of_nonneg _ (by omega), Int.fdiv_eq_ediv_of_nonneg _ (by omega), if_neg]
        rw [not_not]
        exact ⟨⟨Int.ediv_nonneg h0 hpos.le, Int.ediv_lt_of_lt_mul hpos h1⟩, Int.emod_nonneg _ (by omega),
          Int.emod_lt_of_pos _ hpos⟩
      refine ⟨fun t ht => ?_, fun i j h1 h2 h3 h4 => ?_⟩
      · obtain ⟨h0, h1⟩ := (hmem t).mp ht
        refine ⟨(t / m, t % m), ?_, ⟨Int.ediv_nonneg h0 hpos.le, Int.ediv_lt_of_lt_mul hpos h1⟩,
          Int.emod_nonneg _ (by omega), Int.emod_lt_of_pos _ hpos⟩
        simp only [hval t h0 h1]; rfl
      · have hd : (i * m + j) / m = i := by
          rw [Int.add_comm, Int.add_mul_ediv_right _ _ (by omega), Int.ediv_eq_zero_of_lt h3 h4, zero_add]
        have hmod : (i * m + j) % m = j := by
          rw [Int.add_comm, Int.add_mul_emod_self_right, Int.emod_eq_of_lt h3 h4]
        have hb0 : 0 ≤ i * m + j := by positivity
        have hb1 : i * m + j < m * m := by nlinarith
        refine ⟨i * m + j, ⟨(hmem _).mpr ⟨hb0, hb1⟩, ?_⟩, ?_⟩
        · simp only [hval _ hb0 hb1, hd, hmod]; rfl
        · rintro t ⟨ht, he⟩
          obtain ⟨h0, h1'⟩ := (hmem t).mp ht
          simp only [hval t h0 h1', Except.toOption, Option.some.injEq, Prod.mk.injEq] at he
          rw [← he.1, ← he.2, mul_comm]
          exact (Int.mul_ediv_add_emod t m).symm

/-- In a square array the traces are numbered row by row. -/
theorem C59_square_partial (n : Nat) (i j : Int) (hi : 0 ≤ i ∧ i < n) (hj : 0 ≤ j ∧ j < n) :
    completeInlineXlineIndex (n, n) (i * n + j) = .ok (i, j) := by
  unfold completeInlineXlineIndex
  have hd : (i * n + j) / n = i := by
    rw [Int.add_comm, Int.add_mul_ediv_right _ _ (by omega), Int.ediv_eq_zero_of_lt hj.1 hj.2, zero_add]
  have hmod : (i * n + j) % n = j := by
    rw [Int.add_comm, Int.add_mul_emod_self_right, Int.emod_eq_of_lt hj.1 hj.2]
  rw [if_neg (by simp only; omega)]
  simp only
  rw [Int.fmod_eq_emod_of_nonneg _ (by omega), Int.fdiv_eq_ediv_of_nonneg _ (by omega), hd, hmod, if_neg]
  rw [not_not]
  exact ⟨hi, hj⟩

example : completeInlineXlineIndex (3, 3) 5 = .ok (1, 2) := C59_square_partial 3 1 2 (by decide) (by decide)

/-- An array with two inlines and three crosslines: trace 2 is said to be the first of the second inline, though it is
the third of the first inline, and trace 4 raises `ValueError`. -/
theorem C59_not_square_fails :
    completeInlineXlineIndex (2, 3) 2 = .ok (1, 0) ∧ (4 : Int) ∈ (completeTraceIndexes (2, 3)).toList ∧
      completeInlineXlineIndex (2, 3) 4 = .error .valueError := by decide +kernel

/-- No array dataset can be made at all: the class leaves `num_traces` undefined. -/
theorem C59_no_instance_fails (shape : Nat × Nat) : makeDataset arrayDatasetDefines shape = .error .typeError := by
  unfold makeDataset
  rw [if_neg (by decide +kernel)]

/-- And if it could be, the trace indexes of one given with explicit numbers for its traces would not be available, as
the first question about any trace raises `AttributeError`. -/
theorem C59_incomplete_fails (shape : Nat × Nat) (h : shape.1 * shape.2 ≠ 0) :
    incompleteTraceIndexes shape = .error .attributeError := by
  unfold incompleteTraceIndexes
  rw [if_pos h]

end Segpy.Props
