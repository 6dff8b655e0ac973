import Verif.Model.SetMethods
import Verif.Spec.SetMethods
import Verif.Lemmas.SetMethods
import Verif.Props.Sequences

/-!
# Property C91: slices and set methods of `SortedFrozenSet`

As in C19, a set is what the constructor makes of a list of items in any order, repetitions included.
-/

namespace Segpy.Props

open Segpy SortedFrozenSet

variable {α : Type} [LinearOrder α]

/-- A slice of a set with a step of zero raises `ValueError`.  Every other slice is again a set, and its members are
exactly the items at the positions the slice selects. -/
theorem C91_slice (xs : List α) (sl : PySlice) :
    (sl.step = some 0 → (ofList xs).getSlice sl = .error .valueError) ∧
    (sl.step ≠ some 0 → ∃ t, (ofList xs).getSlice sl = .ok t ∧ t.toList.Pairwise (· < ·) ∧
      ∀ a, a ∈ t.toList ↔ ∃ p, Selects (ofList xs).len sl p ∧ (ofList xs).toList[p]? = some a) := by
  constructor
  · intro h
    unfold getSlice pySliceList PySlice.indices PyRange.make
    simp only [h, Option.getD_some, dite_true]
    rfl
  · intro h
    have hne : sl.step.getD 1 ≠ 0 := by
      cases hs : sl.step with
      | none => simp
      | some c => rw [hs] at h; simpa using h
    obtain ⟨i, hi⟩ : ∃ i, sl.indices (ofList xs).items.length = .ok i := by
      unfold PySlice.indices PyRange.make
      simp only [dif_neg hne]
      exact ⟨_, rfl⟩
    refine ⟨ofList (i.toList.filterMap fun i => (ofList xs).items[i.toNat]?), ?_, ofList_sorted _, ?_⟩
    · unfold getSlice pySliceList
      rw [hi]
      rfl
    · intro a
      unfold toList
      rw [mem_ofList, List.mem_filterMap]
      constructor
      · rintro ⟨k, hk, ha⟩
        have h0 := ((PySlice.indices_bounds hi).1 k hk).1
        refine ⟨k.toNat, ?_, ha⟩
        apply (indices_selects hi _).mp
        rwa [Int.toNat_of_nonneg h0]
      · rintro ⟨p, hp, ha⟩
        exact ⟨p, (indices_selects hi p).mpr hp, by simpa using ha⟩

/-- For `0 ≤ a ≤ b`, `s[a:b]` iterates over the items from position `a` up to position `b`, in order. -/
theorem C91_slice_between (xs : List α) (a b : Nat) (hab : a ≤ b) :
    ((ofList xs).getSlice ⟨some a, some b, none⟩).map toList = .ok (((ofList xs).toList.drop a).take (b - a)) := by
  obtain ⟨t, ht, hs, hm⟩ := (C91_slice xs ⟨some a, some b, none⟩).2 (by simp)
  rw [ht]
  simp only [Except.map]
  congr 1
  apply strictSorted_ext hs
  · exact ((ofList_sorted xs).drop).take
  · intro x
    rw [hm]
    unfold Selects fromEnd
    simp only [Option.getD_none, Option.map_some, Option.getD_some, Option.mem_def, Option.some.injEq,
      forall_eq']
    simp only [show (0 : Int) < 1 from by omega, if_true, isUnit_one, IsUnit.dvd, and_true]
    rw [List.mem_iff_getElem?]
    unfold len toList
    constructor
    · rintro ⟨p, ⟨hp, h1, h2⟩, hx⟩
      refine ⟨p - a, ?_⟩
      rw [List.getElem?_take_of_lt (by split at h2 <;> omega), List.getElem?_drop]
      rw [← hx]; congr 1; split at h1 <;> omega
    · rintro ⟨j, hj⟩
      rw [List.getElem?_take] at hj
      split at hj
      · rw [List.getElem?_drop] at hj
        refine ⟨a + j, ⟨?_, ?_, ?_⟩, hj⟩
        · exact (List.getElem?_eq_some_iff.mp hj).1
        · split <;> omega
        · split <;> omega
      · cases hj

/-- Direction does not matter: `s[::-1]` equals `s`. -/
theorem C91_slice_backwards (xs : List α) :
    (ofList xs).getSlice ⟨none, none, some (-1)⟩ = .ok (ofList xs) := by
  obtain ⟨t, ht, hs, hm⟩ := (C91_slice xs ⟨none, none, some (-1)⟩).2 (by decide)
  rw [ht]
  congr 1
  have : t.toList = (ofList xs).toList := by
    apply strictSorted_ext hs (ofList_sorted xs)
    intro x
    rw [hm, List.mem_iff_getElem?]
    unfold Selects
    simp only [Option.getD_some, Option.map_none, Option.getD_none, Option.mem_def, reduceCtorEq, false_implies,
      implies_true, IsUnit.dvd, isUnit_one, IsUnit.neg_iff, and_true]
    unfold len toList
    simp only [show ¬ (0 : Int) < -1 from by omega, if_false]
    constructor
    · rintro ⟨p, _, h⟩; exact ⟨p, h⟩
    · rintro ⟨p, h⟩
      have := (List.getElem?_eq_some_iff.mp h).1
      exact ⟨p, ⟨this, by omega⟩, h⟩
  cases t
  simp only [toList] at this
  rw [this]

/-- The members of an argument. -/
def members : PyIterable α → List α
  | .set s => s.toList
  | .other l => l

/-- Every `SortedFrozenSet` argument was made by the constructor too. -/
def FromConstructor : PyIterable α → Prop
  | .set s => ∃ xs, s = ofList xs
  | .other _ => True

theorem construct_eq {it : PyIterable α} (h : FromConstructor it) : construct it = ofList (members it) := by
  cases it with
  | set s =>
    obtain ⟨xs, rfl⟩ := h
    exact (ofList_items xs).symm
  | other l => rfl

/-- The named methods take any iterable, in any order and with repetitions, never raise, and give the mathematical
answer: inclusion in both directions, and a sorted result with the right members. -/
theorem C91_methods (xs : List α) (it : PyIterable α) (hit : FromConstructor it) :
    (ofList xs).issubset it = .ok (decide (∀ a ∈ xs, a ∈ members it)) ∧
    (ofList xs).issuperset it = .ok (decide (∀ a ∈ members it, a ∈ xs)) ∧
    (∃ t, (ofList xs).intersection it = .ok t ∧ t.toList.Pairwise (· < ·) ∧
      ∀ a, a ∈ t.toList ↔ a ∈ xs ∧ a ∈ members it) ∧
    (((ofList xs).unionWith it).toList.Pairwise (· < ·) ∧
      ∀ a, a ∈ ((ofList xs).unionWith it).toList ↔ a ∈ xs ∨ a ∈ members it) ∧
    (∃ t, (ofList xs).difference it = .ok t ∧ t.toList.Pairwise (· < ·) ∧
      ∀ a, a ∈ t.toList ↔ a ∈ xs ∧ a ∉ members it) ∧
    (∃ t, (ofList xs).symmetricDifference it = .ok t ∧ t.toList.Pairwise (· < ·) ∧
      ∀ a, a ∈ t.toList ↔ ¬ (a ∈ xs ↔ a ∈ members it)) := by
  unfold issubset issuperset intersection unionWith difference symmetricDifference
  rw [construct_eq hit]
  obtain ⟨h1, h2, _, h3, h4⟩ := C19_operators xs (members it)
  obtain ⟨h5, h6, _⟩ := C19_comparisons xs (members it)
  refine ⟨h5, h6, ⟨_, h1, ofList_sorted _, ?_⟩, ⟨by rw [h2]; exact ofList_sorted _, ?_⟩, ⟨_, h3, ofList_sorted _, ?_⟩,
    ⟨_, h4, ofList_sorted _, ?_⟩⟩
  · intro a; unfold toList; rw [mem_ofList]; simp [and_comm]
  · intro a; rw [h2]; unfold toList; rw [mem_ofList]; simp
  · intro a; unfold toList; rw [mem_ofList]; simp
  · intro a; unfold toList; rw [mem_ofList]; simp; tauto

/-- Making a set of a set changes nothing, and multiplying commutes. -/
theorem C91_construct_mul (xs : List α) (n : Int) :
    construct (.set (ofList xs)) = ofList xs ∧ construct (.other (ofList xs).toList) = ofList xs ∧
    ((ofList xs).rmul n).toList = (if 0 < n then (ofList xs).toList else []) := by
  refine ⟨rfl, ofList_items xs, ?_⟩
  unfold rmul mul
  split <;> rfl

/-- `reversed(s)` runs through the items in descending order. -/
theorem C91_reversed (xs : List α) : (ofList xs).reversedItems = .ok (ofList xs).toList.reverse := by
  have key : ∀ (l : List α) (ks : List Nat), (∀ k ∈ ks, k < l.length) →
      ks.mapM (fun i : Nat => pyGet l (i : Int)) = .ok (ks.filterMap fun k => l[k]?) := by
    intro l ks
    induction ks with
    | nil => intro _; rfl
    | cons k ks ih =>
      intro h
      have hk := h k List.mem_cons_self
      rw [List.mapM_cons, pyGet_nat l k hk, ih (fun k' h' => h k' (List.mem_cons_of_mem _ h'))]
      rw [List.filterMap_cons_some (f := fun k : Nat => l[k]?) (List.getElem?_eq_getElem hk)]
      rfl
  unfold reversedItems SortedFrozenSet.get toList len
  rw [key _ _ (by intro k hk; simpa using hk), List.filterMap_reverse]
  congr 2
  apply List.ext_getElem?
  intro j
  have : ∀ l : List α, (List.range l.length).filterMap (fun k => l[k]?) = l := by
    intro l
    induction l with
    | nil => rfl
    | cons x l ih =>
      rw [List.length_cons, List.range_succ_eq_map, List.filterMap_cons_some (b := x) (by rfl), List.filterMap_map]
      congr 1
  rw [this]

example : ((ofList [5, 3, 9, 3, 1, 7] : SortedFrozenSet Int).getSlice ⟨some (-2), none, some (-2)⟩).map toList =
    .ok [3, 7] := by decide +kernel
example : ((ofList [5, 3, 9, 3, 1, 7] : SortedFrozenSet Int).getSlice ⟨none, none, some 0⟩) = .error .valueError := by
  decide +kernel
example : Selects 5 ⟨some (-2), none, some (-2)⟩ 1 ∧ ¬ Selects 5 ⟨some (-2), none, some (-2)⟩ 2 := by
  unfold Selects fromEnd; simp
example : (ofList [5, 3, 9] : SortedFrozenSet Int).symmetricDifference (.other [9, 4, 4, 5]) = .ok (ofList [3, 4]) := by
  decide +kernel
example : (ofList [5, 3] : SortedFrozenSet Int).issubset (.other [3, 3, 4, 5]) = .ok true := by decide +kernel
example : (ofList [5, 3, 9] : SortedFrozenSet Int).reversedItems = .ok [9, 5, 3] := by decide +kernel

end Segpy.Props
