import Verif.Lemmas.Sorted
import Mathlib.Data.Finset.Card
import Mathlib.Data.Finset.Dedup
import Mathlib.Data.List.NodupEquivFin

/-!
# Properties C19 (`SortedFrozenSet`) and C20 (`ReversedSequenceView`)

`SortedFrozenSet.ofList xs` is the constructor `SortedFrozenSet(xs)`; every object of the class is built
by it, so the theorems quantify over the constructor's argument.  Specifications are stated with list
membership and `List.Pairwise (· < ·)` (strictly increasing).
-/

namespace Segpy.Props

variable {α : Type} [LinearOrder α]

open SortedFrozenSet

/-! ## C19 -/

/-- Construction gives exactly the distinct items in strictly increasing order, and any strictly
increasing list with those members is what iteration produces. -/
theorem C19_construct (xs : List α) :
    (ofList xs).toList.Pairwise (· < ·) ∧ (∀ a, a ∈ (ofList xs).toList ↔ a ∈ xs) ∧
    (∀ l : List α, l.Pairwise (· < ·) → (∀ a, a ∈ l ↔ a ∈ xs) → (ofList xs).toList = l) := by
  refine ⟨ofList_sorted xs, mem_ofList xs, ?_⟩
  intro l hl hm
  exact strictSorted_ext (ofList_sorted xs) hl (fun a => (mem_ofList xs a).trans (hm a).symm)

/-- `len` is the number of distinct items. -/
theorem C19_len (xs : List α) : (ofList xs).len = xs.toFinset.card := by
  unfold len
  rw [← List.toFinset_card_of_nodup (sorted_nodup (ofList_sorted xs))]
  congr 1
  ext a
  simp [mem_ofList]

/-- Membership by binary search is membership, and never raises. -/
theorem C19_contains (xs : List α) (a : α) : (ofList xs).contains a = .ok (decide (a ∈ xs)) := by
  rw [contains_eq (ofList_sorted xs)]
  simp [mem_ofList]

/-- `index` returns the position at which iteration yields the item, `ValueError` if there is none. -/
theorem C19_index (xs : List α) (a : α) :
    (∀ i, (ofList xs).index a = .ok i ↔ (ofList xs).toList[i]? = some a) ∧
    ((ofList xs).index a = .error .valueError ↔ a ∉ xs) ∧
    (∀ i, (ofList xs).index a = .ok i → (ofList xs).get i = .ok a) := by
  have hs := ofList_sorted xs
  have hn := sorted_nodup hs
  by_cases h : a ∈ (ofList xs).items
  · obtain ⟨i, hi, rfl⟩ := List.mem_iff_getElem.mp h
    have hmem : (ofList xs).items[i] ∈ xs := (mem_ofList xs _).mp h
    rw [index_ok hs i hi]
    refine ⟨?_, by simp [hmem], ?_⟩
    · intro j
      unfold toList
      constructor
      · intro e; cases e; exact List.getElem?_eq_getElem hi
      · intro e
        obtain ⟨hj, e⟩ := List.getElem?_eq_some_iff.mp e
        rw [(List.Nodup.getElem_inj_iff hn).mp e]
    · intro j e
      cases e
      exact pyGet_nat _ i hi
  · have hmem : a ∉ xs := fun hc => h ((mem_ofList xs a).mpr hc)
    rw [index_error hs a h]
    refine ⟨?_, by simp [hmem], by intro i e; cases e⟩
    intro j
    constructor
    · intro e; cases e
    · intro e
      exact absurd (List.mem_of_getElem? e) h

/-- `count` is 1 for members and 0 otherwise. -/
theorem C19_count (xs : List α) (a : α) : (ofList xs).count a = if a ∈ xs then 1 else 0 := by
  unfold count
  simp only [mem_ofList]

/-- Equality is equality of the sets of items. -/
theorem C19_eq (xs ys : List α) : (ofList xs).eq (ofList ys) = true ↔ ∀ a, a ∈ xs ↔ a ∈ ys := by
  unfold SortedFrozenSet.eq
  rw [decide_eq_true_iff]
  constructor
  · intro h a
    rw [← mem_ofList xs, h, mem_ofList]
  · intro h
    rw [ofList_congr h]

/-- The binary operators never raise and return the canonical object of the mathematical result. -/
theorem C19_operators (xs ys : List α) :
    (ofList xs).inter (ofList ys) = .ok (ofList (ys.filter (fun a => a ∈ xs))) ∧
    (ofList xs).union (ofList ys) = ofList (xs ++ ys) ∧
    (ofList xs).add (ofList ys) = ofList (xs ++ ys) ∧
    (ofList xs).diff (ofList ys) = .ok (ofList (xs.filter (fun a => a ∉ ys))) ∧
    (ofList xs).xor (ofList ys) =
      .ok (ofList (xs.filter (fun a => a ∉ ys) ++ ys.filter (fun a => a ∉ xs))) := by
  have hd : ∀ xs ys : List α, (ofList xs).diff (ofList ys) = .ok (ofList (xs.filter (fun a => a ∉ ys))) := by
    intro xs ys
    unfold diff
    rw [filterIn_eq (ofList_sorted _)]
    simp only [bind, Except.bind, pure, Except.pure]
    congr 1
    apply ofList_congr
    intro a
    simp [mem_ofList]
  refine ⟨?_, ?_, ?_, hd xs ys, ?_⟩
  · unfold inter
    rw [filterIn_eq (ofList_sorted _)]
    simp only [bind, Except.bind, pure, Except.pure]
    congr 1
    apply ofList_congr
    intro a
    simp [mem_ofList]
  · exact ofList_congr (by intro a; simp [mem_ofList])
  · exact ofList_congr (by intro a; simp [mem_ofList])
  · unfold SortedFrozenSet.xor
    rw [hd, hd]
    simp only [bind, Except.bind, pure, Except.pure]
    congr 1
    exact ofList_congr (by intro a; simp [mem_ofList])

/-- Comparison operators are (strict) inclusion, and `isdisjoint` is disjointness. -/
theorem C19_comparisons (xs ys : List α) :
    (ofList xs).le (ofList ys) = .ok (decide (∀ a ∈ xs, a ∈ ys)) ∧
    (ofList xs).ge (ofList ys) = .ok (decide (∀ a ∈ ys, a ∈ xs)) ∧
    (ofList xs).lt (ofList ys) = .ok (decide ((∀ a ∈ xs, a ∈ ys) ∧ ¬ ∀ a ∈ ys, a ∈ xs)) ∧
    (ofList xs).gt (ofList ys) = .ok (decide ((∀ a ∈ ys, a ∈ xs) ∧ ¬ ∀ a ∈ xs, a ∈ ys)) ∧
    (ofList xs).isdisjoint (ofList ys) = .ok (decide (∀ a ∈ ys, a ∉ xs)) := by
  have card_le : ∀ xs ys : List α, (∀ a ∈ xs, a ∈ ys) → (ofList xs).len ≤ (ofList ys).len := by
    intro xs ys h
    rw [C19_len, C19_len]
    exact Finset.card_le_card (by intro a; simp; exact h a)
  have card_eq : ∀ xs ys : List α, (∀ a ∈ xs, a ∈ ys) → (ofList ys).len ≤ (ofList xs).len → ∀ a ∈ ys, a ∈ xs := by
    intro xs ys h hc a ha
    rw [C19_len, C19_len] at hc
    have := Finset.eq_of_subset_of_card_le (s := xs.toFinset) (t := ys.toFinset) (by intro a; simp; exact h a) hc
    have h2 : a ∈ ys.toFinset := by simpa using ha
    rw [← this] at h2
    simpa using h2
  have hle : ∀ xs ys : List α, (ofList xs).le (ofList ys) = .ok (decide (∀ a ∈ xs, a ∈ ys)) := by
    intro xs ys
    unfold SortedFrozenSet.le
    split
    · rename_i h
      have : ¬ ∀ a ∈ xs, a ∈ ys := fun hc => absurd (card_le _ _ hc) (by omega)
      simp only [this, decide_false]
    · rw [allIn_eq (ofList_sorted _)]
      simp only [mem_ofList]
  have hge : ∀ xs ys : List α, (ofList xs).ge (ofList ys) = .ok (decide (∀ a ∈ ys, a ∈ xs)) := by
    intro xs ys
    unfold SortedFrozenSet.ge
    split
    · rename_i h
      have : ¬ ∀ a ∈ ys, a ∈ xs := fun hc => absurd (card_le _ _ hc) (by omega)
      simp only [this, decide_false]
    · rw [allIn_eq (ofList_sorted _)]
      simp only [mem_ofList]
  refine ⟨hle xs ys, hge xs ys, ?_, ?_, ?_⟩
  · unfold SortedFrozenSet.lt
    split
    · rename_i h
      rw [hle]
      have : ¬ ∀ a ∈ ys, a ∈ xs := fun hc => absurd (card_le _ _ hc) (by omega)
      simp only [this, not_false_eq_true, and_true]
    · rename_i h
      have : ¬ ((∀ a ∈ xs, a ∈ ys) ∧ ¬ ∀ a ∈ ys, a ∈ xs) := by
        rintro ⟨h1, h2⟩
        exact h2 (card_eq _ _ h1 (by omega))
      simp only [this, decide_false]
  · unfold SortedFrozenSet.gt
    split
    · rename_i h
      rw [hge]
      have : ¬ ∀ a ∈ xs, a ∈ ys := fun hc => absurd (card_le _ _ hc) (by omega)
      simp only [this, not_false_eq_true, and_true]
    · rename_i h
      have : ¬ ((∀ a ∈ ys, a ∈ xs) ∧ ¬ ∀ a ∈ xs, a ∈ ys) := by
        rintro ⟨h1, h2⟩
        exact h2 (card_eq _ _ h1 (by omega))
      simp only [this, decide_false]
  · rw [isdisjoint_eq (ofList_sorted _)]
    simp only [mem_ofList]

/-- Repetition. -/
theorem C19_mul (xs : List α) (n : Int) : (ofList xs).mul n = if 0 < n then ofList xs else ofList [] := rfl

example : (ofList [5, 3, 9, 3, 1] : SortedFrozenSet Int).toList = [1, 3, 5, 9] := by decide +kernel
example : (ofList [5, 3, 9, 3, 1] : SortedFrozenSet Int).index 9 = .ok 3 := by decide +kernel
example : (ofList [5, 3, 1] : SortedFrozenSet Int).lt (ofList [1, 2, 3, 5]) = .ok true := by decide +kernel

/-! ## C20 -/

/-- Specification: the list a (possibly nested) view stands for. -/
def items : PySeq α → List α
  | .list l => l
  | .rev s => (items s).reverse

omit [LinearOrder α] in
/-- Length and indexing (positive, negative and out of range) of a view, at any depth of nesting, are
those of the reversed list. -/
theorem C20_len_get (s : PySeq α) :
    s.len = (items s).length ∧ ∀ i, s.get i = pyGet (items s) i := by
  induction s with
  | list l => exact ⟨rfl, fun _ => rfl⟩
  | rev s ih =>
    obtain ⟨ih1, ih2⟩ := ih
    refine ⟨by simp [PySeq.len, items, ih1], ?_⟩
    intro i
    unfold PySeq.get PySeq.reverseIndex
    rw [ih1]
    simp only [items]
    set l := items s
    rw [pyGet_spec]
    simp only [List.length_reverse]
    by_cases h0 : i < 0
    · rw [dif_neg (by omega)]
      by_cases h1 : 0 ≤ i + l.length
      · rw [dif_pos ⟨h0, h1⟩]
        have h2 : i + (l.length : Int) < l.length := by omega
        simp only [h0, if_true, h1, h2, decide_true, Bool.and_self, Bool.not_true, Bool.false_eq_true,
          if_false, bind, Except.bind]
        rw [ih2]
        have e : ((l.length : Int) - (i + l.length) - 1) = ((l.length - 1 - (i + l.length).toNat : Nat) : Int) := by omega
        rw [e, pyGet_nat _ _ (by omega), List.getElem_reverse]
      · rw [dif_neg (by omega)]
        have h2 : ¬ (0 ≤ i + (l.length : Int)) := h1
        simp only [h0, if_true, h2, decide_false, Bool.false_and, Bool.not_false, bind, Except.bind]
    · by_cases h1 : i < l.length
      · rw [dif_pos (by omega)]
        have h2 : 0 ≤ i := by omega
        simp only [h0, if_false, h1, h2, decide_true, Bool.and_self, Bool.not_true, Bool.false_eq_true,
          bind, Except.bind]
        rw [ih2]
        have e : ((l.length : Int) - i - 1) = ((l.length - 1 - i.toNat : Nat) : Int) := by omega
        rw [e, pyGet_nat _ _ (by omega), List.getElem_reverse]
      · rw [dif_neg (by omega), dif_neg (by omega)]
        simp only [h0, if_false, h1, decide_false, Bool.and_false, Bool.not_false, if_true, bind, Except.bind]

theorem C20_contains_count (s : PySeq α) (a : α) :
    (s.contains a = true ↔ a ∈ items s) ∧ s.count a = (items s).count a := by
  induction s with
  | list l => exact ⟨by simp [PySeq.contains, items], rfl⟩
  | rev s ih => simp [PySeq.contains, PySeq.count, items, ih]

omit [LinearOrder α] in
/-- Iterating a view of a list yields the items in reverse. -/
theorem C20_iter (l : List α) : (PySeq.rev (.list l)).toList = .ok l.reverse := rfl

omit [LinearOrder α] in
/-- Iterating a view of a view raises `TypeError`, since `__reversed__` does not return an iterator: the
full property does not hold for nested views. -/
theorem C20_nested_iter_fails (s : PySeq α) : (PySeq.rev (.rev s)).toList = .error .typeError := rfl

theorem indexLoop_shift (a : α) (l : List α) (k : Nat) :
    indexLoop a k l = if a ∈ l then .ok ((k + l.idxOf a : Nat) : Int) else .error .valueError := by
  induction l generalizing k with
  | nil => rfl
  | cons b l ih =>
    unfold indexLoop
    by_cases h : b = a
    · subst h; simp
    · have h' : a ≠ b := fun e => h e.symm
      simp only [h, if_false, ih, List.mem_cons, h', false_or]
      split
      · rw [List.idxOf_cons_ne _ h]
        congr 1; push_cast; ring
      · rfl

/-- `index` on a view of a list gives the first position in the reversed order, or `ValueError`. -/
theorem C20_index (l : List α) (a : α) :
    (PySeq.rev (.list l)).index a =
      if a ∈ l then .ok ((l.reverse.idxOf a : Nat) : Int) else .error .valueError := by
  unfold PySeq.index
  by_cases hc : (PySeq.list l).count a = 1
  · rw [if_pos hc]
    have hc' : l.count a = 1 := hc
    have hmem : a ∈ l := List.count_pos_iff.mp (by omega)
    unfold PySeq.index
    rw [indexLoop_shift, if_pos hmem, if_pos hmem]
    simp only [bind, Except.bind, Nat.zero_add]
    unfold PySeq.reverseIndex PySeq.len
    have hlt := List.idxOf_lt_length_of_mem hmem
    have h1 : ¬ ((l.idxOf a : Nat) : Int) < 0 := by omega
    have h2 : (0 : Int) ≤ ((l.idxOf a : Nat) : Int) := by omega
    have h3 : ((l.idxOf a : Nat) : Int) < l.length := by omega
    simp only [h1, if_false, h2, h3, decide_true, Bool.and_self, Bool.not_true, Bool.false_eq_true]
    -- the unique occurrence
    have hr : a ∈ l.reverse := by simpa using hmem
    have hrlt := List.idxOf_lt_length_of_mem hr
    have e1 : l[l.length - 1 - l.reverse.idxOf a]'(by simp at hrlt; omega) = a := by
      have := List.getElem_idxOf (xs := l.reverse) hrlt
      rw [List.getElem_reverse] at this
      exact this
    have e2 : l[l.idxOf a] = a := List.getElem_idxOf hlt
    have uniq : ∀ (i j : Nat) (hi : i < l.length) (hj : j < l.length), l[i] = a → l[j] = a → i = j := by
      intro i j hi hj h1 h2
      by_contra hne
      wlog hlt' : i < j generalizing i j
      · exact this j i hj hi h2 h1 (Ne.symm hne) (by omega)
      have hd : 2 ≤ l.count a := by
        rw [← List.duplicate_iff_two_le_count, List.duplicate_iff_exists_distinct_get]
        exact ⟨⟨i, hi⟩, ⟨j, hj⟩, hlt', by simp [h1], by simp [h2]⟩
      omega
    have := uniq _ _ (by simp at hrlt; omega) hlt e1 e2
    simp at hrlt
    congr 1
    omega
  · rw [if_neg hc]
    simp only [PySeq.toList, bind, Except.bind]
    rw [indexLoop_shift]
    simp

example : (PySeq.rev (.list [1, 2, 3, 2] : PySeq Int)).index 2 = .ok 0 := by decide +kernel
example : (PySeq.rev (.list [1, 2, 3, 2] : PySeq Int)).get (-1) = .ok 1 := by decide +kernel

end Segpy.Props
