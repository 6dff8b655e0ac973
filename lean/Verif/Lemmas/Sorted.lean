import Verif.Model.SortedFrozenSet
import Verif.Lemmas.Range
import Mathlib.Data.List.Sort
import Mathlib.Data.List.Perm.Basic

/-! # Lemmas about sorting, binary search and `SortedFrozenSet` -/

namespace Segpy

variable {α : Type} [LinearOrder α]

/-- A strictly increasing list is determined by its members. -/
theorem strictSorted_ext {l m : List α} (hl : l.Pairwise (· < ·)) (hm : m.Pairwise (· < ·))
    (h : ∀ a, a ∈ l ↔ a ∈ m) : l = m := by
  have hln : l.Nodup := hl.imp (fun h => ne_of_lt h)
  have hmn : m.Nodup := hm.imp (fun h => ne_of_lt h)
  have hp : l.Perm m := (List.perm_ext_iff_of_nodup hln hmn).mpr h
  exact List.Perm.eq_of_pairwise (fun a b _ _ h1 h2 => absurd h2 (not_lt.mpr h1.le)) hl hm hp

theorem pySorted_perm (l : List α) : (pySorted l).Perm l := List.perm_insertionSort _ _

theorem pySorted_pairwise (l : List α) : (pySorted l).Pairwise (· ≤ ·) := List.pairwise_insertionSort _ _

theorem pySortedBy_perm {β : Type} (k : β → α) (l : List β) : (pySortedBy k l).Perm l :=
  List.perm_insertionSort _ _

theorem pySortedBy_pairwise {β : Type} (k : β → α) (l : List β) :
    (pySortedBy k l).Pairwise (fun a b => k a ≤ k b) := by
  have : Std.Total (fun a b : β => k a ≤ k b) := ⟨fun a b => le_total (k a) (k b)⟩
  have : IsTrans β (fun a b : β => k a ≤ k b) := ⟨fun a b c h1 h2 => le_trans h1 h2⟩
  exact List.pairwise_insertionSort _ _

namespace SortedFrozenSet

theorem ofList_sorted (l : List α) : (ofList l).items.Pairwise (· < ·) := by
  have h1 := pySorted_pairwise l.dedup
  have h2 : (pySorted l.dedup).Nodup := (pySorted_perm _).nodup_iff.mpr (List.nodup_dedup l)
  exact (h1.and h2).imp (fun h => lt_of_le_of_ne h.1 h.2)

theorem mem_ofList (l : List α) (a : α) : a ∈ (ofList l).items ↔ a ∈ l := by
  unfold ofList
  simp only
  rw [(pySorted_perm _).mem_iff, List.mem_dedup]

theorem ofList_congr {l m : List α} (h : ∀ a, a ∈ l ↔ a ∈ m) : ofList l = ofList m := by
  have : (ofList l).items = (ofList m).items :=
    strictSorted_ext (ofList_sorted l) (ofList_sorted m) (by intro a; rw [mem_ofList, mem_ofList, h])
  cases h1 : ofList l; cases h2 : ofList m; simp_all

theorem ofList_of_sorted {l : List α} (h : l.Pairwise (· < ·)) : (ofList l).items = l :=
  strictSorted_ext (ofList_sorted l) h (mem_ofList l)

theorem ofList_items (l : List α) : ofList (ofList l).items = ofList l :=
  ofList_congr (mem_ofList l)

end SortedFrozenSet

/-- Binary search: everything before the result is smaller than `x`, nothing from it on is. -/
theorem bisectLoop_spec (a : List α) (x : α) (hs : a.Pairwise (· ≤ ·)) (lo hi : Nat)
    (hle : lo ≤ hi) (hhi : hi ≤ a.length)
    (hlo : ∀ j (h : j < a.length), j < lo → a[j] < x)
    (hhi' : ∀ j (h : j < a.length), hi ≤ j → ¬ a[j] < x) :
    bisectLoop a x lo hi ≤ a.length ∧
    (∀ j (h : j < a.length), j < bisectLoop a x lo hi → a[j] < x) ∧
    (∀ j (h : j < a.length), bisectLoop a x lo hi ≤ j → ¬ a[j] < x) := by
  induction hn : hi - lo using Nat.strongRecOn generalizing lo hi with
  | _ n ih =>
    unfold bisectLoop
    by_cases h : lo < hi
    · rw [if_pos h]
      have hmid : (lo + hi) / 2 < a.length := by omega
      simp only [List.getElem?_eq_getElem hmid]
      have mono : ∀ i j (hi : i < a.length) (hj : j < a.length), i ≤ j → a[i] ≤ a[j] := by
        intro i j hi hj hij
        rcases Nat.lt_or_eq_of_le hij with h | h
        · exact (List.pairwise_iff_getElem.mp hs) i j hi hj h
        · subst h; exact le_refl _
      split
      · rename_i hlt
        apply ih (hi - ((lo + hi) / 2 + 1)) (by omega) _ _ (by omega) hhi _ hhi' rfl
        intro j hj hj'
        exact lt_of_le_of_lt (mono j _ hj hmid (by omega)) hlt
      · rename_i hlt
        apply ih ((lo + hi) / 2 - lo) (by omega) _ _ (by omega) (by omega) hlo _ rfl
        intro j hj hj' hc
        exact hlt (lt_of_le_of_lt (mono _ j hmid hj hj') hc)
    · rw [if_neg h]
      have : lo = hi := by omega
      subst this
      exact ⟨hhi, hlo, hhi'⟩

theorem bisectLeft_spec (a : List α) (x : α) (hs : a.Pairwise (· ≤ ·)) :
    bisectLeft a x ≤ a.length ∧
    (∀ j (h : j < a.length), j < bisectLeft a x → a[j] < x) ∧
    (∀ j (h : j < a.length), bisectLeft a x ≤ j → ¬ a[j] < x) :=
  bisectLoop_spec a x hs 0 a.length (Nat.zero_le _) le_rfl (by intro j _ h; omega) (by intro j h h'; omega)

namespace SortedFrozenSet

theorem index_ok {s : SortedFrozenSet α} (hs : s.items.Pairwise (· < ·)) (i : Nat) (h : i < s.items.length) :
    s.index s.items[i] = .ok i := by
  have hle : s.items.Pairwise (· ≤ ·) := hs.imp le_of_lt
  obtain ⟨h1, h2, h3⟩ := bisectLeft_spec s.items s.items[i] hle
  have hb : bisectLeft s.items s.items[i] = i := by
    rcases lt_trichotomy (bisectLeft s.items s.items[i]) i with hc | hc | hc
    · have := h3 (bisectLeft s.items s.items[i]) (by omega) le_rfl
      exact absurd ((List.pairwise_iff_getElem.mp hs) _ _ (by omega) h hc) this
    · exact hc
    · exact absurd (h2 i h hc) (lt_irrefl _)
  unfold index
  simp only [hb]
  rw [if_pos (by omega)]
  simp [h]

theorem index_error {s : SortedFrozenSet α} (hs : s.items.Pairwise (· < ·)) (x : α) (h : x ∉ s.items) :
    s.index x = .error .valueError := by
  have hle : s.items.Pairwise (· ≤ ·) := hs.imp le_of_lt
  obtain ⟨h1, h2, h3⟩ := bisectLeft_spec s.items x hle
  unfold index
  simp only
  split
  · rename_i hne
    have hlt : bisectLeft s.items x < s.items.length := by omega
    rw [List.getElem?_eq_getElem hlt]
    simp only
    rw [if_neg]
    intro hc
    exact h (hc ▸ List.getElem_mem hlt)
  · rfl

theorem contains_eq {s : SortedFrozenSet α} (hs : s.items.Pairwise (· < ·)) (x : α) :
    s.contains x = .ok (decide (x ∈ s.items)) := by
  unfold contains
  by_cases h : x ∈ s.items
  · obtain ⟨i, hi, rfl⟩ := List.mem_iff_getElem.mp h
    rw [index_ok hs i hi]
    simp
  · rw [index_error hs x h]
    simp [h]

theorem filterIn_eq {s : SortedFrozenSet α} (hs : s.items.Pairwise (· < ·)) (l : List α) (keep : Bool) :
    s.filterIn l keep = .ok (l.filter (fun x => decide (x ∈ s.items) == keep)) := by
  induction l with
  | nil => rfl
  | cons x l ih =>
    unfold filterIn
    rw [contains_eq hs, ih]
    simp only [bind, Except.bind, pure, Except.pure, List.filter_cons]
    by_cases h : decide (x ∈ s.items) = keep <;> simp [h]

theorem allIn_eq {s : SortedFrozenSet α} (hs : s.items.Pairwise (· < ·)) (l : List α) :
    s.allIn l = .ok (decide (∀ x ∈ l, x ∈ s.items)) := by
  induction l with
  | nil => simp [allIn]
  | cons x l ih =>
    unfold allIn
    rw [contains_eq hs]
    simp only [bind, Except.bind, pure, Except.pure]
    by_cases h : x ∈ s.items
    · simp [h, ih]
    · simp [h]

theorem isdisjoint_eq {s : SortedFrozenSet α} (hs : s.items.Pairwise (· < ·)) (t : SortedFrozenSet α) :
    s.isdisjoint t = .ok (decide (∀ x ∈ t.items, x ∉ s.items)) := by
  unfold isdisjoint
  generalize t.items = l
  induction l with
  | nil => simp [isdisjoint.go]
  | cons x l ih =>
    unfold isdisjoint.go
    rw [contains_eq hs]
    simp only [bind, Except.bind, pure, Except.pure]
    by_cases h : x ∈ s.items
    · simp [h]
    · simp [h, ih]

theorem sorted_nodup {l : List α} (h : l.Pairwise (· < ·)) : l.Nodup := h.imp (fun h => ne_of_lt h)

end SortedFrozenSet

end Segpy
