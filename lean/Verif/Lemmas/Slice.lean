import Verif.Py.Slice
import Verif.Lemmas.Util

/-! # Lemmas about slices of lists and ranges -/

namespace Segpy

/-- Two ranges with the same indices have the same length. -/
theorem PyRange.len_eq_of {r s : PyRange} (h : ∀ i : Nat, i < r.len ↔ i < s.len) : r.len = s.len := by
  apply le_antisymm
  · by_contra hc; have := (h s.len).mp (by omega); omega
  · by_contra hc; have := (h r.len).mpr (by omega); omega

/-- The items of a range shifted and scaled. -/
theorem PyRange.toList_affine (i : PyRange) (a b : Int) (hb : b ≠ 0) (s : PyRange)
    (h : s.start = a + i.start * b ∧ s.stop = a + i.stop * b ∧ s.step = i.step * b) :
    s.toList = i.toList.map fun k => a + k * b := by
  obtain ⟨h1, h2, h3⟩ := h
  have hlen : s.len = i.len := by
    apply PyRange.len_eq_of
    intro j
    rw [lt_len_iff, lt_len_iff, h1, h2, h3]
    have e : a + i.start * b + (j : Int) * (i.step * b) = a + (i.start + (j : Int) * i.step) * b := by ring
    rw [e]
    generalize i.start + (j : Int) * i.step = x
    generalize i.stop = y
    have hne := i.step_ne
    generalize i.step = z at hne ⊢
    rcases lt_or_gt_of_ne hb with hb' | hb' <;> rcases lt_or_gt_of_ne hne with hz | hz
    · have : 0 < z * b := mul_pos_of_neg_of_neg hz hb'
      constructor
      · rintro (⟨_, h⟩ | ⟨h, _⟩)
        · right; exact ⟨hz, by nlinarith⟩
        · omega
      · rintro (⟨h, _⟩ | ⟨_, h⟩)
        · omega
        · left; exact ⟨this, by nlinarith⟩
    · have : z * b < 0 := mul_neg_of_pos_of_neg hz hb'
      constructor
      · rintro (⟨h, _⟩ | ⟨_, h⟩)
        · omega
        · left; exact ⟨hz, by nlinarith⟩
      · rintro (⟨_, h⟩ | ⟨h, _⟩)
        · right; exact ⟨this, by nlinarith⟩
        · omega
    · have : z * b < 0 := mul_neg_of_neg_of_pos hz hb'
      constructor
      · rintro (⟨h, _⟩ | ⟨_, h⟩)
        · omega
        · right; exact ⟨hz, by nlinarith⟩
      · rintro (⟨h, _⟩ | ⟨_, h⟩)
        · omega
        · right; exact ⟨this, by nlinarith⟩
    · have : 0 < z * b := mul_pos hz hb'
      constructor
      · rintro (⟨_, h⟩ | ⟨h, _⟩)
        · left; exact ⟨hz, by nlinarith⟩
        · omega
      · rintro (⟨_, h⟩ | ⟨h, _⟩)
        · left; exact ⟨this, by nlinarith⟩
        · omega
  unfold toList
  rw [hlen, List.map_map]
  apply List.map_congr_left
  intro j _
  simp only [Function.comp]
  rw [h1, h3]
  ring

/-- The indices selected by a slice are within bounds. -/
theorem PySlice.indices_bounds {s : PySlice} {n : Nat} {i : PyRange} (h : s.indices n = .ok i) :
    (∀ k ∈ i.toList, 0 ≤ k ∧ k < n) ∧ i.step = s.step.getD 1 := by
  unfold PySlice.indices PyRange.make at h
  simp only at h
  split at h
  · cases h
  rename_i hstep
  injection h with h
  refine ⟨?_, by rw [← h]⟩
  intro k hk
  rw [← PyRange.contains_iff] at hk
  unfold PyRange.contains at hk
  rw [← h] at hk
  simp only [Bool.and_eq_true] at hk
  have hk := hk.1
  by_cases hneg : s.step.getD 1 < 0
  · rw [if_neg (by omega)] at hk
    simp only [hneg, if_true, Bool.and_eq_true, decide_eq_true_iff] at hk
    obtain ⟨ha, hb⟩ := hk
    unfold PySlice.adjust at ha hb
    constructor
    · split at hb
      · omega
      · split at hb <;> omega
    · split at ha
      · omega
      · split at ha <;> omega
  · rw [if_pos (by omega)] at hk
    simp only [hneg, if_false, Bool.and_eq_true, decide_eq_true_iff] at hk
    obtain ⟨ha, hb⟩ := hk
    unfold PySlice.adjust at ha hb
    constructor
    · split at ha
      · omega
      · split at ha <;> omega
    · split at hb
      · omega
      · split at hb <;> omega

/-- Slicing a range is slicing the list of its items. -/
theorem PyRange.slice_eq (r : PyRange) (s : PySlice) :
    (r.slice s).map PyRange.toList = pySliceList r.toList s := by
  unfold PyRange.slice pySliceList
  rw [PyRange.length_toList]
  cases hi : s.indices r.len with
  | error e => rfl
  | ok i =>
    simp only [bind, Except.bind, pure, Except.pure]
    have hne := mul_ne_zero i.step_ne r.step_ne
    unfold PyRange.make
    rw [dif_neg hne]
    simp only [Except.map]
    congr 1
    rw [PyRange.toList_affine i r.start r.step r.step_ne _ ⟨rfl, rfl, rfl⟩]
    obtain ⟨hb, _⟩ := PySlice.indices_bounds hi
    rw [← List.filterMap_eq_map]
    apply List.filterMap_congr
    intro k hk
    obtain ⟨h0, h1⟩ := hb k hk
    have h2 : k.toNat < r.toList.length := by rw [PyRange.length_toList]; omega
    simp only [Function.comp]
    rw [List.getElem?_eq_getElem h2, PyRange.getElem_toList, Int.toNat_of_nonneg h0]

/-- A slice with a positive step selects a sublist in the order of the list. -/
theorem pySliceList_sublist {α : Type} {l l' : List α} {s : PySlice} (h : pySliceList l s = .ok l')
    (hs : 0 < s.step.getD 1) : l'.Sublist l := by
  unfold pySliceList at h
  cases hi : s.indices l.length with
  | error e => rw [hi] at h; cases h
  | ok i =>
    rw [hi] at h
    simp only [bind, Except.bind, pure, Except.pure, Except.ok.injEq] at h
    obtain ⟨hb, hst⟩ := PySlice.indices_bounds hi
    have hasc : i.toList.Pairwise (· < ·) := range_sorted_pos i (by omega)
    have hsub : ∀ (ks : List Int) (c : Nat), ks.Pairwise (· < ·) → (∀ k ∈ ks, (c : Int) ≤ k ∧ k < l.length) →
        (ks.filterMap fun i => l[i.toNat]?).Sublist (l.drop c) := by
      intro ks
      induction ks with
      | nil => intro c _ _; exact List.nil_sublist _
      | cons k ks ih =>
        intro c hp hk
        obtain ⟨h1, h2⟩ := hk k List.mem_cons_self
        have hlt : k.toNat < l.length := by omega
        rw [List.filterMap_cons_some (f := fun i : Int => l[i.toNat]?) (List.getElem?_eq_getElem hlt)]
        have hrest := ih (k.toNat + 1) (List.pairwise_cons.mp hp).2 (fun k' hk' => by
          have := (List.pairwise_cons.mp hp).1 k' hk'
          have := (hk k' (List.mem_cons_of_mem _ hk')).2
          omega)
        have : l.drop k.toNat = l[k.toNat] :: l.drop (k.toNat + 1) := (List.drop_eq_getElem_cons hlt)
        have hd : (l[k.toNat] :: l.drop (k.toNat + 1)).Sublist (l.drop c) := by
          rw [← this, show k.toNat = c + (k.toNat - c) by omega, ← List.drop_drop]
          exact List.drop_sublist _ _
        exact (hrest.cons_cons _).trans hd
    rw [← h]
    have := hsub i.toList 0 hasc (fun k hk => by have := hb k hk; omega)
    simpa using this

end Segpy
