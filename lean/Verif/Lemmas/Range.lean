import Verif.Py.Range
import Mathlib.Data.List.Nodup
import Mathlib.Data.List.Range

/-! # Lemmas about `range` -/

namespace Segpy

theorem pyGet_nat {α : Type} (l : List α) (i : Nat) (h : i < l.length) : pyGet l (i : Int) = .ok l[i] := by
  unfold pyGet
  have h1 : ¬ ((i : Int) < 0) := by omega
  simp [h1, h]

theorem pyGet_spec {α : Type} (l : List α) (i : Int) :
    pyGet l i = (if h : 0 ≤ i ∧ i < l.length then .ok (l[i.toNat]'(by omega))
      else if h : i < 0 ∧ 0 ≤ i + l.length then .ok (l[(i + l.length).toNat]'(by omega))
      else .error .indexError) := by
  unfold pyGet
  by_cases h0 : i < 0
  · rw [dif_neg (by omega)]
    by_cases h1 : 0 ≤ i + l.length
    · rw [dif_pos ⟨h0, h1⟩]
      have h2 : ¬ (i + l.length < 0) := by omega
      have h3 : (i + l.length).toNat < l.length := by omega
      simp [h0, h2, h3]
    · rw [dif_neg (by omega)]
      have h2 : (i + l.length < 0) := by omega
      simp [h0, h2]
  · by_cases h1 : i < l.length
    · rw [dif_pos (by omega)]
      have h3 : i.toNat < l.length := by omega
      simp [h0, h3]
    · rw [dif_neg (by omega), dif_neg (by omega)]
      have h3 : l.length ≤ i.toNat := by omega
      simp [h0, h3]

namespace PyRange

theorem lt_len_iff (r : PyRange) (i : Nat) :
    i < r.len ↔ (0 < r.step ∧ r.start + i * r.step < r.stop) ∨ (r.step < 0 ∧ r.stop < r.start + i * r.step) := by
  have hne := r.step_ne
  unfold len
  by_cases hs : 0 < r.step
  · rw [if_pos hs]
    have hno : ¬ r.step < 0 := by omega
    simp only [hs, true_and, hno, false_and, or_false]
    split
    · rename_i h
      have h1 : 0 ≤ (r.stop - r.start - 1) / r.step := Int.ediv_nonneg (by omega) hs.le
      have h2 := @Int.le_ediv_iff_mul_le (i : Int) (r.stop - r.start - 1) r.step hs
      constructor
      · intro hi
        have : (i : Int) * r.step ≤ r.stop - r.start - 1 := h2.mp (by omega)
        omega
      · intro hi
        have : (i : Int) ≤ (r.stop - r.start - 1) / r.step := h2.mpr (by omega)
        omega
    · rename_i h
      have : 0 ≤ (i : Int) * r.step := by positivity
      omega
  · rw [if_neg hs]
    have hn : r.step < 0 := by omega
    simp only [hs, false_and, hn, true_and, false_or]
    split
    · rename_i h
      have hs' : 0 < -r.step := by omega
      have h1 : 0 ≤ (r.start - r.stop - 1) / (-r.step) := Int.ediv_nonneg (by omega) hs'.le
      have h2 := @Int.le_ediv_iff_mul_le (i : Int) (r.start - r.stop - 1) (-r.step) hs'
      rw [mul_neg] at h2
      constructor
      · intro hi
        have : -((i : Int) * r.step) ≤ r.start - r.stop - 1 := h2.mp (by omega)
        omega
      · intro hi
        have : (i : Int) ≤ (r.start - r.stop - 1) / (-r.step) := h2.mpr (by omega)
        omega
    · rename_i h
      have : (i : Int) * r.step ≤ 0 := by nlinarith
      omega

@[simp] theorem length_toList (r : PyRange) : r.toList.length = r.len := by simp [toList]

theorem getElem_toList (r : PyRange) (i : Nat) (h : i < r.toList.length) :
    r.toList[i] = r.start + i * r.step := by simp [toList]

theorem mem_toList (r : PyRange) (x : Int) : x ∈ r.toList ↔ ∃ i : Nat, i < r.len ∧ x = r.start + i * r.step := by
  simp only [toList, List.mem_map, List.mem_range]
  constructor
  · rintro ⟨i, h, rfl⟩; exact ⟨i, h, rfl⟩
  · rintro ⟨i, h, rfl⟩; exact ⟨i, h, rfl⟩

theorem nodup_toList (r : PyRange) : r.toList.Nodup := by
  unfold toList
  apply List.Nodup.map _ List.nodup_range
  intro a b h
  have h : r.start + (a : Int) * r.step = r.start + (b : Int) * r.step := h
  have : (a : Int) * r.step = (b : Int) * r.step := by omega
  have := mul_right_cancel₀ r.step_ne this
  omega

theorem contains_iff (r : PyRange) (x : Int) : r.contains x = true ↔ x ∈ r.toList := by
  have hne := r.step_ne
  rw [mem_toList]
  unfold contains
  rw [Bool.and_eq_true, decide_eq_true_iff]
  have hdvd : (x - r.start).fmod r.step = 0 ↔ r.step ∣ x - r.start := (Int.dvd_iff_fmod_eq_zero).symm
  rw [hdvd]
  by_cases hs : 0 < r.step
  · simp only [hs, if_true, Bool.and_eq_true, decide_eq_true_iff]
    constructor
    · rintro ⟨⟨h1, h2⟩, k, hk⟩
      have hk0 : 0 ≤ k := by
        by_contra hc
        have : r.step * k < 0 := mul_neg_of_pos_of_neg hs (by omega)
        omega
      refine ⟨k.toNat, ?_, ?_⟩
      · rw [lt_len_iff]
        left
        refine ⟨hs, ?_⟩
        rw [Int.toNat_of_nonneg hk0, mul_comm]; omega
      · rw [Int.toNat_of_nonneg hk0, mul_comm]; omega
    · rintro ⟨i, hi, rfl⟩
      rw [lt_len_iff] at hi
      have : 0 ≤ (i : Int) * r.step := by positivity
      refine ⟨⟨by omega, by omega⟩, i, by ring⟩
  · have hn : r.step < 0 := by omega
    simp only [hs, if_false, Bool.and_eq_true, decide_eq_true_iff]
    constructor
    · rintro ⟨⟨h1, h2⟩, k, hk⟩
      have hk0 : 0 ≤ k := by
        by_contra hc
        have : 0 < r.step * k := mul_pos_of_neg_of_neg hn (by omega)
        omega
      refine ⟨k.toNat, ?_, ?_⟩
      · rw [lt_len_iff]
        right
        refine ⟨hn, ?_⟩
        rw [Int.toNat_of_nonneg hk0, mul_comm]; omega
      · rw [Int.toNat_of_nonneg hk0, mul_comm]; omega
    · rintro ⟨i, hi, rfl⟩
      rw [lt_len_iff] at hi
      have : (i : Int) * r.step ≤ 0 := by nlinarith
      refine ⟨⟨by omega, by omega⟩, i, by ring⟩

theorem index_of_mem (r : PyRange) (i : Nat) (h : i < r.len) :
    r.index (r.start + i * r.step) = .ok i := by
  have hc : r.contains (r.start + i * r.step) = true := (contains_iff _ _).mpr ((mem_toList _ _).mpr ⟨i, h, rfl⟩)
  unfold index
  rw [if_pos hc]
  have : (r.start + (i : Int) * r.step - r.start).fdiv r.step = i := by
    rw [add_sub_cancel_left, Int.mul_fdiv_cancel _ r.step_ne]
  rw [this]; rfl

theorem index_of_not_mem (r : PyRange) (x : Int) (h : x ∉ r.toList) : r.index x = .error .valueError := by
  unfold index
  rw [if_neg]
  rw [contains_iff]; exact h

theorem get_eq (r : PyRange) (i : Int) : r.get i = pyGet r.toList i := by
  rw [pyGet_spec]
  unfold get
  simp only [length_toList]
  by_cases h0 : i < 0
  · rw [dif_neg (by omega)]
    simp only [h0, if_true]
    by_cases h1 : 0 ≤ i + r.len
    · rw [dif_pos ⟨trivial, h1⟩, if_neg (by omega), getElem_toList, Int.toNat_of_nonneg h1]
    · rw [dif_neg (by omega), if_pos (by omega)]
  · simp only [h0, if_false, false_or]
    by_cases h1 : i < r.len
    · rw [dif_pos (by omega), if_neg (by omega), getElem_toList, Int.toNat_of_nonneg (by omega)]
    · rw [dif_neg (by omega), dif_neg (fun h => h.1), if_pos (by omega)]

theorem get_nat (r : PyRange) (i : Nat) (h : i < r.len) : r.get i = .ok (r.start + i * r.step) := by
  unfold get
  simp only [show ¬ ((i : Int) < 0) by omega, if_false, false_or]
  rw [if_neg (by omega)]

end PyRange

end Segpy
