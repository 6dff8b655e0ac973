import Verif.Model.Util
import Verif.Lemmas.Sorted
import Mathlib.Tactic.Common

/-! # Lemmas about the helpers of `util.py` -/

namespace Segpy

theorem zip_tail_forall {α : Type} (R : α → α → Prop) (a : α) (l : List α) :
    (∀ p ∈ List.zip (a :: l) l, R p.1 p.2) ↔ (a :: l).IsChain R := by
  induction l generalizing a with
  | nil => simp
  | cons b l ih =>
    rw [List.zip_cons_cons, List.isChain_cons_cons, ← ih b]
    simp

theorem pairwise_all {α : Type} (R : α → α → Prop) [∀ a b, Decidable (R a b)] (l : List α) (h : l ≠ []) :
    (do let ps ← pairwise l
        return ps.all fun p => decide (R p.1 p.2) : Res Bool) = .ok (decide (l.IsChain R)) := by
  cases l with
  | nil => exact absurd rfl h
  | cons a l =>
    simp only [pairwise, bind, Except.bind, pure, Except.pure]
    congr 1
    rw [Bool.eq_iff_iff, List.all_eq_true, decide_eq_true_iff, ← zip_tail_forall]
    simp only [decide_eq_true_iff]

theorem measureStrideLoop_some (s d : Int) (ps : List (Int × Int)) :
    measureStrideLoop (some s) ps = some d ↔ s = d ∧ ∀ p ∈ ps, p.2 - p.1 = d := by
  induction ps with
  | nil => simp [measureStrideLoop]
  | cons p ps ih =>
    obtain ⟨a, b⟩ := p
    unfold measureStrideLoop
    by_cases h : s = b - a
    · simp only [h, ne_eq, not_true_eq_false, if_false]
      rw [← h, ih]
      simp only [List.mem_cons, forall_eq_or_imp]
      constructor
      · rintro ⟨e, f⟩; exact ⟨e, h.symm.trans e, f⟩
      · rintro ⟨e, _, f⟩; exact ⟨e, f⟩
    · simp only [h, ne_eq, not_false_eq_true, if_true]
      simp only [List.mem_cons, forall_eq_or_imp]
      constructor
      · intro e; cases e
      · intro e; exact absurd (e.1.trans e.2.1.symm) h

theorem measureStrideList_eq (l : List Int) (h : l ≠ []) (d : Int) :
    measureStrideList l = .ok (some d) ↔ 2 ≤ l.length ∧ l.IsChain (fun a b => b - a = d) := by
  match l, h with
  | [a], _ => simp [measureStrideList, pairwise, measureStrideLoop, bind, Except.bind, pure, Except.pure]
  | a :: b :: t, _ =>
    simp only [measureStrideList, pairwise, bind, Except.bind, pure, Except.pure, Except.ok.injEq,
      List.zip_cons_cons, measureStrideLoop]
    rw [measureStrideLoop_some, ← zip_tail_forall (fun a b => b - a = d)]
    simp

theorem measureStrideList_total (l : List Int) (h : l ≠ []) : ∃ o, measureStrideList l = .ok o := by
  cases l with
  | nil => exact absurd rfl h
  | cons a l => exact ⟨_, rfl⟩

theorem reversedRange_toList (r : PyRange) : (reversedRange r).toList = r.toList.reverse := by
  have hne := r.step_ne
  set q := (r.stop - r.start).fdiv r.step with hq
  set m := (r.stop - r.start).fmod r.step with hm
  have hdm : r.stop - r.start = q * r.step + m := by
    have := Int.fmod_add_mul_fdiv (r.stop - r.start) r.step
    rw [← hq, ← hm] at this; linarith [this, mul_comm r.step q]
  set n := q - (if m = 0 then 1 else 0) with hn
  have hstart : (reversedRange r).start = r.start + n * r.step := rfl
  have hstep : (reversedRange r).step = -r.step := rfl
  have hstop : (reversedRange r).stop = r.start - r.step + m := by
    show r.start + n * r.step + n * -r.step + (-r.step + m) = _
    ring
  -- characterise both lengths by `n + 1`
  have hl1 : ∀ i : Nat, i < r.len ↔ (i : Int) < n + 1 := by
    intro i
    rw [PyRange.lt_len_iff]
    rcases lt_or_gt_of_ne hne with hs | hs
    · have hm1 : r.step < m ∧ m ≤ 0 := by
        rw [hm, Int.fmod_eq_emod]
        have := Int.emod_nonneg (r.stop - r.start) hne
        have := Int.emod_lt_abs (r.stop - r.start) hne
        rw [abs_of_neg hs] at this
        split
        · rename_i h
          rcases h with h | h
          · omega
          · have := Int.emod_eq_zero_of_dvd h; omega
        · rename_i h
          push Not at h
          have : (r.stop - r.start) % r.step ≠ 0 := fun hc => h.2 (Int.dvd_of_emod_eq_zero hc)
          omega
      simp only [show ¬ 0 < r.step by omega, false_and, hs, true_and, false_or]
      have e : r.stop < r.start + i * r.step ↔ q * r.step + m < i * r.step := by omega
      rw [e]
      by_cases hm0 : m = 0
      · simp only [hm0, if_true] at hn
        rw [hm0, add_zero]
        constructor
        · intro h; have := lt_of_mul_lt_mul_of_nonpos_right h hs.le; omega
        · intro h
          have : (i : Int) < q := by omega
          exact mul_lt_mul_of_neg_right this hs
      · simp only [hm0, if_false, sub_zero] at hn
        constructor
        · intro h
          by_contra hc
          have h1 : q + 1 ≤ i := by omega
          have h2 : (i : Int) * r.step ≤ (q + 1) * r.step := by nlinarith
          nlinarith
        · intro h
          have h1 : (i : Int) ≤ q := by omega
          have h2 : q * r.step ≤ i * r.step := by nlinarith
          omega
    · have hm1 : 0 ≤ m ∧ m < r.step := by
        rw [hm]
        exact ⟨Int.fmod_nonneg_of_pos _ hs, Int.fmod_lt_of_pos _ hs⟩
      simp only [show ¬ r.step < 0 by omega, false_and, hs, true_and, or_false]
      have e : r.start + i * r.step < r.stop ↔ i * r.step < q * r.step + m := by omega
      rw [e]
      by_cases hm0 : m = 0
      · simp only [hm0, if_true] at hn
        rw [hm0, add_zero]
        constructor
        · intro h; have := lt_of_mul_lt_mul_right h hs.le; omega
        · intro h
          have : (i : Int) < q := by omega
          exact mul_lt_mul_of_pos_right this hs
      · simp only [hm0, if_false, sub_zero] at hn
        constructor
        · intro h
          by_contra hc
          have h1 : q + 1 ≤ i := by omega
          have h2 : (q + 1) * r.step ≤ i * r.step := by nlinarith
          nlinarith
        · intro h
          have h1 : (i : Int) ≤ q := by omega
          have h2 : i * r.step ≤ q * r.step := by nlinarith
          omega
  have hl2 : ∀ i : Nat, i < (reversedRange r).len ↔ (i : Int) < n + 1 := by
    intro i
    rw [PyRange.lt_len_iff, hstart, hstop, hstep]
    rcases lt_or_gt_of_ne hne with hs | hs
    · have hm1 : r.step < m ∧ m ≤ 0 := by
        rw [hm, Int.fmod_eq_emod]
        have := Int.emod_nonneg (r.stop - r.start) hne
        have := Int.emod_lt_abs (r.stop - r.start) hne
        rw [abs_of_neg hs] at this
        split
        · rename_i h
          rcases h with h | h
          · omega
          · have := Int.emod_eq_zero_of_dvd h; omega
        · rename_i h
          push Not at h
          have : (r.stop - r.start) % r.step ≠ 0 := fun hc => h.2 (Int.dvd_of_emod_eq_zero hc)
          omega
      simp only [show 0 < -r.step by omega, true_and, show ¬ -r.step < 0 by omega, false_and, or_false]
      constructor
      · intro h
        by_contra hc
        have h1 : n + 1 ≤ i := by omega
        nlinarith
      · intro h
        have h1 : (i : Int) ≤ n := by omega
        nlinarith
    · have hm1 : 0 ≤ m ∧ m < r.step := by
        rw [hm]
        exact ⟨Int.fmod_nonneg_of_pos _ hs, Int.fmod_lt_of_pos _ hs⟩
      simp only [show ¬ 0 < -r.step by omega, false_and, show -r.step < 0 by omega, true_and, false_or]
      constructor
      · intro h
        by_contra hc
        have h1 : n + 1 ≤ i := by omega
        nlinarith
      · intro h
        have h1 : (i : Int) ≤ n := by omega
        nlinarith
  have hlen : (reversedRange r).len = r.len := by
    apply le_antisymm
    · by_contra hc
      have h1 := (hl2 r.len).mp (by omega)
      have h2 := (hl1 r.len).mpr h1
      omega
    · by_contra hc
      have h1 := (hl1 (reversedRange r).len).mp (by omega)
      have h2 := (hl2 (reversedRange r).len).mpr h1
      omega
  apply List.ext_getElem
  · simp [hlen]
  · intro i h1 h2
    rw [List.getElem_reverse, PyRange.getElem_toList, PyRange.getElem_toList, hstart, hstep]
    simp only [PyRange.length_toList] at h1 h2 ⊢
    have hi : i < r.len := by omega
    have hn1 : n + 1 = r.len := by
      have a := (hl1 (r.len - 1)).mp (by omega)
      have b := mt (hl1 r.len).mpr (by omega)
      omega
    have e : (((r.len - 1 - i : Nat)) : Int) = n - i := by omega
    rw [e]; ring

theorem range_sorted_pos (r : PyRange) (h : 0 < r.step) : r.toList.Pairwise (· < ·) := by
  rw [List.pairwise_iff_getElem]
  intro i j hi hj hij
  rw [PyRange.getElem_toList, PyRange.getElem_toList]
  have : (i : Int) < j := by omega
  nlinarith

theorem range_sorted_neg (r : PyRange) (h : r.step < 0) : r.toList.Pairwise (· > ·) := by
  rw [List.pairwise_iff_getElem]
  intro i j hi hj hij
  rw [PyRange.getElem_toList, PyRange.getElem_toList]
  have : (i : Int) < j := by omega
  show _ > _
  nlinarith

/-- A list with a constant difference between neighbours is an arithmetic progression. -/
theorem chain_getElem {l : List Int} {d : Int} (h : l.IsChain (fun a b => b - a = d)) (h0 : 0 < l.length) (i : Nat)
    (hi : i < l.length) : l[i] = l[0] + i * d := by
  induction i with
  | zero => simp
  | succ i ih =>
    have h1 := ih (by omega)
    have h2 := (List.isChain_iff_getElem.mp h) i (by omega)
    have h3 : l[i + 1] - l[i] = d := h2
    push_cast
    linarith

/-- The range built from the first item, last item and stride of an arithmetic progression. -/
theorem chain_range {l : List Int} {d : Int} (hd : d ≠ 0) (h : l.IsChain (fun a b => b - a = d))
    (h0 : 0 < l.length) (r : PyRange)
    (hr : r.start = l[0] ∧ r.stop = l[l.length - 1] + d ∧ r.step = d) : r.toList = l := by
  obtain ⟨hr1, hr2, hr3⟩ := hr
  have hlast := chain_getElem h h0 (l.length - 1) (by omega)
  have e : (((l.length - 1 : Nat)) : Int) = (l.length : Int) - 1 := by omega
  rw [e] at hlast
  have hlt : ∀ i : Nat, i < r.len ↔ i < l.length := by
    intro i
    rw [PyRange.lt_len_iff, hr1, hr2, hr3, hlast]
    rcases lt_or_gt_of_ne hd with hs | hs
    · simp only [hs, true_and, show ¬ 0 < d by omega, false_and, false_or]
      constructor
      · intro h
        by_contra hc
        have : (l.length : Int) ≤ i := by omega
        nlinarith
      · intro h
        have : (i : Int) + 1 ≤ l.length := by omega
        nlinarith
    · simp only [hs, true_and, show ¬ d < 0 by omega, false_and, or_false]
      constructor
      · intro h
        by_contra hc
        have : (l.length : Int) ≤ i := by omega
        nlinarith
      · intro h
        have : (i : Int) + 1 ≤ l.length := by omega
        nlinarith
  have hlen : r.len = l.length := by
    apply le_antisymm
    · by_contra hc; have := (hlt l.length).mp (by omega); omega
    · by_contra hc; have := (hlt r.len).mpr (by omega); omega
  apply List.ext_getElem
  · simp [hlen]
  · intro i h1 h2
    rw [PyRange.getElem_toList, chain_getElem h h0 i h2, hr1, hr3]

theorem singleItemRange_toList (x : Int) : (singleItemRange x).toList = [x] := by
  unfold singleItemRange PyRange.make1 PyRange.toList PyRange.len
  simp

theorem pyGet_zero {α : Type} (l : List α) (h : 0 < l.length) : pyGet l 0 = .ok l[0] := pyGet_nat l 0 h

theorem pyGet_last {α : Type} (l : List α) (h : 0 < l.length) : pyGet l (-1) = .ok l[l.length - 1] := by
  rw [pyGet_spec, dif_neg (by omega), dif_pos (by omega)]
  congr 2
  omega

theorem rev_get (l : List Int) (i : Int) : (PySeq.rev (.list l)).get i = pyGet l.reverse i := by
  unfold PySeq.get PySeq.reverseIndex PySeq.get PySeq.len
  rw [pyGet_spec]
  simp only [List.length_reverse]
  by_cases h0 : i < 0
  · rw [dif_neg (by omega)]
    by_cases h1 : 0 ≤ i + l.length
    · rw [dif_pos ⟨h0, h1⟩]
      have h2 : i + (l.length : Int) < l.length := by omega
      simp only [h0, if_true, h1, h2, decide_true, Bool.and_self, Bool.not_true, Bool.false_eq_true,
        if_false, bind, Except.bind]
      have e : ((l.length : Int) - (i + l.length) - 1) = ((l.length - 1 - (i + l.length).toNat : Nat) : Int) := by omega
      rw [e, pyGet_nat _ _ (by omega), List.getElem_reverse]
    · rw [dif_neg (by omega)]
      simp only [h0, if_true, h1, decide_false, Bool.false_and, Bool.not_false, bind, Except.bind]
  · by_cases h1 : i < l.length
    · rw [dif_pos (by omega)]
      have h2 : 0 ≤ i := by omega
      simp only [h0, if_false, h1, h2, decide_true, Bool.and_self, Bool.not_true, Bool.false_eq_true,
        bind, Except.bind]
      have e : ((l.length : Int) - i - 1) = ((l.length - 1 - i.toNat : Nat) : Int) := by omega
      rw [e, pyGet_nat _ _ (by omega), List.getElem_reverse]
    · rw [dif_neg (by omega), dif_neg (by omega)]
      simp only [h0, if_false, h1, decide_false, Bool.and_false, Bool.not_false, if_true, bind, Except.bind]

/-- Indexing any of the sequence types is indexing the list of its items. -/
theorem PyIter.get_eq (it : PyIter) (i : Int) : it.get i = pyGet it.toList i := by
  cases it with
  | list l => rfl
  | gen l => rfl
  | range r => exact PyRange.get_eq r i
  | sfs s => rfl
  | rev s => exact rev_get s.items i

theorem PyIter.len_eq (it : PyIter) : it.len = it.toList.length := by
  cases it <;> simp [PyIter.len, PyIter.toList]

/-- A single item, or equal spacing. -/
def EquallySpaced (l : List Int) : Prop := l.length = 1 ∨ (2 ≤ l.length ∧ ∃ d, l.IsChain (fun a b => b - a = d))

/-- Outcome of `compress_sorted_sequence_to_range` on a non-empty non-range sequence of distinct items. -/
theorem compress_spec (seq : PyIter) (hne : seq.toList ≠ []) (hr : seq.isRange = false) (hnd : seq.toList.Nodup) :
    ∃ out, compressSortedSequenceToRange seq = .ok out ∧ out.toList = seq.toList ∧
      (out.isRange = true ↔ EquallySpaced seq.toList) ∧ (out.isRange = false → out = seq) := by
  have hpos : 0 < seq.toList.length := List.length_pos_iff.mpr hne
  unfold compressSortedSequenceToRange
  rw [PyIter.len_eq]
  by_cases h1 : seq.toList.length = 1
  · rw [if_pos h1, PyIter.get_eq, pyGet_zero _ hpos]
    refine ⟨.range (singleItemRange seq.toList[0]), rfl, ?_, ?_, ?_⟩
    · show (singleItemRange seq.toList[0]).toList = _
      rw [singleItemRange_toList]
      obtain ⟨x, hx⟩ := List.length_eq_one_iff.mp h1
      simp [hx]
    · simp only [PyIter.isRange, true_iff]; exact Or.inl h1
    · intro h; simp [PyIter.isRange] at h
  · rw [if_neg h1]
    have hms : measureStride seq = measureStrideList seq.toList := by
      cases seq <;> first | rfl | (simp [PyIter.isRange] at hr)
    rw [hms]
    obtain ⟨o, ho⟩ := measureStrideList_total seq.toList hne
    rw [ho]
    cases o with
    | none =>
      refine ⟨seq, rfl, rfl, ?_, fun _ => rfl⟩
      rw [hr]
      simp only [Bool.false_eq_true, false_iff]
      rintro (h | ⟨h2, d, hd⟩)
      · exact h1 h
      · have := (measureStrideList_eq seq.toList hne d).mpr ⟨h2, hd⟩
        rw [ho] at this; cases this
    | some d =>
      obtain ⟨h2, hd⟩ := (measureStrideList_eq seq.toList hne d).mp ho
      have hd0 : d ≠ 0 := by
        rintro rfl
        have a := chain_getElem hd hpos 1 (by omega)
        simp only [mul_zero, add_zero] at a
        have := (List.Nodup.getElem_inj_iff hnd).mp a
        omega
      simp only [bind, Except.bind, pure, Except.pure]
      rw [PyIter.get_eq, pyGet_zero _ hpos]
      simp only
      rw [PyIter.get_eq, pyGet_last _ hpos]
      simp only
      unfold PyRange.make
      rw [dif_neg hd0]
      refine ⟨_, rfl, ?_, ?_, ?_⟩
      · exact chain_range hd0 hd hpos _ ⟨rfl, rfl, rfl⟩
      · simp only [PyIter.isRange, true_iff]; exact Or.inr ⟨h2, d, hd⟩
      · intro h; simp [PyIter.isRange] at h

theorem groupRuns_cons {α : Type} [DecidableEq α] (a : α) (l : List α) :
    ∃ g gs, groupRuns (a :: l) = (a :: g) :: gs ∧ (gs = [] ↔ ∀ x ∈ l, x = a) := by
  induction l generalizing a with
  | nil => exact ⟨[], [], rfl, by simp⟩
  | cons b l ih =>
    obtain ⟨g, gs, h1, h2⟩ := ih b
    unfold groupRuns
    rw [h1]
    by_cases h : a = b
    · subst h
      simp only [if_true]
      exact ⟨_, _, rfl, by simp [h2]⟩
    · simp only [h, if_false]
      refine ⟨_, _, rfl, ?_⟩
      simp [Ne.symm h]

theorem allEqual_iff {α : Type} [DecidableEq α] (l : List α) :
    allEqual l = true ↔ ∀ x ∈ l, ∀ y ∈ l, x = y := by
  cases l with
  | nil => simp [allEqual, groupRuns]
  | cons a l =>
    obtain ⟨g, gs, h1, h2⟩ := groupRuns_cons a l
    unfold allEqual
    rw [h1]
    cases gs with
    | nil =>
      have h := h2.mp rfl
      simp only [true_iff]
      intro x hx y hy
      have hx2 : x = a := (List.mem_cons.mp hx).elim id (h x)
      have hy2 : y = a := (List.mem_cons.mp hy).elim id (h y)
      rw [hx2, hy2]
    | cons g2 gs =>
      simp only [Bool.false_eq_true, false_iff]
      intro hall
      have := h2.mpr (fun x hx => hall x (List.mem_cons_of_mem _ hx) a (List.mem_cons_self))
      cases this

end Segpy
