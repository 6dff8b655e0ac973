import Verif.Lemmas.Slice
import Verif.Model.Numpy
import Verif.Props.Util

/-! # Lemmas about selections of numbers from the sequences of a reader -/

namespace Segpy

/-- The sequence is of the kind that a 3D reader lists numbers by, or a range of sample numbers: an ascending range with
at least one item, of step one if it has no other, or an ascending `SortedFrozenSet`. -/
def Canonical : PyIter → Prop
  | .range r => 0 < r.step ∧ (r.len = 1 → r.step = 1)
  | .sfs s => s.items.Pairwise (· < ·)
  | _ => False

theorem Canonical.sorted {it : PyIter} (h : Canonical it) : it.toList.Pairwise (· < ·) := by
  cases it with
  | range r => exact range_sorted_pos r h.1
  | sfs s => exact h
  | _ => exact h.elim

theorem Canonical.contains {it : PyIter} (h : Canonical it) (x : Int) :
    it.contains x = .ok (decide (x ∈ it.toList)) := by
  cases it with
  | range r =>
    show Except.ok (r.contains x) = _
    congr 1
    rw [Bool.eq_iff_iff, PyRange.contains_iff, decide_eq_true_iff]
    rfl
  | sfs s => exact SortedFrozenSet.contains_eq h x
  | _ => exact h.elim

/-- `make_sorted_distinct_sequence` of anything but a range. -/
theorem makeSorted_shape (it : PyIter) (hr : it.isRange = false) (hs : it.toSfs.items.Pairwise (· < ·))
    (hne : it.toSfs.items ≠ []) :
    ∃ out, makeSortedDistinctSequence it (some .ascending) = .ok out ∧ out.toList = it.toSfs.items ∧ Canonical out ∧
      (out.toList.length = 1 → out = .range (singleItemRange (out.toList.headD 0))) := by
  have hmk : makeSortedDistinctSequence it (some .ascending) = compressSortedSequenceToRange (.sfs it.toSfs) := by
    cases it with
    | range r => simp [PyIter.isRange] at hr
    | _ => rfl
  obtain ⟨out, h1, h2, h3, h4⟩ := compress_spec (.sfs it.toSfs) hne rfl (SortedFrozenSet.sorted_nodup hs)
  have h2' : out.toList = it.toSfs.items := h2
  have hsingle : out.toList.length = 1 → out = .range (singleItemRange (out.toList.headD 0)) := by
    intro hl
    unfold compressSortedSequenceToRange at h1
    rw [PyIter.len_eq] at h1
    rw [h2'] at hl ⊢
    rw [if_pos (show (PyIter.sfs it.toSfs).toList.length = 1 from hl), PyIter.get_eq,
      pyGet_zero _ (show 0 < (PyIter.sfs it.toSfs).toList.length by show 0 < it.toSfs.items.length; omega)] at h1
    simp only [bind, Except.bind, pure, Except.pure, Except.ok.injEq] at h1
    rw [← h1]
    show PyIter.range (singleItemRange it.toSfs.items[0]) = _
    congr 2
    rw [List.headD_eq_head?_getD, List.head?_eq_getElem?, List.getElem?_eq_getElem (by omega)]
    rfl
  refine ⟨out, hmk.trans h1, h2', ?_, hsingle⟩
  cases hir : out.isRange with
  | false => rw [h4 hir]; exact hs
  | true =>
    cases out with
    | range r =>
      have hlist : r.toList = it.toSfs.items := h2'
      by_cases hl : r.len = 1
      · have := hsingle (show r.toList.length = 1 by rw [PyRange.length_toList]; exact hl)
        injection this with this
        rw [this]
        exact ⟨by simp [singleItemRange, PyRange.make1], fun _ => rfl⟩
      · refine ⟨?_, fun h => absurd h hl⟩
        have hpos : 0 < r.len := by
          rw [← PyRange.length_toList, hlist]; exact List.length_pos_iff.mpr hne
        rw [← hlist] at hs
        have e := List.pairwise_iff_getElem.mp hs 0 1 (by rw [PyRange.length_toList]; omega)
          (by rw [PyRange.length_toList]; omega) (by omega)
        rw [PyRange.getElem_toList, PyRange.getElem_toList] at e
        push_cast at e
        linarith
    | _ => simp [PyIter.isRange] at hir

theorem last_get (r : PyRange) (h : 0 < r.len) : r.get (-1) = .ok (r.start + (r.len - 1 : Nat) * r.step) := by
  rw [PyRange.get_eq, pyGet_last _ (by rw [PyRange.length_toList]; exact h), PyRange.getElem_toList,
    PyRange.length_toList]

/-- `is_range_superset_of_range` on ascending ranges. -/
theorem isRangeSuperset_eq (sup sub : PyRange) (h1 : 0 < sup.step) (h2 : 0 < sub.step) (hne : sub.toList ≠ []) :
    isRangeSupersetOfRange sup sub =
      .ok (decide ((∀ x ∈ sub.toList, x ∈ sup.toList) ∧ (sub.toList.length = 1 → sup.step ∣ sub.step))) := by
  have hlen : 0 < sub.len := by rw [← PyRange.length_toList]; exact List.length_pos_iff.mpr hne
  have hstart : sub.start ∈ sub.toList := (PyRange.mem_toList _ _).mpr ⟨0, hlen, by simp⟩
  unfold isRangeSupersetOfRange
  simp only [PyRange.contains_iff]
  by_cases ha : sub.start ∈ sup.toList
  swap
  · rw [if_pos ha, decide_eq_false]
    rintro ⟨h, -⟩
    exact ha (h _ hstart)
  rw [if_neg (not_not.mpr ha)]
  obtain ⟨k, hk, hks⟩ := (PyRange.mem_toList _ _).mp ha
  have hd : sub.step.fmod sup.step = 0 ↔ sup.step ∣ sub.step := (Int.dvd_iff_fmod_eq_zero).symm
  by_cases hdvd : sup.step ∣ sub.step
  swap
  · rw [if_pos (by rw [Ne, hd]; exact hdvd), decide_eq_false]
    rintro ⟨h, hone⟩
    rw [PyRange.length_toList] at hone
    by_cases hn : sub.len = 1
    · exact hdvd (hone hn)
    · obtain ⟨j, hj, hjs⟩ := (PyRange.mem_toList _ _).mp
        (h _ ((PyRange.mem_toList sub (sub.start + (1 : Nat) * sub.step)).mpr ⟨1, by omega, rfl⟩))
      apply hdvd
      rw [hks] at hjs
      exact ⟨(j : Int) - k, by push_cast at hjs; linarith⟩
  rw [if_neg (by rw [Ne, not_not, hd]; exact hdvd), last_get sub hlen, last_get sup (by omega)]
  simp only [bind, Except.bind, pure, Except.pure]
  obtain ⟨last, hlast⟩ : ∃ x, x = sub.start + ((sub.len - 1 : Nat) : Int) * sub.step := ⟨_, rfl⟩
  obtain ⟨top, htop⟩ : ∃ x, x = sup.start + ((sup.len - 1 : Nat) : Int) * sup.step := ⟨_, rfl⟩
  rw [← hlast, ← htop]
  have hmem : last ∈ sub.toList := (PyRange.mem_toList _ _).mpr ⟨sub.len - 1, by omega, hlast⟩
  by_cases hgt : last > top
  · rw [if_pos hgt, decide_eq_false]
    rintro ⟨h, -⟩
    obtain ⟨j, hj, hjs⟩ := (PyRange.mem_toList _ _).mp (h _ hmem)
    have : (j : Int) ≤ ((sup.len - 1 : Nat) : Int) := by omega
    have : (j : Int) * sup.step ≤ ((sup.len - 1 : Nat) : Int) * sup.step := mul_le_mul_of_nonneg_right this h1.le
    omega
  rw [if_neg hgt]
  have hall : ∀ x ∈ sub.toList, x ∈ sup.toList := by
    intro x hx
    obtain ⟨j, hj, rfl⟩ := (PyRange.mem_toList _ _).mp hx
    rw [← PyRange.contains_iff]
    unfold PyRange.contains
    have hjle : (j : Int) * sub.step ≤ ((sub.len - 1 : Nat) : Int) * sub.step :=
      mul_le_mul_of_nonneg_right (by omega) h2.le
    have hj0 : 0 ≤ (j : Int) * sub.step := by positivity
    have hk0 : 0 ≤ (k : Int) * sup.step := by positivity
    have htop' : top ∈ sup.toList := (PyRange.mem_toList _ _).mpr ⟨sup.len - 1, by omega, htop⟩
    rw [← PyRange.contains_iff] at htop'
    unfold PyRange.contains at htop'
    rw [if_pos h1] at htop' ⊢
    simp only [Bool.and_eq_true, decide_eq_true_iff] at htop' ⊢
    refine ⟨⟨by omega, by omega⟩, ?_⟩
    rw [← Int.dvd_iff_fmod_eq_zero]
    have e : sub.start + (j : Int) * sub.step - sup.start = k * sup.step + j * sub.step := by rw [hks]; ring
    rw [e]
    exact dvd_add (dvd_mul_left _ _) (dvd_mul_of_dvd_right hdvd _)
  rw [if_neg, decide_eq_true]
  · exact ⟨hall, fun _ => hdvd⟩
  · rw [not_not, List.all_eq_true]
    exact fun x hx => decide_eq_true (hall x hx)

/-- `is_superset` on sequences in increasing order. -/
theorem isSuperset_eq (sup sub : PyIter) (h1 : Canonical sup) (hne : sub.toList ≠ [])
    (h3 : ∀ r, sub = .range r → 0 < r.step) :
    ∃ b, isSuperset sup sub = .ok b ∧ (b = true ↔ (∀ x ∈ sub.toList, x ∈ sup.toList) ∧
      (sub.toList.length = 1 → ∀ p r, sup = .range p → sub = .range r → p.step ∣ r.step)) := by
  have hgen : ∀ b : Bool, isSuperset sup sub = .ok b → (b = true ↔ ∀ x ∈ sub.toList, x ∈ sup.toList) →
      sub.isRange = false ∨ sup.isRange = false →
      ∃ b, isSuperset sup sub = .ok b ∧ (b = true ↔ (∀ x ∈ sub.toList, x ∈ sup.toList) ∧
      (sub.toList.length = 1 → ∀ p r, sup = .range p → sub = .range r → p.step ∣ r.step)) := by
    intro b he hb hor
    refine ⟨b, he, hb.trans ⟨fun h => ⟨h, ?_⟩, fun h => h.1⟩⟩
    intro _ p r hp hr
    rcases hor with h | h
    · rw [hr] at h; simp [PyIter.isRange] at h
    · rw [hp] at h; simp [PyIter.isRange] at h
  cases sup with
  | range p =>
    have key : ∀ s : PyIter, s.isRange = false → isSuperset (.range p) s = .ok (s.toList.all p.contains) := by
      intro s hs
      cases s with
      | range r => simp [PyIter.isRange] at hs
      | _ => rfl
    by_cases hir : sub.isRange = true
    · cases sub with
      | range r =>
        refine ⟨_, isRangeSuperset_eq p r h1.1 (h3 r rfl) hne, ?_⟩
        rw [decide_eq_true_iff]
        refine and_congr Iff.rfl (imp_congr Iff.rfl ?_)
        constructor
        · intro h p' r' hp hr
          injection hp with hp
          injection hr with hr
          rw [← hp, ← hr]; exact h
        · intro h; exact h p r rfl rfl
      | _ => simp [PyIter.isRange] at hir
    · apply hgen _ (key sub (by simpa using hir)) _ (Or.inl (by simpa using hir))
      rw [List.all_eq_true]
      exact forall_congr' fun x => imp_congr Iff.rfl (PyRange.contains_iff p x)
  | sfs s =>
    apply hgen (sub.toList.all fun x => decide (x ∈ s.items)) rfl _ (Or.inr rfl)
    rw [List.all_eq_true]
    exact forall_congr' fun x => imp_congr Iff.rfl decide_eq_true_iff
  | _ => exact h1.elim

/-- Selecting by anything but a range. -/
theorem ensure_items (sup it : PyIter) (h1 : Canonical sup) (hr : it.isRange = false)
    (hs : it.toSfs.items.Pairwise (· < ·)) (hne : it.toSfs.items ≠ []) :
    (∃ out, ensureSuperset sup (.items it) = .ok out ∧ out.toList = it.toSfs.items ∧ Canonical out ∧
      (∀ x ∈ it.toSfs.items, x ∈ sup.toList) ∧ ¬ (it.toSfs.items.length = 1 ∧ ∃ r, sup = .range r ∧ r.step ≠ 1)) ∨
    (ensureSuperset sup (.items it) = .error .valueError ∧
      ((¬ ∀ x ∈ it.toSfs.items, x ∈ sup.toList) ∨
        (it.toSfs.items.length = 1 ∧ ∃ r, sup = .range r ∧ r.step ≠ 1))) := by
  obtain ⟨out, e1, e2, e3, e4⟩ := makeSorted_shape it hr hs hne
  obtain ⟨b, hb, hb'⟩ := isSuperset_eq sup out h1 (by rw [e2]; exact hne) (fun r hr => by rw [hr] at e3; exact e3.1)
  have hiff : (out.toList.length = 1 → ∀ p r, sup = .range p → out = .range r → p.step ∣ r.step) ↔
      ¬ (it.toSfs.items.length = 1 ∧ ∃ r, sup = .range r ∧ r.step ≠ 1) := by
    constructor
    · rintro h ⟨hl, p, hp, hn⟩
      rw [← e2] at hl
      have := h hl p _ hp (e4 hl)
      apply hn
      have hd : p.step ∣ 1 := this
      rw [hp] at h1
      have := h1.1
      exact le_antisymm (Int.le_of_dvd (by omega) hd) (by omega)
    · intro h hl p r hp hr
      have : p.step = 1 := by
        by_contra hc
        exact h ⟨by rw [← e2]; exact hl, p, hp, hc⟩
      rw [this]; exact one_dvd _
  rw [e2] at hb'
  rw [e2] at hiff
  rw [hiff] at hb'
  unfold ensureSuperset
  simp only [e1, hb, bind, Except.bind, pure, Except.pure]
  cases b with
  | true => left; exact ⟨out, by simp, e2, e3, (hb'.mp rfl).1, (hb'.mp rfl).2⟩
  | false =>
    right
    refine ⟨by simp, ?_⟩
    by_contra hc
    push Not at hc
    have := hb'.mpr ⟨hc.1, fun ⟨h, r, hr, hn⟩ => hn (hc.2 h r hr)⟩
    cases this

/-- Selecting by a range. -/
theorem ensure_range (sup : PyIter) (hsup : Canonical sup) (r : PyRange) (hne : r.toList ≠ [])
    (hone : r.toList.length = 1 → ∀ p, sup = .range p → p.step ∣ r.step) :
    (∃ out : PyRange, ensureSuperset sup (.items (.range r)) = .ok (.range out) ∧ 0 < out.step ∧
      (∀ x ∈ r.toList, x ∈ sup.toList) ∧ out.toList.Pairwise (· < ·) ∧ ∀ x, x ∈ out.toList ↔ x ∈ r.toList) ∨
    (ensureSuperset sup (.items (.range r)) = .error .valueError ∧ ¬ ∀ x ∈ r.toList, x ∈ sup.toList) := by
  have hstep := r.step_ne
  obtain ⟨out, h1, h2, -, h4, -⟩ := Props.C15_range r (some .ascending)
  have hout : 0 < out.step ∧ (out.step = r.step ∨ out.step = -r.step) ∧ out.toList.length = r.toList.length := by
    injection h1 with h1
    injection h1 with h1
    rw [← h1]
    by_cases hp : r.step > 0
    · rw [if_pos hp]; exact ⟨hp, Or.inl rfl, rfl⟩
    · rw [if_neg hp]
      refine ⟨?_, Or.inr rfl, by rw [reversedRange_toList, List.length_reverse]⟩
      show 0 < -r.step
      omega
  have hne' : (PyIter.range out).toList ≠ [] := by
    obtain ⟨x, hx⟩ := List.exists_mem_of_ne_nil _ hne
    exact List.ne_nil_of_mem ((h2 x).mpr hx)
  obtain ⟨b, hb, hb'⟩ := isSuperset_eq sup (.range out) hsup hne' (fun q hq => by injection hq with hq; rw [← hq]; exact hout.1)
  have hall : (∀ x ∈ (PyIter.range out).toList, x ∈ sup.toList) ↔ ∀ x ∈ r.toList, x ∈ sup.toList :=
    forall_congr' fun x => imp_congr (h2 x) Iff.rfl
  rw [hall, and_iff_left] at hb'
  swap
  · intro hl p q hp hq
    injection hq with hq
    have := hone (by rw [← hout.2.2]; exact hl) p hp
    rw [← hq]
    rcases hout.2.1 with h | h <;> rw [h]
    · exact this
    · exact Int.dvd_neg.mpr this
  unfold ensureSuperset
  simp only [h1, hb, bind, Except.bind, pure, Except.pure]
  cases b with
  | true => exact Or.inl ⟨out, by simp, hout.1, hb'.mp rfl, h4 rfl, h2⟩
  | false => exact Or.inr ⟨by simp, fun hc => absurd (hb'.mpr hc) (by simp)⟩

end Segpy
