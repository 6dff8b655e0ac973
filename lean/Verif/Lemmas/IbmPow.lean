import Verif.Lemmas.IbmArith2
import Verif.Spec.IbmPow

/-! # Lemmas about powers -/

namespace Segpy

open Spec

theorem ibmRepresentable_double {w : ℚ} (h : IbmRepresentable w) : IsDouble w := by
  obtain ⟨x, rfl⟩ := IBMFloat.representable_iff.1 h
  exact value_isDouble x

theorem ibmRepresentable_neg {w : ℚ} (h : IbmRepresentable w) : IbmRepresentable (-w) := by
  obtain ⟨x, rfl⟩ := IBMFloat.representable_iff.1 h
  exact IBMFloat.representable_iff.2 ⟨x.neg, IBMFloat.neg_value x⟩

theorem isTruncation_neg {g r : ℚ} (h : IsTruncation (-g) r) : IsTruncation g (-r) where
  representable := ibmRepresentable_neg h.representable
  le := by rw [abs_neg]; have := h.le; rwa [abs_neg] at this
  same_sign := by have := h.same_sign; linarith
  greatest w hw hl := by rw [abs_neg]; exact h.greatest w hw (by rwa [abs_neg])

theorem nextTo_neg {v r : ℚ} (h : NextTo IbmRepresentable v r) : NextTo IbmRepresentable (-v) (-r) := by
  intro w hw
  have := h (-w) (ibmRepresentable_neg hw)
  exact ⟨fun hl => by have := this.2 (by linarith); linarith, fun hl => by have := this.1 (by linarith); linarith⟩

theorem ibmMax_representable : IbmRepresentable ibmMax :=
  ⟨0x7f, 0xff, 0xff, 0xff, by decide +kernel⟩

theorem nextTo_truncation {v g r : ℚ} (hv : 0 < v) (hg : NextTo IsDouble v g) (hr : IsTruncation g r) :
    NextTo IbmRepresentable v r ∧ 0 ≤ g ∧ 0 ≤ r := by
  have g0 : 0 ≤ g := (hg 0 (representable_zero _ _)).1 hv.le
  have r0 : 0 ≤ r := by
    rcases eq_or_lt_of_le g0 with h | h
    · have := hr.le; rw [← h, abs_zero] at this
      exact (abs_nonpos_iff.1 this).ge
    · exact nonneg_of_mul_nonneg_left hr.same_sign h
  have rg : r ≤ g := by have := hr.le; rwa [abs_of_nonneg r0, abs_of_nonneg g0] at this
  refine ⟨fun w hw => ⟨fun hl => ?_, fun hl => ?_⟩, g0, r0⟩
  · have h1 := (hg w (ibmRepresentable_double hw)).1 hl
    by_cases h : w ≤ 0
    · linarith
    · have h2 := hr.greatest w hw (by rwa [abs_of_pos (not_le.1 h), abs_of_nonneg g0])
      rwa [abs_of_pos (not_le.1 h), abs_of_nonneg r0] at h2
  · exact rg.trans ((hg w (ibmRepresentable_double hw)).2 hl)

theorem signed_power (q : ℚ) (n : Int) :
    q ^ n = if (decide (q < 0) && isOddInteger (n : ℚ)) = true then -(|q| ^ n) else |q| ^ n := by
  have hodd : isOddInteger (n : ℚ) = decide (n % 2 = 1) := by unfold isOddInteger; simp
  rw [hodd]
  by_cases h : q < 0
  · rw [abs_of_neg h]
    by_cases ho : n % 2 = 1
    · simp only [h, ho, decide_true, Bool.and_self, if_true]
      rw [(Int.odd_iff.2 ho).neg_zpow, neg_neg]
    · simp only [h, ho, decide_true, decide_false, Bool.and_false]
      rw [(Int.even_iff.2 (by omega : n % 2 = 0)).neg_zpow]; simp
  · simp [h, abs_of_nonneg (not_lt.1 h)]

theorem floatPow_integer (L : Libm) {q : ℚ} (hq : q ≠ 0) {n : Int} (hn : n ≠ 0) :
    floatPow L (.fin q) (.fin n) =
      if |q| = 1 then .ok (.real (.fin (if decide (q < 0) && isOddInteger (n : ℚ) then -1 else 1)))
      else do
        let p ← L.cpow |q| n
        return .real (if decide (q < 0) && isOddInteger (n : ℚ) then p.neg else p) := by
  unfold floatPow
  rw [if_neg (by simp [PyFloat.isFinite, PyFloat.val, hn])]
  show (if q = 0 then _ else if q < 0 ∧ ((⌊(n : ℚ)⌋ : Int) : ℚ) ≠ n then _ else _) = _
  rw [if_neg hq, if_neg (by simp)]
  rfl

theorem pow_ibm_real (L : Libm) (x y : IBMFloat) {p : PyFloat}
    (h : floatPow L (.fin x.value) (.fin y.value) = .ok (.real p)) :
    x.pow L (.ibm y) = do return .num (.ibm (← IBMFloat.fromFloatWithoutUnderflow p)) := by
  have hf : floatOfNum (.ibm y) = .ok (.fin y.value) := congrArg Except.ok (IBMFloat.toFloat_eq y)
  unfold IBMFloat.pow
  rw [hf, IBMFloat.toFloat_eq]
  show (floatPow L (.fin x.value) (.fin y.value) >>= _) = _
  rw [h]
  show (IBMFloat.wrap (.ibm y) p >>= _) = _
  unfold IBMFloat.wrap
  cases IBMFloat.fromFloatWithoutUnderflow p <;> rfl

theorem pow_ibm_error (L : Libm) (x y : IBMFloat) {e : Err}
    (h : floatPow L (.fin x.value) (.fin y.value) = .error e) : x.pow L (.ibm y) = .error e := by
  have hf : floatOfNum (.ibm y) = .ok (.fin y.value) := congrArg Except.ok (IBMFloat.toFloat_eq y)
  unfold IBMFloat.pow
  rw [hf, IBMFloat.toFloat_eq]
  show (floatPow L (.fin x.value) (.fin y.value) >>= _) = _
  rw [h]; rfl

theorem isDouble_neg {w : ℚ} (h : IsDouble w) : IsDouble (-w) := by
  obtain ⟨m, u, h1, h2, h3⟩ := h
  exact ⟨-m, u, by rw [h1]; push_cast; ring, by rwa [abs_neg], h3⟩

/-- `pow` of two floats for an integral exponent. -/
theorem floatPow_accurate {L : Libm} (hL : AccuratePow L) {v w : PyFloat} {n : Int} (hv : v.isFinite = true)
    (hq : v.val ≠ 0) (hw : w.isFinite = true) (hn : w.val = n) :
    (∃ f, floatPow L v w = .ok (.real f) ∧ f.isFinite = true ∧ NextTo IsDouble (v.val ^ n) f.val) ∨
    ((2 : ℚ) ^ (1023 : Int) ≤ |v.val ^ n| ∧ floatPow L v w = .error .overflowError) := by
  by_cases h0 : n = 0
  · subst h0
    refine Or.inl ⟨.fin 1, ?_, rfl, ?_⟩
    · unfold floatPow; simp [hw, hn]
    · rw [zpow_zero]; exact fun w _ => ⟨id, id⟩
  obtain ⟨q, rfl⟩ : ∃ q, v = .fin q := by
    cases v with
    | fin q => exact ⟨q, rfl⟩
    | negZero => exact absurd rfl hq
    | inf b => cases hv
    | nan => cases hv
  obtain rfl : w = .fin n := by
    cases w with
    | fin q => exact congrArg _ hn
    | negZero =>
      change (0 : ℚ) = n at hn
      exact absurd (by exact_mod_cast hn.symm) h0
    | inf b => cases hw
    | nan => cases hw
  change q ≠ 0 at hq
  show (∃ f, floatPow L (.fin q) (.fin n) = .ok (.real f) ∧ f.isFinite = true ∧ NextTo IsDouble (q ^ n) f.val) ∨
    ((2 : ℚ) ^ (1023 : Int) ≤ |q ^ n| ∧ floatPow L (.fin q) (.fin n) = .error .overflowError)
  have hp := floatPow_integer L hq h0
  have hs := signed_power q n
  by_cases h1 : |q| = 1
  · rw [if_pos h1] at hp
    rw [h1, one_zpow] at hs
    exact Or.inl ⟨_, hp, rfl, by rw [hs]; exact fun w _ => ⟨id, id⟩⟩
  rw [if_neg h1] at hp
  rcases hL |q| n (abs_pos.2 hq) h1 h0 with ⟨g, hg, hnext⟩ | ⟨hbig, hg⟩
  · rw [hg] at hp
    by_cases hneg : (decide (q < 0) && isOddInteger (n : ℚ)) = true
    · rw [if_pos hneg] at hs
      refine Or.inl ⟨PyFloat.neg (.fin g), by rw [hp, hneg]; rfl, ?_, ?_⟩
      · show (if g = 0 then PyFloat.negZero else .fin (-g)).isFinite = true
        split <;> rfl
      · have : (PyFloat.neg (.fin g)).val = -g := by
          show (if g = 0 then PyFloat.negZero else .fin (-g)).val = -g
          split
          · rename_i h; rw [h]; rfl
          · rfl
        rw [this, hs]
        intro w hw'
        have := hnext (-w) (isDouble_neg hw')
        exact ⟨fun hl => by have := this.2 (by linarith); linarith,
          fun hl => by have := this.1 (by linarith); linarith⟩
    · rw [if_neg hneg] at hs
      exact Or.inl ⟨.fin g, by rw [hp, Bool.eq_false_iff.2 hneg]; rfl, rfl, by rw [hs]; exact hnext⟩
  · rw [hg] at hp
    exact Or.inr ⟨by rw [abs_zpow]; exact hbig, hp⟩

end Segpy
