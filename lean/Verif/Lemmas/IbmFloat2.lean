import Verif.Lemmas.IbmFloat
import Mathlib.Data.Rat.Lemmas
import Mathlib.Tactic.IntervalCases

/-! # Lemmas about IBM float equality, truncation and arithmetic -/

namespace Segpy

namespace IBMFloat

open Spec

/-- Non-zero and too small to be normalised. -/
def Tiny (x : IBMFloat) : Prop := x.intMantissa ≠ 0 ∧ |x.value| < ibmMinNormal

theorem tiny_bound (x : IBMFloat) (h : x.Tiny) : x.intMantissa * 16 ^ (x.exp16 + 64).toNat < 2 ^ 20 := by
  have hr := exp16_range x
  have h2 := h.2
  rw [abs_value, minNormal_eq] at h2
  have e : (16 : ℚ) ^ (-65 : ℤ) = 2 ^ 20 / 2 ^ 24 * 16 ^ (-64 : ℤ) := by norm_num
  have e2 : (16 : ℚ) ^ x.exp16 = 16 ^ (x.exp16 + 64).toNat * 16 ^ (-64 : ℤ) := by
    rw [← zpow_natCast, ← zpow_add₀ (by norm_num)]
    congr 1
    omega
  rw [e, e2, ← mul_assoc] at h2
  have h3 := lt_of_mul_lt_mul_right h2 (sixteen_zpow_pos _).le
  rw [div_mul_eq_mul_div, div_lt_div_iff_of_pos_right (by positivity)] at h3
  exact_mod_cast h3

theorem tiny_subnormal (x : IBMFloat) (h : x.Tiny) : x.isSubnormal = true := by
  have hb := tiny_bound x h
  have h0 : x.isZero = false := by unfold isZero; simpa using h.1
  unfold isSubnormal
  rw [h0]
  simp only [Bool.false_eq_true, if_false, decide_eq_true_eq]
  by_contra hc
  have := (normal_iff x).mp (by omega)
  have : 1 ≤ 16 ^ (x.exp16 + 64).toNat := Nat.one_le_pow _ _ (by norm_num)
  nlinarith

theorem normal_not_subnormal (x : IBMFloat) (h : 2 ^ 20 ≤ x.intMantissa) : x.isSubnormal = false := by
  have h0 : x.isZero = false := by unfold isZero; simp; omega
  unfold isSubnormal
  rw [h0]
  have := (normal_iff x).mpr h
  simp; omega

theorem zero_not_subnormal : zero.isSubnormal = false := by decide

/-- Outcome of `try_normalize`. -/
theorem tryNormalize_spec (x : IBMFloat) :
    (x.intMantissa = 0 ∧ x.tryNormalize = .ok zero) ∨
    (∃ r, x.tryNormalize = .ok r ∧ r.value = x.value ∧ r.signbit = x.signbit ∧ 2 ^ 20 ≤ r.intMantissa
      ∧ ibmMinNormal ≤ |x.value|) ∨
    (x.Tiny ∧ x.tryNormalize = .ok x) := by
  by_cases h : x.intMantissa = 0
  · left
    refine ⟨h, ?_⟩
    unfold tryNormalize normalize isZero
    simp [h]
  · right
    rcases normalize_spec x h with ⟨r, h1, h2⟩ | ⟨h1, h2⟩
    · left
      refine ⟨r, ?_, h2⟩
      unfold tryNormalize; rw [h1]
    · right
      refine ⟨⟨h, h2⟩, ?_⟩
      unfold tryNormalize; rw [h1]

/-- The comparison of subnormals performed by `__eq__`, in closed form. -/
def shiftCmp (E1 : ℤ) (M1 : ℕ) (E2 : ℤ) (M2 : ℕ) : Bool :=
  if E1 < E2 then decide (M1 >>> (4 * (E2 - E1)).toNat = M2)
  else decide (M1 = M2 >>> (4 * (E1 - E2)).toNat)

theorem shiftCmp_comm (E1 : ℤ) (M1 : ℕ) (E2 : ℤ) (M2 : ℕ) :
    shiftCmp E1 M1 E2 M2 = shiftCmp E2 M2 E1 M1 := by
  unfold shiftCmp
  rcases lt_trichotomy E1 E2 with h | h | h
  · rw [if_pos h, if_neg (by omega)]
    simp [eq_comm]
  · subst h; simp [eq_comm]
  · rw [if_neg (by omega), if_pos h]
    simp [eq_comm]

theorem eqIbm_of_ne {x y nx ny : IBMFloat} (h : x ≠ y) (hs : x.signbit = y.signbit)
    (hx : x.tryNormalize = .ok nx) (hy : y.tryNormalize = .ok ny) :
    eqIbm x y = .ok (if !(nx.isSubnormal || ny.isSubnormal) then decide (nx = ny)
      else shiftCmp nx.exp16 nx.intMantissa ny.exp16 ny.intMantissa) := by
  unfold eqIbm
  rw [if_neg h, if_neg (by simpa using hs), hx, hy]
  simp only [bind, Except.bind, pure, Except.pure]
  split
  · rfl
  · unfold shiftCmp
    rcases lt_trichotomy nx.exp16 ny.exp16 with h | h | h
    · simp [h]
    · simp [h]
    · have h' : ¬ nx.exp16 < ny.exp16 := by omega
      simp [h, h']

theorem shiftCmp_tiny_normal (x : IBMFloat) (hx : x.Tiny) (E : ℤ) (M : ℕ) (hE : -64 ≤ E)
    (hM : M = 0 ∧ E = -64 ∨ 2 ^ 20 ≤ M) : shiftCmp x.exp16 x.intMantissa E M = false := by
  have hb := tiny_bound x hx
  have h0 := hx.1
  have hr := exp16_range x
  have hpow : 1 ≤ 16 ^ (x.exp16 + 64).toNat := Nat.one_le_pow _ _ (by norm_num)
  have hlt : x.intMantissa < 2 ^ 20 := by nlinarith
  unfold shiftCmp
  split
  · rename_i h
    rw [Nat.shiftRight_eq_div_pow]
    have := Nat.div_le_self x.intMantissa (2 ^ (4 * (E - x.exp16)).toNat)
    rcases hM with ⟨_, h2⟩ | hM
    · omega
    · simp; omega
  · rename_i h
    rw [Nat.shiftRight_eq_div_pow, decide_eq_false_iff_not]
    intro heq
    rcases hM with ⟨h1, _⟩ | hM
    · simp [h1] at heq; omega
    · obtain ⟨n, hn⟩ : ∃ n : ℕ, x.exp16 + 64 = n := ⟨(x.exp16 + 64).toNat, by omega⟩
      rw [hn, Int.toNat_natCast] at hb hpow
      have hn5 : n < 5 := by
        by_contra hc
        have : 16 ^ 5 ≤ 16 ^ n := Nat.pow_le_pow_right (by norm_num) (by omega)
        have : 1 ≤ x.intMantissa := Nat.pos_of_ne_zero h0
        nlinarith
      have hk : (2 : ℕ) ^ (4 * (x.exp16 - E)).toNat ≤ 16 ^ n := by
        have : (16 : ℕ) ^ n = 2 ^ (4 * n) := by rw [pow_mul]; norm_num
        rw [this]
        apply Nat.pow_le_pow_right (by norm_num)
        omega
      have hlt2 : M < (x.intMantissa + 1) * 2 ^ (4 * (x.exp16 - E)).toNat := by
        have h3 := Nat.lt_div_mul_add (a := M) (b := 2 ^ (4 * (x.exp16 - E)).toNat) (by positivity)
        rw [← heq] at h3
        rw [add_mul, one_mul]
        omega
      have h4 : (x.intMantissa + 1) * 2 ^ (4 * (x.exp16 - E)).toNat ≤ (x.intMantissa + 1) * 16 ^ n :=
        Nat.mul_le_mul_left _ hk
      have h5 : (x.intMantissa + 1) * 16 ^ n ≤ 2 ^ 20 := by
        interval_cases n <;> omega
      omega

theorem tiny_ne_zero (x : IBMFloat) (h : x.Tiny) : x.value ≠ 0 :=
  fun h0 => h.1 ((value_zero_iff x).mp h0)

/-- `__eq__` in closed form up to the comparison of two un-normalisable operands. -/
theorem eqIbm_closed (x y : IBMFloat) :
    eqIbm x y = .ok (
      if x = y then true
      else if x.signbit ≠ y.signbit then false
      else if (decide (x.value = 0) = false ∧ |x.value| < ibmMinNormal)
          ∧ (decide (y.value = 0) = false ∧ |y.value| < ibmMinNormal) then
        shiftCmp x.exp16 x.intMantissa y.exp16 y.intMantissa
      else decide (x.value = y.value)) := by
  by_cases hxy : x = y
  · unfold eqIbm; simp [hxy]
  by_cases hs : x.signbit = y.signbit
  swap
  · unfold eqIbm; simp [hxy, hs]
  rw [if_neg hxy, if_neg (by simpa using hs)]
  have hz0 : zero.value = 0 := by rw [value_zero_iff]; rfl
  have hpos : (0 : ℚ) < ibmMinNormal := by unfold ibmMinNormal; norm_num
  rcases tryNormalize_spec x with ⟨hx, hxn⟩ | ⟨r, hxn, hv, hsg, hm, hmin⟩ | ⟨hx, hxn⟩ <;>
  rcases tryNormalize_spec y with ⟨hy, hyn⟩ | ⟨r', hyn, hv', hsg', hm', hmin'⟩ | ⟨hy, hyn⟩ <;>
  rw [eqIbm_of_ne hxy hs hxn hyn]
  · have e1 := (value_zero_iff x).mpr hx
    have e2 := (value_zero_iff y).mpr hy
    simp [zero_not_subnormal, e1, e2]
  · have e1 := (value_zero_iff x).mpr hx
    have e2 : y.value ≠ 0 := by intro h; rw [h] at hmin'; simp at hmin'; linarith
    have e3 : zero ≠ r' := by intro h; rw [← h] at hv'; exact e2 (hv'.symm.trans hz0)
    simp [zero_not_subnormal, normal_not_subnormal r' hm', e1, e3, Ne.symm e2]
  · have e1 := (value_zero_iff x).mpr hx
    have e2 := tiny_ne_zero y hy
    rw [shiftCmp_comm]
    have := shiftCmp_tiny_normal y hy zero.exp16 zero.intMantissa (by decide) (Or.inl (by decide))
    rw [this]
    simp [tiny_subnormal y hy, e1, Ne.symm e2]
  · have e1 := (value_zero_iff y).mpr hy
    have e2 : x.value ≠ 0 := by intro h; rw [h] at hmin; simp at hmin; linarith
    have e3 : r ≠ zero := by intro h; rw [h] at hv; exact e2 (hv.symm.trans hz0)
    simp [zero_not_subnormal, normal_not_subnormal r hm, e1, e3, e2]
  · have : (r = r') ↔ x.value = y.value := by
      constructor
      · intro h; rw [← hv, ← hv', h]
      · intro h; exact eq_of_value_eq hm hm' (by rw [hv, hv', h])
    simp [normal_not_subnormal r hm, normal_not_subnormal r' hm', this, not_lt.mpr hmin]
  · have e : x.value ≠ y.value := by
      intro h; rw [h] at hmin; exact absurd hy.2 (not_lt.mpr hmin)
    rw [shiftCmp_comm, shiftCmp_tiny_normal y hy _ _ (exp16_range r).1 (Or.inr hm)]
    simp [tiny_subnormal y hy, not_lt.mpr hmin, e]
  · have e1 := (value_zero_iff y).mpr hy
    have e2 := tiny_ne_zero x hx
    have := shiftCmp_tiny_normal x hx zero.exp16 zero.intMantissa (by decide) (Or.inl (by decide))
    rw [this]
    simp [tiny_subnormal x hx, e1, e2]
  · have e : x.value ≠ y.value := by
      intro h; rw [← h] at hmin'; exact absurd hx.2 (not_lt.mpr hmin')
    rw [shiftCmp_tiny_normal x hx _ _ (exp16_range r').1 (Or.inr hm')]
    simp [tiny_subnormal x hx, not_lt.mpr hmin', e]
  · have e1 := tiny_ne_zero x hx
    have e2 := tiny_ne_zero y hy
    simp [tiny_subnormal x hx, tiny_subnormal y hy, e1, e2, hx.2, hy.2]

/-- Equal non-zero values with different exponents: the shifted mantissas agree. -/
theorem shiftCmp_of_value_eq {x y : IBMFloat} (h : |x.value| = |y.value|) :
    shiftCmp x.exp16 x.intMantissa y.exp16 y.intMantissa = true := by
  wlog hle : x.exp16 ≤ y.exp16 generalizing x y
  · rw [shiftCmp_comm]; exact this h.symm (by omega)
  obtain ⟨n, hn⟩ : ∃ n : ℕ, y.exp16 = x.exp16 + n := ⟨(y.exp16 - x.exp16).toNat, by omega⟩
  have hM : x.intMantissa = y.intMantissa * 16 ^ n := by
    rw [abs_value, abs_value, hn, zpow_add₀ (by norm_num), zpow_natCast] at h
    have hp := sixteen_zpow_pos x.exp16
    have : (x.intMantissa : ℚ) = y.intMantissa * 16 ^ n := by
      field_simp at h
      linarith
    exact_mod_cast this
  unfold shiftCmp
  have e : (16 : ℕ) ^ n = 2 ^ (4 * n) := by rw [pow_mul]; norm_num
  rcases Nat.eq_zero_or_pos n with h0 | h0
  · subst h0
    have : ¬ x.exp16 < y.exp16 := by omega
    rw [if_neg this]
    simp [hn, hM]
  · rw [if_pos (by omega), Nat.shiftRight_eq_div_pow, hM, e, hn]
    have : (4 * (x.exp16 + n - x.exp16)).toNat = 4 * n := by omega
    rw [this, Nat.mul_div_cancel _ (by positivity)]
    simp

theorem shiftCmp_same_exp {x y : IBMFloat} (he : x.exp16 = y.exp16) (hs : x.signbit = y.signbit) :
    shiftCmp x.exp16 x.intMantissa y.exp16 y.intMantissa = decide (x.value = y.value) := by
  unfold shiftCmp
  rw [if_neg (by omega), he]
  simp only [sub_self, mul_zero, Int.toNat_zero, Nat.shiftRight_zero]
  congr 1
  rw [value_eq, value_eq, he, hs]
  have hp := sixteen_zpow_pos y.exp16
  have h1 : sgn y.signbit ≠ 0 := by unfold sgn; split <;> norm_num
  apply propext
  constructor
  · intro h; rw [h]
  · intro h
    have h2 := mul_right_cancel₀ hp.ne' h
    have h3 := mul_left_cancel₀ h1 h2
    field_simp at h3
    exact_mod_cast h3

/-! ## Truncation to an integer -/

theorem preserve_mask (M k : ℕ) (hM : M < 2 ^ 24) :
    M &&& Nat.ldiff (2 ^ 24 - 1) (2 ^ k - 1) = M / 2 ^ k * 2 ^ k := by
  apply Nat.eq_of_testBit_eq
  intro i
  rw [Nat.testBit_and, Nat.testBit_ldiff, Nat.testBit_two_pow_sub_one, Nat.testBit_two_pow_sub_one,
    Nat.testBit_mul_two_pow, Nat.testBit_div_two_pow]
  by_cases h1 : i < k
  · simp [h1, Nat.not_le.mpr h1]
  · have h2 : k ≤ i := by omega
    by_cases h3 : i < 24
    · simp [h1, h2, h3, Nat.sub_add_cancel h2]
    · have : M.testBit i = false :=
        Nat.testBit_lt_two_pow (lt_of_lt_of_le hM (Nat.pow_le_pow_right (by norm_num) (by omega)))
      simp [h1, h2, h3, Nat.sub_add_cancel h2, this]

theorem abs_floor_eq (x : IBMFloat) : ⌊|x.value|⌋₊ =
    if 0 ≤ x.exp16 then x.intMantissa * 16 ^ x.exp16.toNat / 2 ^ 24 else 0 := by
  rw [abs_value]
  split
  · rename_i h
    have e : (16 : ℚ) ^ x.exp16 = 16 ^ x.exp16.toNat := by
      rw [← zpow_natCast, Int.toNat_of_nonneg h]
    rw [e]
    have : (x.intMantissa : ℚ) / 2 ^ 24 * 16 ^ x.exp16.toNat
        = ((x.intMantissa * 16 ^ x.exp16.toNat : ℕ) : ℚ) / ((2 ^ 24 : ℕ) : ℚ) := by push_cast; ring
    rw [this, Nat.floor_div_eq_div]
  · rename_i h
    rw [Nat.floor_eq_zero]
    have h1 : (x.intMantissa : ℚ) < 2 ^ 24 := by exact_mod_cast intMantissa_lt x
    have h2 : (16 : ℚ) ^ x.exp16 ≤ 16 ^ (0 : ℤ) := sixteen_zpow_le.mpr (by omega)
    rw [zpow_zero] at h2
    have h3 : (x.intMantissa : ℚ) / 2 ^ 24 < 1 := by rw [div_lt_one (by positivity)]; exact h1
    have := sixteen_zpow_pos x.exp16
    nlinarith

theorem trunc_eq (x : IBMFloat) : x.trunc = (if x.signbit then -1 else 1) * (⌊|x.value|⌋₊ : ℤ) := by
  have hr := exp16_range x
  have hm := intMantissa_lt x
  rw [abs_floor_eq]
  unfold trunc
  simp only [preserve_mask _ _ hm]
  congr 1
  split
  · rename_i h
    obtain ⟨n, hn⟩ : ∃ n : ℕ, x.exp16 = n := ⟨x.exp16.toNat, by omega⟩
    rw [hn, Int.toNat_natCast, Int.shiftRight_eq_div_pow]
    have : ((x.intMantissa / 2 ^ (24 - min (n : ℤ) (24 / 4) * 4).toNat *
        2 ^ (24 - min (n : ℤ) (24 / 4) * 4).toNat : ℕ) : ℤ) * 16 ^ n / ((2 ^ 24 : ℕ) : ℤ)
        = ((x.intMantissa / 2 ^ (24 - min (n : ℤ) (24 / 4) * 4).toNat *
        2 ^ (24 - min (n : ℤ) (24 / 4) * 4).toNat * 16 ^ n / 2 ^ 24 : ℕ) : ℤ) := by push_cast; rfl
    rw [this]
    congr 1
    rcases le_or_gt 6 n with h6 | h6
    · have : (24 - min (n : ℤ) (24 / 4) * 4).toNat = 0 := by omega
      rw [this]; simp
    · have hk : (24 - min (n : ℤ) (24 / 4) * 4).toNat = 24 - 4 * n := by omega
      rw [hk]
      clear this hn hk
      interval_cases n <;> norm_num <;> omega
  · rename_i h
    have hk : (24 - min x.exp16 (24 / 4) * 4).toNat = 24 + (-x.exp16 * 4).toNat := by omega
    have hz : x.intMantissa / 2 ^ (24 - min x.exp16 (24 / 4) * 4).toNat = 0 := by
      rw [hk]
      apply Nat.div_eq_of_lt
      exact lt_of_lt_of_le hm (Nat.pow_le_pow_right (by norm_num) (by omega))
    rw [hz, zero_mul]
    have hp : pow16 x.exp16 = .fin ((16 : ℚ) ^ x.exp16) := by
      unfold pow16
      refine ofRat_exact 1 (4 * x.exp16) ?_ (by norm_num) (by omega) ?_
      · rw [sixteen_zpow]; simp
      · rw [abs_of_pos (sixteen_zpow_pos _), sixteen_zpow]
        exact two_zpow_lt.mpr (by omega)
    have h0 : PyFloat.ofRat ((0 : ℕ) : ℚ) = .fin 0 := by
      simpa using ofRat_exact (q := 0) 0 0 (by simp) (by norm_num) (by norm_num) (by simp)
    rw [hp, h0]
    have h1 : ((PyFloat.fin 0).mul (.fin ((16 : ℚ) ^ x.exp16))).val = 0 := by
      rw [mul_fin_zero (zero_mul _), val_zero]
    rw [h1]
    rfl

/-! ## Integer ratio -/

theorem asIntegerRatio_eq (x : IBMFloat) : x.asIntegerRatio = (x.value.num, (x.value.den : ℤ)) := by
  have hr := exp16_range x
  unfold asIntegerRatio
  simp only [ge_iff_le]
  set N : ℕ := if 0 ≤ x.exp16 then x.intMantissa * 16 ^ x.exp16.toNat else x.intMantissa with hN
  set D : ℕ := if 0 ≤ x.exp16 then L24 else L24 * 16 ^ x.exp16.natAbs with hD
  have hL : 0 < L24 := by unfold L24; norm_num
  have hDpos : 0 < D := by rw [hD]; split <;> positivity
  set g := Nat.gcd N D with hg
  have hgpos : 0 < g := Nat.gcd_pos_of_pos_right _ hDpos
  obtain ⟨n, hn⟩ := Nat.gcd_dvd_left N D
  obtain ⟨d, hd⟩ := Nat.gcd_dvd_right N D
  rw [← hg] at hn hd
  have hdpos : 0 < d := by
    rcases Nat.eq_zero_or_pos d with h | h
    · rw [h] at hd; omega
    · exact h
  have hcop : Nat.Coprime n d := by
    have := Nat.coprime_div_gcd_div_gcd (m := N) (n := D) hgpos
    rw [← hg, hn, hd, Nat.mul_div_cancel_left _ hgpos, Nat.mul_div_cancel_left _ hgpos] at this
    exact this
  have habs : |x.value| = (N : ℚ) / D := by
    rw [abs_value, hN, hD]
    unfold L24
    split
    · rename_i h
      have e : (16 : ℚ) ^ x.exp16 = 16 ^ x.exp16.toNat := by
        rw [← zpow_natCast, Int.toNat_of_nonneg h]
      rw [e]; push_cast; ring
    · rename_i h
      have e : (16 : ℚ) ^ x.exp16 = 1 / 16 ^ x.exp16.natAbs := by
        rw [← zpow_natCast, one_div, ← zpow_neg]
        congr 1
        omega
      rw [e]; push_cast
      rw [div_mul_div_comm, mul_one]
      norm_num
  have hval : x.value = (((if x.signbit then -1 else 1) * (n : ℤ) : ℤ) : ℚ) / ((d : ℤ) : ℚ) := by
    have h1 : x.value = sgn x.signbit * |x.value| := by
      rw [abs_value, value_eq]; ring
    rw [h1, habs, hn, hd]
    unfold sgn
    have : (g : ℚ) ≠ 0 := by positivity
    push_cast
    rw [mul_div_mul_left _ _ this]
    split <;> ring
  have hcop' : Nat.Coprime ((if x.signbit then -1 else 1) * (n : ℤ) : ℤ).natAbs (d : ℤ).natAbs := by
    split <;> simpa using hcop
  have hnum := Rat.num_div_eq_of_coprime (a := (if x.signbit then -1 else 1) * (n : ℤ)) (b := d)
    (by exact_mod_cast hdpos) hcop'
  have hden := Rat.den_div_eq_of_coprime (a := (if x.signbit then -1 else 1) * (n : ℤ)) (b := d)
    (by exact_mod_cast hdpos) hcop'
  rw [← hval] at hnum hden
  rw [hnum, hden]
  have hgi : (g : ℤ) ≠ 0 := by exact_mod_cast hgpos.ne'
  have q1 : ((if x.signbit then -1 else 1) * (N : ℤ)).fdiv g = (if x.signbit then -1 else 1) * (n : ℤ) := by
    rw [hn]
    have : (if x.signbit then -1 else 1) * ((g * n : ℕ) : ℤ) = g * ((if x.signbit then -1 else 1) * (n : ℤ)) := by
      push_cast; ring
    rw [this]
    exact Int.mul_fdiv_cancel_left _ hgi
  have q2 : (D : ℤ).fdiv g = d := by
    rw [hd]; push_cast
    exact Int.mul_fdiv_cancel_left _ hgi
  rw [q1, q2]

end IBMFloat

end Segpy
