import Verif.Lemmas.IbmFloat3

/-!
# Properties C01–C13: IBM floating point

Each theorem speaks of the modelled API (`IBMFloat.*`, the functions of `segpy/ibm_float.py`) and of the
specification in `Verif/Spec/IbmFloat.lean` (`value`, `ibmValue`, `IsTruncation`, `Normalised`).
-/

namespace Segpy.Props

open Segpy.Spec Segpy.IBMFloat

/-! ## C01 decoding is exact -/

/-- Every four-byte pattern decodes to exactly the number it denotes; no rounding, no exception. -/
theorem C01_decode_exact (a b c d : UInt8) :
    ∃ x, IBMFloat.fromBytes [a, b, c, d] = .ok x ∧ x.toFloat = .fin (ibmValue a b c d)
      ∧ x.toBytes = [a, b, c, d] :=
  ⟨⟨a, b, c, d⟩, rfl, toFloat_eq _, rfl⟩

/-- Any byte string of another length is rejected. -/
theorem C01_wrong_length (bs : Bytes) (h : bs.length ≠ 4) : IBMFloat.fromBytes bs = .error .valueError := by
  unfold IBMFloat.fromBytes
  split
  · simp at h
  · rfl

example : ibmValue 0xc2 0x76 0xa0 0x00 = -118625 / 1000 := by decide +kernel
example : ([1, 2, 3] : Bytes).length ≠ 4 := by decide

/-! ## C02 IBM → IEEE → IBM -/

/-- Decoding and re-encoding never raises and preserves the value, for all `2^32` patterns. -/
theorem C02_roundtrip_value (x : IBMFloat) :
    ∃ r, IBMFloat.fromFloat x.toFloat = .ok r ∧ r.value = x.value := by
  rw [toFloat_eq]; exact ieee2ibm_value x

/-- Normalised patterns are reproduced bit for bit. -/
theorem C02_roundtrip_bits (x : IBMFloat) (h : x.Normalised) :
    IBMFloat.fromFloat x.toFloat = .ok x := by
  rw [toFloat_eq]
  rcases h with h | ⟨h1, h2, h3, h4⟩
  · have hm := (normal_iff x).mp h
    have hne : x.intMantissa ≠ 0 := by omega
    have hv : x.value ≠ 0 := fun h0 => hne ((value_zero_iff x).mp h0)
    unfold fromFloat
    rw [ieee2ibm_fin hv, if_neg (not_lt.mpr (abs_value_le_max x)),
      if_neg (not_lt.mpr (tiny_le_of_ne_zero x hne)), conv_normal x hm]
  · have hx : x = zero := by cases x; simp_all [zero]
    subst hx
    rw [zero_value]
    unfold fromFloat ieee2ibm
    simp

example : (⟨0xc2, 0x76, 0xa0, 0x00⟩ : IBMFloat).Normalised := by unfold IBMFloat.Normalised; decide
example : ¬ (⟨0xc2, 0x06, 0xa0, 0x00⟩ : IBMFloat).Normalised := by unfold IBMFloat.Normalised; decide

/-! ## C03 encoding truncates to the best representable number -/

/-- The encoder returns the truncation toward zero of its argument, whenever it returns. -/
theorem C03_truncates (q : ℚ) (r : IBMFloat) (h : IBMFloat.fromFloat (.fin q) = .ok r) :
    IsTruncation q r.value := by
  by_cases hq : q = 0
  · subst hq
    unfold fromFloat ieee2ibm at h
    simp at h
    subst h
    have := isTruncation_self zero
    rwa [zero_value] at this ⊢
  · unfold fromFloat at h
    rw [ieee2ibm_fin hq] at h
    split at h
    · cases h
    · split at h
      · cases h
      · rename_i h1 h2
        cases h
        exact conv_isTruncation hq (not_lt.mp h1) (not_lt.mp h2)

/-- The relative error is below `2^-20` throughout the normal range. -/
theorem C03_relative_error (q : ℚ) (r : IBMFloat) (h : IBMFloat.fromFloat (.fin q) = .ok r)
    (hn : ibmMinNormal ≤ |q|) : |q - r.value| < |q| / 2 ^ 20 := by
  have hpos : (0 : ℚ) < ibmMinNormal := by unfold ibmMinNormal; norm_num
  have hq : q ≠ 0 := by rintro rfl; simp at hn; linarith
  have htr := C03_truncates q r h
  unfold fromFloat at h
  rw [ieee2ibm_fin hq] at h
  split at h
  · cases h
  split at h
  · cases h
  rename_i h1 h2
  cases h
  have hmax := not_lt.mp h1
  have hgt := conv_gt hq hmax
  have habs : |q - (conv q).value| = |q| - |(conv q).value| := by
    have hle := htr.le
    have hs := htr.same_sign
    rcases lt_or_gt_of_ne hq with hq' | hq'
    · have hc : (conv q).value ≤ 0 := by
        by_contra hc
        have : (conv q).value * q < 0 := mul_neg_of_pos_of_neg (not_le.mp hc) hq'
        linarith
      rw [abs_of_neg hq', abs_of_nonpos hc] at hle ⊢
      rw [abs_of_nonpos (by linarith)]; ring
    · have hc : 0 ≤ (conv q).value := by
        by_contra hc
        have : (conv q).value * q < 0 := mul_neg_of_neg_of_pos (not_le.mp hc) hq'
        linarith
      rw [abs_of_pos hq', abs_of_nonneg hc] at hle ⊢
      rw [abs_of_nonneg (by linarith)]
  have hk : -64 ≤ hexExp q := by
    have h3 := (hexExp_spec hq).2
    rw [minNormal_eq] at hn
    have := sixteen_zpow_lt.mp (lt_of_le_of_lt hn h3)
    omega
  have hse : storedExp q = hexExp q := by unfold storedExp; omega
  have hlow := (hexExp_spec hq).1
  rw [zpow_sub_one₀ (by norm_num)] at hlow
  rw [hse] at hgt
  rw [habs]
  have hp := sixteen_zpow_pos (hexExp q)
  linarith

example : IBMFloat.fromFloat (.fin (1 / 10)) = .ok ⟨0x40, 0x19, 0x99, 0x99⟩ ∧ ibmMinNormal ≤ |(1 / 10 : ℚ)| := by
  decide +kernel

/-! ## C04 which inputs raise, and what -/

/-- Complete outcome table of the encoder. -/
theorem C04_outcomes (f : PyFloat) :
    (f = .nan → IBMFloat.fromFloat f = .error .valueError) ∧
    (∀ s, f = .inf s → IBMFloat.fromFloat f = .error .valueError) ∧
    (f = .negZero → IBMFloat.fromFloat f = .ok zero) ∧
    (∀ q, f = .fin q →
      (IBMFloat.fromFloat f = .error .overflowError ↔ ibmMax < |q|) ∧
      (IBMFloat.fromFloat f = .error .floatingPointError ↔ q ≠ 0 ∧ |q| < ibmTiny) ∧
      ((∃ r, IBMFloat.fromFloat f = .ok r) ↔ q = 0 ∨ (ibmTiny ≤ |q| ∧ |q| ≤ ibmMax))) := by
  refine ⟨?_, ?_, ?_, ?_⟩
  · rintro rfl; rfl
  · rintro s rfl; rfl
  · rintro rfl; rfl
  · rintro q rfl
    have hpos : (0 : ℚ) < ibmMax := by unfold ibmMax; norm_num
    have hlt : ibmTiny < ibmMax := by unfold ibmTiny ibmMax; norm_num
    unfold fromFloat
    by_cases hq : q = 0
    · subst hq
      unfold ieee2ibm
      simp
      linarith
    · rw [ieee2ibm_fin hq]
      by_cases h1 : ibmMax < |q|
      · simp [h1, hq]; linarith
      · by_cases h2 : |q| < ibmTiny
        · simp [h1, h2, hq]
        · simp [h1, h2, hq, not_lt.mp h1, not_lt.mp h2]

/-- The variant without underflow differs from it only in returning zero where it would underflow. -/
theorem C04_without_underflow (f : PyFloat) :
    IBMFloat.fromFloatWithoutUnderflow f =
      if IBMFloat.fromFloat f = .error .floatingPointError then .ok zero else IBMFloat.fromFloat f := by
  unfold fromFloatWithoutUnderflow fromFloat
  split
  · rename_i h; simp [h]
  · rename_i h; rw [if_neg h]

example : IBMFloat.fromFloat (.fin (2 ^ 252)) = .error .overflowError := by decide +kernel
example : IBMFloat.fromFloat (.fin (1 / 2 ^ 281)) = .error .floatingPointError := by decide +kernel
example : IBMFloat.fromFloat (.fin ibmMax) = .ok ⟨0x7f, 0xff, 0xff, 0xff⟩ := by decide +kernel

/-! ## C05 encoding is monotone and odd -/

theorem C05_monotone (p q : ℚ) (r s : IBMFloat) (hpq : p ≤ q)
    (hr : IBMFloat.fromFloat (.fin p) = .ok r) (hs : IBMFloat.fromFloat (.fin q) = .ok s) :
    r.value ≤ s.value := by
  have tr := C03_truncates p r hr
  have ts := C03_truncates q s hs
  have hrep : ∀ x : IBMFloat, IbmRepresentable x.value := fun x => representable_iff.mpr ⟨x, rfl⟩
  -- the sign of a truncation
  have sgnle : ∀ {v w : ℚ}, IsTruncation v w → v ≤ 0 → w ≤ 0 := by
    intro v w t hv
    rcases hv.lt_or_eq with hv | hv
    · by_contra hc
      have := mul_neg_of_pos_of_neg (not_le.mp hc) hv
      have := t.same_sign
      linarith
    · have := t.le
      rw [hv] at this; simp at this; exact this.le
  have sgnge : ∀ {v w : ℚ}, IsTruncation v w → 0 ≤ v → 0 ≤ w := by
    intro v w t hv
    rcases hv.lt_or_eq with hv | hv
    · by_contra hc
      have := mul_neg_of_neg_of_pos (not_le.mp hc) hv
      have := t.same_sign
      linarith
    · have := t.le
      rw [← hv] at this; simp at this; exact this.ge
  rcases le_total p 0 with hp | hp
  · rcases le_total q 0 with hq | hq
    · have h1 := sgnle tr hp
      have h2 := sgnle ts hq
      have hle : |s.value| ≤ |p| := by
        have := ts.le
        rw [abs_of_nonpos hq] at this
        rw [abs_of_nonpos hp]; linarith
      have := tr.greatest s.value (hrep s) hle
      rw [abs_of_nonpos h1, abs_of_nonpos h2] at this
      linarith
    · exact (sgnle tr hp).trans (sgnge ts hq)
  · have hq : 0 ≤ q := hp.trans hpq
    have h1 := sgnge tr hp
    have h2 := sgnge ts hq
    have hle : |r.value| ≤ |q| := by
      have := tr.le
      rw [abs_of_nonneg hp] at this
      rw [abs_of_nonneg hq]; linarith
    have := ts.greatest r.value (hrep r) hle
    rwa [abs_of_nonneg h1, abs_of_nonneg h2] at this

/-- Negating a non-zero argument flips exactly the top bit of the result (or leaves the error as is). -/
theorem C05_odd (q : ℚ) (hq : q ≠ 0) :
    IBMFloat.fromFloat (PyFloat.neg (.fin q)) =
      (IBMFloat.fromFloat (.fin q)).map (fun r => ⟨r.a ^^^ 0x80, r.b, r.c, r.d⟩) := by
  have hnq : -q ≠ 0 := neg_ne_zero.mpr hq
  unfold fromFloat
  rw [neg_fin, if_neg hq, ieee2ibm_fin hnq, ieee2ibm_fin hq, abs_neg]
  split
  · rfl
  · split
    · rfl
    · rename_i h1 h2
      rw [conv_neg hq (not_lt.mp h1)]
      rfl

example : IBMFloat.fromFloat (.fin (1 / 10)) = .ok ⟨0x40, 0x19, 0x99, 0x99⟩ ∧
    IBMFloat.fromFloat (.fin (2 / 10)) = .ok ⟨0x40, 0x33, 0x33, 0x33⟩ := by decide +kernel

/-! ## C06 equality -/

/-- Comparison with `==` always answers. -/
theorem C06_total (x y : IBMFloat) : ∃ b, IBMFloat.eqIbm x y = .ok b := ⟨_, eqIbm_closed x y⟩

/-- Equal non-zero values compare equal whatever their representations. -/
theorem C06_complete_partial (x y : IBMFloat) (h : x.value = y.value) (hne : x.value ≠ 0) :
    IBMFloat.eqIbm x y = .ok true := by
  rw [eqIbm_closed]
  have hx : x.intMantissa ≠ 0 := fun h0 => hne ((value_zero_iff x).mpr h0)
  have hy : y.intMantissa ≠ 0 := fun h0 => hne (h.trans ((value_zero_iff y).mpr h0))
  have hs : x.signbit = y.signbit := by
    have h1 := value_neg_iff x hx
    have h2 := value_neg_iff y hy
    rw [← h] at h2
    exact Bool.eq_iff_iff.mpr (h1.symm.trans h2)
  have := shiftCmp_of_value_eq (x := x) (y := y) (by rw [h])
  simp [hs, this, h]

/-- Away from two defects, `==` is equality of values.  The excluded cases are zeros of different sign,
and two magnitudes both below the normal range with different exponents. -/
theorem C06_eq_iff_partial (x y : IBMFloat)
    (hz : x.value = 0 → y.value = 0 → x.signbit = y.signbit)
    (ht : x.exp16 = y.exp16 ∨ ibmMinNormal ≤ |x.value| ∨ ibmMinNormal ≤ |y.value| ∨ x.value = 0 ∨ y.value = 0) :
    IBMFloat.eqIbm x y = .ok (decide (x.value = y.value)) := by
  by_cases hv : x.value = y.value
  · by_cases h0 : x.value = 0
    · have hs := hz h0 (hv ▸ h0)
      rw [eqIbm_closed]
      by_cases hxy : x = y
      · simp [hxy]
      · simp [hs, hxy, h0, hv ▸ h0]
    · rw [C06_complete_partial x y hv h0]; simp [hv]
  · rw [eqIbm_closed]
    have hxy : x ≠ y := fun h => hv (by rw [h])
    rw [if_neg hxy]
    by_cases hs : x.signbit = y.signbit
    · rw [if_neg (by simpa using hs)]
      split
      · rename_i h
        rcases ht with ht | ht | ht | ht | ht
        · rw [shiftCmp_same_exp ht hs]
        · exact absurd h.1.2 (not_lt.mpr ht)
        · exact absurd h.2.2 (not_lt.mpr ht)
        · simp [ht] at h
        · simp [ht] at h
      · rfl
    · simp [hs, hv]

/-- The full claim is false: `==` can hold between different values ... -/
theorem C06_not_sound : ∃ x y : IBMFloat, IBMFloat.eqIbm x y = .ok true ∧ x.value ≠ y.value :=
  ⟨⟨0, 0, 0, 17⟩, ⟨1, 0, 0, 1⟩, by decide +kernel, by decide +kernel⟩

/-- ... fail between equal values (two zeros) ... -/
theorem C06_not_complete : ∃ x y : IBMFloat, IBMFloat.eqIbm x y = .ok false ∧ x.value = y.value :=
  ⟨⟨0, 0, 0, 0⟩, ⟨0x80, 0, 0, 0⟩, by decide +kernel, by decide +kernel⟩

/-- ... and is not transitive. -/
theorem C06_not_transitive : ∃ x y z : IBMFloat, IBMFloat.eqIbm x y = .ok true ∧
    IBMFloat.eqIbm y z = .ok true ∧ IBMFloat.eqIbm x z = .ok false :=
  ⟨⟨0, 0, 0, 17⟩, ⟨1, 0, 0, 1⟩, ⟨0, 0, 0, 18⟩, by decide +kernel, by decide +kernel, by decide +kernel⟩

/-- `==` is reflexive and symmetric without restriction. -/
theorem C06_refl_symm (x y : IBMFloat) :
    IBMFloat.eqIbm x x = .ok true ∧ IBMFloat.eqIbm x y = IBMFloat.eqIbm y x := by
  constructor
  · rw [eqIbm_closed]; simp
  · rw [eqIbm_closed, eqIbm_closed, shiftCmp_comm]
    by_cases hxy : x = y
    · simp [hxy]
    · rw [if_neg hxy, if_neg (Ne.symm hxy)]
      by_cases hs : x.signbit = y.signbit
      · have h1 : ¬ (x.signbit ≠ y.signbit) := not_not.mpr hs
        have h2 : ¬ (y.signbit ≠ x.signbit) := not_not.mpr hs.symm
        rw [if_neg h1, if_neg h2]
        by_cases ha : decide (x.value = 0) = false ∧ |x.value| < ibmMinNormal <;>
        by_cases hb : decide (y.value = 0) = false ∧ |y.value| < ibmMinNormal
        · rw [if_pos ⟨ha, hb⟩, if_pos ⟨hb, ha⟩]
        all_goals
          rw [if_neg (fun h => by first | exact ha h.1 | exact hb h.2),
            if_neg (fun h => by first | exact ha h.2 | exact hb h.1)]
          simp only [eq_comm]
      · rw [if_pos hs, if_pos (Ne.symm hs)]

-- two different bit patterns of 1.0
example : (⟨0x41, 0x10, 0, 0⟩ : IBMFloat).value = (⟨0x42, 0x01, 0, 0⟩ : IBMFloat).value
    ∧ (⟨0x41, 0x10, 0, 0⟩ : IBMFloat).value ≠ 0
    ∧ ibmMinNormal ≤ |(⟨0x41, 0x10, 0, 0⟩ : IBMFloat).value| := by decide +kernel

/-! ## C07 ordering -/

/-- The four order comparisons decide the order of the exact values. -/
theorem C07_order (x y : IBMFloat) :
    (IBMFloat.lt x y = true ↔ x.value < y.value) ∧ (IBMFloat.le x y = true ↔ x.value ≤ y.value) ∧
    (IBMFloat.gt x y = true ↔ x.value > y.value) ∧ (IBMFloat.ge x y = true ↔ x.value ≥ y.value) := by
  unfold IBMFloat.lt IBMFloat.le IBMFloat.gt IBMFloat.ge
  simp only [toFloat_eq]
  exact ⟨lt_fin _ _, le_fin _ _, lt_fin _ _, le_fin _ _⟩

/-- The same against a finite float (`-0.0` counts as zero). -/
theorem C07_order_float (x : IBMFloat) (f : PyFloat) (hf : f.isFinite = true) :
    (IBMFloat.ltFloat x f = true ↔ x.value < f.val) ∧ (IBMFloat.leFloat x f = true ↔ x.value ≤ f.val) ∧
    (IBMFloat.gtFloat x f = true ↔ x.value > f.val) ∧ (IBMFloat.geFloat x f = true ↔ x.value ≥ f.val) := by
  unfold IBMFloat.ltFloat IBMFloat.leFloat IBMFloat.gtFloat IBMFloat.geFloat
  simp only [toFloat_eq]
  cases f with
  | fin q => exact ⟨lt_fin _ _, le_fin _ _, lt_fin _ _, le_fin _ _⟩
  | negZero =>
    exact ⟨lt_fin _ 0, le_fin _ 0, lt_fin 0 _, le_fin 0 _⟩
  | inf s => simp [PyFloat.isFinite] at hf
  | nan => simp [PyFloat.isFinite] at hf

/-- Every IBM float lies strictly between the infinities and is unordered with NaN. -/
theorem C07_order_special (x : IBMFloat) :
    IBMFloat.ltFloat x (.inf false) = true ∧ IBMFloat.gtFloat x (.inf true) = true ∧
    IBMFloat.ltFloat x .nan = false ∧ IBMFloat.leFloat x .nan = false ∧
    IBMFloat.gtFloat x .nan = false ∧ IBMFloat.geFloat x .nan = false := by
  unfold IBMFloat.ltFloat IBMFloat.leFloat IBMFloat.gtFloat IBMFloat.geFloat
  simp only [toFloat_eq]
  exact ⟨rfl, rfl, rfl, rfl, rfl, rfl⟩

example : PyFloat.isFinite (.fin (1 / 4)) = true := rfl

/-- Truth value: false exactly on zeros. -/
theorem C07_bool (x : IBMFloat) : IBMFloat.toBool x = true ↔ x.value ≠ 0 := by
  unfold IBMFloat.toBool isZero
  rw [Ne, value_zero_iff]
  simp

example : IBMFloat.lt ⟨0xc1, 0x10, 0, 0⟩ ⟨0x00, 0, 0, 1⟩ = true := by decide +kernel

/-! ## C08 normalisation -/

/-- `normalize` succeeds exactly when the value is zero or not below the normal range, and then returns
the unique normalised representation of the same value. -/
theorem C08_normalize (x : IBMFloat) :
    (∀ r, x.normalize = .ok r ↔ (r.Normalised ∧ r.value = x.value)) ∧
    (x.normalize = .error .floatingPointError ↔ x.value ≠ 0 ∧ |x.value| < ibmMinNormal) := by
  have hpos : (0 : ℚ) < ibmMinNormal := by unfold ibmMinNormal; norm_num
  by_cases h0 : x.intMantissa = 0
  · have hv := (value_zero_iff x).mpr h0
    have hn : x.normalize = .ok zero := by unfold normalize isZero; simp [h0]
    rw [hn, hv]
    refine ⟨fun r => ⟨?_, ?_⟩, by simp⟩
    · intro h; cases h
      exact ⟨Or.inr ⟨rfl, rfl, rfl, rfl⟩, zero_value⟩
    · rintro ⟨h1 | ⟨h1, h2, h3, h4⟩, h⟩
      · have := (normal_iff r).mp h1
        have := (value_zero_iff r).mp h
        omega
      · cases r; simp_all [zero]
  · have hv : x.value ≠ 0 := fun h => h0 ((value_zero_iff x).mp h)
    have unique : ∀ r s : IBMFloat, r.Normalised → s.Normalised → r.value = x.value → s.value = x.value → r = s := by
      have big : ∀ r : IBMFloat, r.Normalised → r.value = x.value → 2 ^ 20 ≤ r.intMantissa := by
        intro r hr hrv
        rcases hr with h | ⟨h1, h2, h3, h4⟩
        · exact (normal_iff r).mp h
        · exfalso
          have : r = zero := by cases r; simp_all [zero]
          rw [this, zero_value] at hrv
          exact hv hrv.symm
      intro r s hr hs h1 h2
      exact eq_of_value_eq (big r hr h1) (big s hs h2) (h1.trans h2.symm)
    rcases normalize_spec x h0 with ⟨s, hs, hsv, _, hsm, hmin⟩ | ⟨he, hlt⟩
    · have hsn : s.Normalised := Or.inl ((normal_iff s).mpr hsm)
      rw [hs]
      refine ⟨fun r => ⟨?_, ?_⟩, ?_⟩
      · intro h; cases h; exact ⟨hsn, hsv⟩
      · rintro ⟨h1, h2⟩; rw [unique r s h1 hsn h2 hsv]
      · simp [not_lt.mpr hmin]
    · rw [he]
      refine ⟨fun r => ⟨(fun h => by cases h), ?_⟩, by simp [hv, hlt]⟩
      rintro ⟨h1 | ⟨h1, h2, h3, h4⟩, h⟩
      · exfalso
        have hm := (normal_iff r).mp h1
        rw [← h, abs_value, minNormal_eq] at hlt
        have hr := (exp16_range r).1
        have a1 : (2 : ℚ) ^ 20 ≤ r.intMantissa := by exact_mod_cast hm
        have a2 : (16 : ℚ) ^ (-64 : ℤ) ≤ 16 ^ r.exp16 := sixteen_zpow_le.mpr hr
        have a3 : (16 : ℚ) ^ (-65 : ℤ) = 2 ^ 20 / 2 ^ 24 * 16 ^ (-64 : ℤ) := by norm_num
        have a4 : (2 : ℚ) ^ 20 / 2 ^ 24 * 16 ^ (-64 : ℤ) ≤ r.intMantissa / 2 ^ 24 * 16 ^ r.exp16 := by
          have := sixteen_zpow_pos (-64)
          gcongr
        linarith
      · have : r = zero := by cases r; simp_all [zero]
        rw [this, zero_value] at h
        exact absurd h.symm hv

/-- `try_normalize` never raises: it normalises when possible and returns its receiver otherwise. -/
theorem C08_try_normalize (x : IBMFloat) :
    ∃ r, x.tryNormalize = .ok r ∧ r.value = x.value ∧
      (x.value = 0 ∨ ibmMinNormal ≤ |x.value| → r.Normalised) ∧
      (x.value ≠ 0 ∧ |x.value| < ibmMinNormal → r = x) := by
  rcases tryNormalize_spec x with ⟨hx, hxn⟩ | ⟨r, hxn, hv, hsg, hm, hmin⟩ | ⟨hx, hxn⟩
  · have hz : zero.Normalised := Or.inr ⟨rfl, rfl, rfl, rfl⟩
    have h0 := (value_zero_iff x).mpr hx
    exact ⟨zero, hxn, by rw [zero_value, h0], fun _ => hz, fun h => absurd h0 h.1⟩
  · have hn : r.Normalised := Or.inl ((normal_iff r).mpr hm)
    exact ⟨r, hxn, hv, fun _ => hn, fun h => absurd h.2 (not_lt.mpr hmin)⟩
  · refine ⟨x, hxn, rfl, ?_, fun _ => rfl⟩
    rintro (h | h)
    · exact absurd h (tiny_ne_zero x hx)
    · exact absurd hx.2 (not_lt.mpr h)

example : (⟨0x42, 0x01, 0, 0⟩ : IBMFloat).normalize = .ok ⟨0x41, 0x10, 0, 0⟩ := by decide +kernel
example : (⟨0x00, 0x01, 0, 0⟩ : IBMFloat).normalize = .error .floatingPointError := by decide +kernel

/-! ## C09 truncation, ceiling, floor -/

/-- `int(x)` / `math.trunc(x)` rounds toward zero, exactly. -/
theorem C09_trunc (x : IBMFloat) :
    x.trunc = if 0 ≤ x.value then ⌊x.value⌋ else ⌈x.value⌉ := by
  rw [trunc_eq]
  by_cases h0 : x.intMantissa = 0
  · rw [(value_zero_iff x).mpr h0]; simp
  · have hneg := value_neg_iff x h0
    cases hs : x.signbit
    · have h : 0 ≤ x.value := not_lt.mp (fun hc => by rw [hneg, hs] at hc; cases hc)
      rw [if_pos h, abs_of_nonneg h]
      simp [Int.natCast_floor_eq_floor h]
    · have h : x.value < 0 := hneg.mpr hs
      rw [if_neg (not_le.mpr h), abs_of_neg h]
      have := Int.natCast_floor_eq_floor (a := -x.value) (by linarith)
      rw [this, Int.floor_neg]; simp

/-- `math.ceil` and `math.floor` are right on every non-integer. -/
theorem C09_ceil_floor_partial (x : IBMFloat) (h : ∀ n : ℤ, x.value ≠ n) :
    x.ceil = ⌈x.value⌉ ∧ x.floor = ⌊x.value⌋ := by
  have hv : x.value ≠ 0 := by simpa using h 0
  have h0 : x.intMantissa ≠ 0 := fun h0 => hv ((value_zero_iff x).mpr h0)
  have hneg := value_neg_iff x h0
  have hcf : ⌈x.value⌉ = ⌊x.value⌋ + 1 := by
    apply Int.ceil_eq_iff.mpr
    constructor
    · push_cast
      have h1 := Int.floor_le x.value
      have h2 := h ⌊x.value⌋
      have := lt_of_le_of_ne h1 (Ne.symm h2)
      linarith
    · push_cast; exact (Int.lt_floor_add_one x.value).le
  unfold IBMFloat.ceil IBMFloat.floor
  rw [C09_trunc]
  cases hs : x.signbit
  · have h : 0 ≤ x.value := not_lt.mp (fun hc => by rw [hneg, hs] at hc; cases hc)
    simp [h, hcf]
  · have h : x.value < 0 := hneg.mpr hs
    simp [not_le.mpr h, hcf]

/-- The full claim is false: `ceil` of a non-negative integer and `floor` of a negative one are off by
one. -/
theorem C09_ceil_floor_wrong_on_integers (x : IBMFloat) (n : ℤ) (h : x.value = n) (hne : x.value ≠ 0) :
    (0 < n → x.ceil = n + 1) ∧ (n < 0 → x.floor = n - 1) := by
  have h0 : x.intMantissa ≠ 0 := fun h0 => hne ((value_zero_iff x).mpr h0)
  have hneg := value_neg_iff x h0
  unfold IBMFloat.ceil IBMFloat.floor
  rw [C09_trunc]
  constructor
  · intro hn
    have hp : 0 < x.value := by rw [h]; exact_mod_cast hn
    have hs : x.signbit = false := by
      cases hs : x.signbit
      · rfl
      · have := hneg.mpr hs; linarith
    simp [hs, h]
  · intro hn
    have hp : x.value < 0 := by rw [h]; exact_mod_cast hn
    have hs : x.signbit = true := hneg.mp hp
    simp [hs, h]

example : ∃ x : IBMFloat, x.value = 1 ∧ x.ceil = 2 := ⟨⟨0x41, 0x10, 0, 0⟩, by decide +kernel, by decide +kernel⟩
example : ∃ x : IBMFloat, x.value = 5 / 2 := ⟨⟨0x41, 0x28, 0, 0⟩, by decide +kernel⟩

/-! ## C10 negation and absolute value -/

theorem C10_neg_abs (x : IBMFloat) : x.neg.value = -x.value ∧ x.abs.value = |x.value| :=
  ⟨neg_value x, abs_value_eq x⟩

/-- Negation is exact on the representation too: twice is the identity except that a zero of any
exponent becomes the canonical zero. -/
theorem C10_neg_neg (x : IBMFloat) : x.neg.neg = if x.value = 0 then zero else x := by
  have hz : ∀ y : IBMFloat, (y.isZero = true) ↔ y.value = 0 := by
    intro y; rw [value_zero_iff]; unfold isZero; simp
  by_cases h : x.value = 0
  · rw [if_pos h]
    have hx := (hz x).mpr h
    have : x.neg = zero := by unfold neg; rw [hx]; rfl
    rw [this]; rfl
  · rw [if_neg h]
    have hx : x.isZero = false := by rw [← Bool.not_eq_true, hz]; exact h
    unfold neg
    rw [hx]
    have : (⟨x.a ^^^ 0b10000000, x.b, x.c, x.d⟩ : IBMFloat).isZero = false := by
      rw [← Bool.not_eq_true, hz, flip_value]; simpa using h
    simp only [Bool.false_eq_true, if_false, this]
    cases x
    simp [UInt8.xor_assoc]

example : (⟨0xc2, 0x76, 0xa0, 0x00⟩ : IBMFloat).value ≠ 0 := by decide +kernel

/-! ## C11 frexp / ldexp -/

/-- `frexp` decomposes exactly: `m · 2^e` is the value and `|m| < 1`. -/
theorem C11_frexp (x : IBMFloat) :
    ∃ μ : ℚ, x.frexp.1 = .fin μ ∧ μ * (2 : ℚ) ^ x.frexp.2 = x.value ∧ |μ| < 1 := by
  have hd := value_dyadic x
  have hda := value_dyadic_abs x
  set n : ℤ := (if x.signbit then -1 else 1) * (x.intMantissa : ℤ) with hn
  have hfr : x.frexp = ((if n = 0 then PyFloat.fin 0 else PyFloat.ofRat ((n : ℚ) / (L24 : ℚ))), x.exp16 * 4) := rfl
  have hL : ((L24 : ℕ) : ℚ) = 2 ^ 24 := by unfold L24; norm_num
  refine ⟨(n : ℚ) / 2 ^ 24, ?_, ?_, ?_⟩
  · rw [hfr]
    by_cases h0 : n = 0
    · simp [h0]
    · simp only [h0, if_false, hL]
      apply ofRat_exact n (-24)
      · rw [zpow_neg, div_eq_mul_inv]; norm_cast
      · calc |n| < 2 ^ 24 := hda
          _ ≤ 2 ^ 53 := by norm_num
      · norm_num
      · rw [abs_div, abs_of_pos (by norm_num : (0 : ℚ) < 2 ^ 24), div_lt_iff₀ (by norm_num)]
        have : (|n| : ℚ) < 2 ^ 24 := by exact_mod_cast hda
        have h1 : (1 : ℚ) ≤ 2 ^ (1024 : ℤ) := by
          rw [show (1 : ℚ) = 2 ^ (0 : ℤ) by norm_num]; exact two_zpow_le.mpr (by norm_num)
        calc (|n| : ℚ) < 2 ^ 24 := this
          _ = 1 * 2 ^ 24 := by ring
          _ ≤ 2 ^ (1024 : ℤ) * 2 ^ 24 := by gcongr
  · rw [hfr, hd]
    simp only
    rw [show 4 * x.exp16 - 24 = x.exp16 * 4 - 24 by ring, zpow_sub₀ (by norm_num)]
    have : (2 : ℚ) ^ (24 : ℤ) = 2 ^ 24 := by norm_cast
    rw [this]; ring
  · rw [abs_div, abs_of_pos (by norm_num : (0 : ℚ) < 2 ^ 24), div_lt_one (by norm_num)]
    exact_mod_cast hda

/-- `ldexp(*frexp(x))` is an IBM float of the same value. -/
theorem C11_ldexp_frexp (x : IBMFloat) :
    ∃ r, IBMFloat.ldexp x.frexp.1 x.frexp.2 = .ok r ∧ r.value = x.value := by
  obtain ⟨μ, h1, h2, h3⟩ := C11_frexp x
  have hr := exp16_range x
  have he : x.frexp.2 = x.exp16 * 4 := rfl
  have hp : PyFloat.ofRat ((2 : ℚ) ^ x.frexp.2) = .fin (2 ^ x.frexp.2) := by
    apply ofRat_exact 1 x.frexp.2 (by simp) (by norm_num) (by omega)
    rw [abs_of_pos (two_zpow_pos _)]
    exact two_zpow_lt.mpr (by omega)
  rw [abs_lt] at h3
  unfold IBMFloat.ldexp
  rw [h1, hp]
  have c1 : ((PyFloat.fin (-1)).le (.fin μ) && (PyFloat.fin μ).le (.fin 1)) = true := by
    have a : -1 < μ := h3.1
    have b : μ < 1 := h3.2
    simp [PyFloat.le, PyFloat.lt, PyFloat.val, a, b]
  have c2 : (decide (-256 ≤ x.frexp.2) && decide (x.frexp.2 < 256)) = true := by
    simp; omega
  rw [c1, c2]
  simp only [Bool.not_true, Bool.false_eq_true, if_false]
  by_cases h0 : x.value = 0
  · have : μ * 2 ^ x.frexp.2 = 0 := by rw [h2, h0]
    rw [mul_fin_zero this]
    refine ⟨zero, ?_, by rw [zero_value, h0]⟩
    unfold fromFloat PyFloat.zero
    split
    · rfl
    · unfold ieee2ibm; simp
  · have : μ * 2 ^ x.frexp.2 ≠ 0 := by rw [h2]; exact h0
    rw [mul_fin this, h2]
    have e : PyFloat.ofRat x.value = .fin x.value := by
      apply ofRat_exact _ _ (value_dyadic x) ((value_dyadic_abs x).trans (by norm_num)) (by omega)
      exact (abs_value_le_max x).trans_lt ibmMax_lt
    rw [e]
    exact ieee2ibm_value x

/-- `ldexp` rejects fractions outside `[-1, 1]` and exponents outside `[-256, 256)`. -/
theorem C11_ldexp_rejects (q : ℚ) (e : ℤ) (h : q < -1 ∨ 1 < q ∨ e < -256 ∨ 256 ≤ e) :
    IBMFloat.ldexp (.fin q) e = .error .valueError := by
  unfold IBMFloat.ldexp
  by_cases hq : -1 ≤ q ∧ q ≤ 1
  · have he : e < -256 ∨ 256 ≤ e := by
      rcases h with h | h | h | h
      · exact absurd hq.1 (not_le.mpr h)
      · exact absurd hq.2 (not_le.mpr h)
      · exact Or.inl h
      · exact Or.inr h
    have : (decide (-256 ≤ e) && decide (e < 256)) = false := by simp; omega
    rw [this]
    simp
  · have : ((PyFloat.fin (-1)).le (.fin q) && (PyFloat.fin q).le (.fin 1)) = false := by
      rw [← Bool.not_eq_true]
      rw [Bool.and_eq_true, le_fin, le_fin]
      exact hq
    rw [this]
    simp

example : (⟨0xc2, 0x76, 0xa0, 0x00⟩ : IBMFloat).frexp = (.fin (-118625 / 256000), 8) := by decide +kernel

/-! ## C12 integer ratio and comparison with other numbers -/

/-- `as_integer_ratio` gives the value in lowest terms with a positive denominator. -/
theorem C12_ratio (x : IBMFloat) :
    ((x.asIntegerRatio.1 : ℚ) / (x.asIntegerRatio.2 : ℚ) = x.value) ∧ 0 < x.asIntegerRatio.2
      ∧ Int.gcd x.asIntegerRatio.1 x.asIntegerRatio.2 = 1 := by
  rw [asIntegerRatio_eq]
  refine ⟨?_, ?_, ?_⟩
  · simp only [Int.cast_natCast]; exact Rat.num_div_den _
  · simp only; exact_mod_cast x.value.den_pos
  · exact x.value.reduced

/-- Comparison with a float is exact equality of values; infinities and NaN are never equal. -/
theorem C12_eq_float (x : IBMFloat) (f : PyFloat) :
    IBMFloat.eqFloat x f = true ↔ f.isFinite = true ∧ x.value = f.val := by
  have key : ∀ q : ℚ, (x.value.num = q.num ∧ ((x.value.den : ℤ) = (q.den : ℤ))) ↔ x.value = q := by
    intro q
    constructor
    · rintro ⟨h1, h2⟩; exact Rat.ext h1 (by exact_mod_cast h2)
    · rintro rfl; exact ⟨rfl, rfl⟩
  cases f with
  | nan => simp [IBMFloat.eqFloat, PyFloat.eq, PyFloat.isFinite]
  | inf s => simp [IBMFloat.eqFloat, PyFloat.eq, PyFloat.isFinite]
  | negZero =>
    simp only [IBMFloat.eqFloat, asIntegerRatio_eq, ratIntegerRatio, PyFloat.val, PyFloat.isFinite,
      Bool.and_eq_true, decide_eq_true_eq, true_and]
    exact key 0
  | fin q =>
    simp only [IBMFloat.eqFloat, asIntegerRatio_eq, ratIntegerRatio, PyFloat.val, PyFloat.isFinite,
      Bool.and_eq_true, decide_eq_true_eq, true_and]
    exact key q

/-- Comparison with an integer or fraction is exact equality of values. -/
theorem C12_eq_rational (x : IBMFloat) (q : ℚ) : IBMFloat.eqRational x q = true ↔ x.value = q := by
  unfold IBMFloat.eqRational
  rw [asIntegerRatio_eq]
  simp only [Bool.and_eq_true, decide_eq_true_eq]
  constructor
  · rintro ⟨h1, h2⟩; exact Rat.ext h1 (by exact_mod_cast h2)
  · rintro rfl; exact ⟨rfl, rfl⟩

example : (⟨0xc2, 0x76, 0xa0, 0x00⟩ : IBMFloat).asIntegerRatio = (-949, 8) := by decide +kernel

/-! ## C13 arithmetic -/

/-- The product: the exact product truncated to IBM precision (zero on underflow), or `OverflowError`
exactly when it exceeds the largest IBM magnitude. -/
theorem C13_mul (x y : IBMFloat) :
    (x.mul y = .error .overflowError ↔ ibmMax < |x.value * y.value|) ∧
    (|x.value * y.value| ≤ ibmMax → ∃ r, x.mul y = .ok r ∧ IsTruncation (x.value * y.value) r.value) := by
  have h := mul_spec x y
  split at h
  · rename_i hc
    exact ⟨by rw [h]; exact iff_of_true rfl hc, fun h' => absurd hc (not_lt.mpr h')⟩
  · rename_i hc
    obtain ⟨r, hr, ht⟩ := h
    exact ⟨by rw [hr]; exact iff_of_false (by simp) hc, fun _ => ⟨r, hr, ht⟩⟩

/-- The sum and difference: the double-rounded exact result truncated to IBM precision. -/
theorem C13_add (x y : IBMFloat) :
    (x.add y = .error .overflowError ↔ ibmMax < |round64 (x.value + y.value)|) ∧
    (|round64 (x.value + y.value)| ≤ ibmMax →
      ∃ r, x.add y = .ok r ∧ IsTruncation (round64 (x.value + y.value)) r.value) := by
  have h := add_spec x y
  split at h
  · rename_i hc
    exact ⟨by simp [h, hc], fun h' => absurd hc (not_lt.mpr h')⟩
  · rename_i hc
    obtain ⟨r, hr, ht⟩ := h
    exact ⟨by simp [hr, hc], fun _ => ⟨r, hr, ht⟩⟩

theorem C13_sub (x y : IBMFloat) :
    (x.sub y = .error .overflowError ↔ ibmMax < |round64 (x.value - y.value)|) ∧
    (|round64 (x.value - y.value)| ≤ ibmMax →
      ∃ r, x.sub y = .ok r ∧ IsTruncation (round64 (x.value - y.value)) r.value) := by
  have h := sub_spec x y
  split at h
  · rename_i hc
    exact ⟨by simp [h, hc], fun h' => absurd hc (not_lt.mpr h')⟩
  · rename_i hc
    obtain ⟨r, hr, ht⟩ := h
    exact ⟨by simp [hr, hc], fun _ => ⟨r, hr, ht⟩⟩

/-- When the operands' exponents differ by at most seven hexadecimal digits the double sum is exact, so
the result is the truncation of the exact sum. -/
theorem C13_add_exact (x y : IBMFloat) (h : |x.exp16 - y.exp16| ≤ 7) (hm : |x.value + y.value| ≤ ibmMax) :
    ∃ r, x.add y = .ok r ∧ IsTruncation (x.value + y.value) r.value := by
  have := (C13_add x y).2
  rw [add_exact x y h] at this
  exact this hm

/-- The quotient: `ZeroDivisionError` exactly for a zero divisor, otherwise the double quotient truncated. -/
theorem C13_div (x y : IBMFloat) :
    (x.truediv y = .error .zeroDivisionError ↔ y.value = 0) ∧
    (y.value ≠ 0 →
      (x.truediv y = .error .overflowError ↔ ibmMax < |round64 (x.value / y.value)|) ∧
      (|round64 (x.value / y.value)| ≤ ibmMax →
        ∃ r, x.truediv y = .ok r ∧ IsTruncation (round64 (x.value / y.value)) r.value)) := by
  by_cases hy : y.value = 0
  · refine ⟨by simp [truediv_zero x y hy, hy], fun h => absurd hy h⟩
  · have h := truediv_spec x y hy
    split at h
    · rename_i hc
      exact ⟨by simp [h, hy], fun _ => ⟨by simp [h, hc], fun h' => absurd hc (not_lt.mpr h')⟩⟩
    · rename_i hc
      obtain ⟨r, hr, ht⟩ := h
      exact ⟨by simp [hr, hy], fun _ => ⟨by simp [hr, hc], fun _ => ⟨r, hr, ht⟩⟩⟩

/-- The underlying double quotient is within half a unit in the 53rd bit of the exact quotient. -/
theorem C13_div_error (q : ℚ) (hq : q ≠ 0) (hn : (2 : ℚ) ^ (-1000 : ℤ) ≤ |q|) :
    |round64 q - q| ≤ |q| / 2 ^ 53 := by
  have hc := roundTo_close 53 (-1074) hq
  have hs := frexpExp_spec hq
  have he : -1000 < frexpExp q := two_zpow_lt.mp (lt_of_le_of_lt hn hs.2)
  have hm : max (frexpExp q - ((53 : ℕ) : ℤ)) (-1074) = frexpExp q - 53 := by push_cast; omega
  rw [hm] at hc
  have e1 : (2 : ℚ) ^ (frexpExp q - 53) / 2 = 2 ^ (frexpExp q - 1) / 2 ^ 53 := by
    rw [zpow_sub₀ (by norm_num), zpow_sub₀ (by norm_num)]
    have : (2 : ℚ) ^ (53 : ℤ) = 2 ^ 53 := by norm_cast
    rw [this]; ring
  rw [e1] at hc
  calc |round64 q - q| ≤ 2 ^ (frexpExp q - 1) / 2 ^ 53 := hc
    _ ≤ |q| / 2 ^ 53 := by have := hs.1; gcongr

theorem C13_comm (x y : IBMFloat) : x.mul y = y.mul x ∧ x.add y = y.add x := by
  constructor
  · unfold IBMFloat.mul
    rw [toFloat_eq, toFloat_eq]
    by_cases h : x.value * y.value = 0
    · rw [mul_fin_zero h, mul_fin_zero (by rw [mul_comm]; exact h), withoutUnderflow_zero, withoutUnderflow_zero]
    · rw [mul_fin h, mul_fin (by rw [mul_comm]; exact h), mul_comm]
  · unfold IBMFloat.add
    rw [toFloat_eq, toFloat_eq]
    by_cases h : x.value + y.value = 0
    · rw [add_fin_zero h, add_fin_zero (by rw [add_comm]; exact h), withoutUnderflow_zero, withoutUnderflow_zero]
    · rw [add_fin h, add_fin (by rw [add_comm]; exact h), add_comm]

/-- `x + (-x)` and `x - x` are the canonical zero. -/
theorem C13_cancel (x : IBMFloat) : x.add x.neg = .ok zero ∧ x.sub x = .ok zero := by
  have h1 : x.value + x.neg.value = 0 := by rw [neg_value]; ring
  constructor
  · unfold IBMFloat.add
    rw [toFloat_eq, toFloat_eq, add_fin_zero h1, withoutUnderflow_zero]
  · unfold IBMFloat.sub PyFloat.sub
    rw [toFloat_eq, neg_fin]
    split
    · rename_i h
      rw [h]; decide +kernel
    · rw [add_fin_zero (by ring), withoutUnderflow_zero]

/-- Adding a zero (of any representation) keeps the value. -/
theorem C13_add_zero (x z : IBMFloat) (hz : z.value = 0) :
    ∃ r, x.add z = .ok r ∧ r.value = x.value := by
  have h := add_spec x z
  rw [hz, add_zero] at h
  have hr := exp16_range x
  have e : round64 x.value = x.value :=
    roundTo_exact _ _ (value_dyadic x) ((value_dyadic_abs x).trans (by norm_num)) (by omega)
  rw [e, if_neg (not_lt.mpr (abs_value_le_max x))] at h
  obtain ⟨r, h1, h2⟩ := h
  exact ⟨r, h1, isTruncation_unique h2 (isTruncation_self x)⟩

/-- Floor division is the floor of the double quotient. -/
theorem C13_floordiv (x y : IBMFloat) :
    x.floordiv y = if y.value = 0 then .error .zeroDivisionError else .ok ⌊round64 (x.value / y.value)⌋ := by
  unfold IBMFloat.floordiv
  by_cases hy : y.value = 0
  · rw [if_pos hy]
    rw [toFloat_eq, toFloat_eq, hy, div_fin_zero]; rfl
  · rw [if_neg hy, toFloat_eq, toFloat_eq]
    have hd := div_fin_eq x.value y.value hy
    have hb := div_bound x y hy
    rw [hd]
    by_cases h0 : x.value / y.value = 0
    · simp only [h0, if_true, round64_zero, bind, Except.bind, pure, Except.pure]
      unfold PyFloat.zero
      split <;> simp [PyFloat.val]
    · simp only [h0, if_false, bind, Except.bind, pure, Except.pure]
      rcases ofRat_finite hb with h1 | ⟨h1, h2⟩
      · rw [h1]; rfl
      · rw [h1, h2]; rfl

example : (⟨0xc1, 0x70, 0, 0⟩ : IBMFloat).floordiv ⟨0x41, 0x20, 0, 0⟩ = .ok (-4) := by decide +kernel
example : (⟨0xb1, 0, 0, 0⟩ : IBMFloat).value = 0 := by decide +kernel
example : |(⟨0x41, 0x10, 0, 0⟩ : IBMFloat).exp16 - (⟨0x3b, 0x1f, 0xff, 0xff⟩ : IBMFloat).exp16| ≤ 7
    ∧ |(⟨0x41, 0x10, 0, 0⟩ : IBMFloat).value + (⟨0x3b, 0x1f, 0xff, 0xff⟩ : IBMFloat).value| ≤ ibmMax := by
  decide +kernel
example : (⟨0x41, 0x10, 0, 0⟩ : IBMFloat).truediv ⟨0x41, 0x30, 0, 0⟩ = .ok ⟨0x40, 0x55, 0x55, 0x55⟩ := by
  decide +kernel
example : (⟨0x7f, 0x10, 0, 0⟩ : IBMFloat).mul ⟨0x42, 0x10, 0, 0⟩ = .error .overflowError := by decide +kernel
example : (2 : ℚ) ^ (-1000 : ℤ) ≤ |(1 / 3 : ℚ)| := by decide +kernel

end Segpy.Props
