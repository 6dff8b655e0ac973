import Verif.Lemmas.IbmFloat2

/-! # Lemmas about IBM float sign operations and arithmetic -/

namespace Segpy

/-- Distance of rounding. -/
theorem roundTo_close (p : ℕ) (emin : ℤ) {q : ℚ} (hq : q ≠ 0) :
    |roundTo p emin q - q| ≤ 2 ^ (max (frexpExp q - p) emin) / 2 := by
  unfold roundTo
  rw [if_neg hq]
  simp only
  set u := max (frexpExp q - (p : ℤ)) emin
  have h := roundHalfEven_close (q / 2 ^ u)
  have hp := two_zpow_pos u
  have : (roundHalfEven (q / 2 ^ u) : ℚ) * 2 ^ u - q = ((roundHalfEven (q / 2 ^ u) : ℚ) - q / 2 ^ u) * 2 ^ u := by
    field_simp
  rw [this, abs_mul, abs_of_pos hp]
  calc |(roundHalfEven (q / 2 ^ u) : ℚ) - q / 2 ^ u| * 2 ^ u ≤ 1 / 2 * 2 ^ u := by gcongr
    _ = _ := by ring

/-- A result below `2^1000` in magnitude is a finite float with the rounded value. -/
theorem ofRat_finite {q : ℚ} (h : |q| < (2 : ℚ) ^ (1000 : ℤ)) :
    (PyFloat.ofRat q = .fin (round64 q)) ∨ (PyFloat.ofRat q = .negZero ∧ round64 q = 0) := by
  have hb : |round64 q| < (2 : ℚ) ^ (1024 : ℤ) := by
    by_cases hq : q = 0
    · subst hq
      simp [round64, roundTo]
    · have hc := roundTo_close 53 (-1074) hq
      have he : frexpExp q ≤ 1000 := by
        have := two_zpow_lt.mp (lt_of_le_of_lt (frexpExp_spec hq).1 h)
        omega
      have hu : (2 : ℚ) ^ (max (frexpExp q - ((53 : ℕ) : ℤ)) (-1074)) ≤ 2 ^ (1000 : ℤ) :=
        two_zpow_le.mpr (by push_cast; omega)
      have h3 : |round64 q| ≤ |round64 q - q| + |q| := by
        have := abs_add_le (round64 q - q) q
        simpa using this
      have h4 : (2 : ℚ) ^ (1000 : ℤ) + 2 ^ (1000 : ℤ) = 2 ^ (1001 : ℤ) := by
        rw [show (1001 : ℤ) = 1000 + 1 by norm_num, zpow_add_one₀ (by norm_num)]; ring
      have h5 : (2 : ℚ) ^ (1001 : ℤ) < 2 ^ (1024 : ℤ) := two_zpow_lt.mpr (by norm_num)
      have hp := two_zpow_pos 1000
      unfold round64 at *
      generalize (2 : ℚ) ^ (1000 : ℤ) = A at *
      generalize (2 : ℚ) ^ (1001 : ℤ) = B at *
      generalize (2 : ℚ) ^ (1024 : ℤ) = C at *
      generalize (2 : ℚ) ^ (max (frexpExp q - ((53 : ℕ) : ℤ)) (-1074)) = D at *
      linarith
  unfold PyFloat.ofRat
  simp only
  rw [if_neg (not_le.mpr hb)]
  split
  · rename_i h; exact Or.inr ⟨rfl, h.1⟩
  · exact Or.inl rfl

namespace IBMFloat

open Spec

theorem frexpExp_neg (q : ℚ) : frexpExp (-q) = frexpExp q := by
  by_cases h : q = 0
  · subst h; simp
  · have := frexpExp_spec h
    apply frexpExp_unique <;> rw [abs_neg]
    · exact this.1
    · exact this.2

theorem xor_sign (B : ℕ) (hB : B < 128) (s : Bool) :
    (UInt8.ofNat (s.toNat * 128 + B)) ^^^ 0b10000000 = UInt8.ofNat ((!s).toNat * 128 + B) := by
  have h1 : ∀ k : Fin 128, ∀ s : Bool,
      (UInt8.ofNat (s.toNat * 128 + k.val)) ^^^ 0b10000000 = UInt8.ofNat ((!s).toNat * 128 + k.val) := by
    decide +kernel
  exact h1 ⟨B, hB⟩ s

theorem flip_mk' (s : Bool) (B m : ℕ) (hB : B < 128) :
    (⟨(mk' s B m).a ^^^ 0b10000000, (mk' s B m).b, (mk' s B m).c, (mk' s B m).d⟩ : IBMFloat)
      = mk' (!s) B m := by
  unfold mk'
  simp only [IBMFloat.mk.injEq, and_true]
  exact xor_sign B hB s

theorem conv_neg {q : ℚ} (hq : q ≠ 0) (h : |q| ≤ ibmMax) :
    conv (-q) = ⟨(conv q).a ^^^ 0b10000000, (conv q).b, (conv q).c, (conv q).d⟩ := by
  have h1 := storedExp_le hq h
  have h2 := storedExp_ge q
  have hs : storedExp (-q) = storedExp q := by
    unfold storedExp hexExp; rw [frexpExp_neg]
  have hm : ∀ K, hexMant (-q) K = hexMant q K := by intro K; unfold hexMant; rw [abs_neg]
  rw [conv, hs, hm]
  unfold conv
  rw [flip_mk' _ _ _ (by omega)]
  congr 1
  rcases lt_or_gt_of_ne hq with hn | hn
  · have : ¬ (0 < q) := not_lt.mpr hn.le
    simp [hn, this]
  · have : ¬ (q < 0) := not_lt.mpr hn.le
    simp [hn, this]

theorem flip_value (x : IBMFloat) : (⟨x.a ^^^ 0b10000000, x.b, x.c, x.d⟩ : IBMFloat).value = -x.value := by
  have hr := exp16_range x
  have e := eq_mk' x
  have hB : (x.exp16 + 64).toNat < 128 := by omega
  have h1 : (⟨x.a ^^^ 0b10000000, x.b, x.c, x.d⟩ : IBMFloat)
      = mk' (!x.signbit) (x.exp16 + 64).toNat x.intMantissa := by
    rw [← flip_mk' _ _ _ hB, ← e]
  rw [h1, value_eq, value_eq, mk'_signbit _ _ _ hB, mk'_mantissa _ _ _ (intMantissa_lt x), mk'_exp16 _ _ _ hB]
  have h2 : (((x.exp16 + 64).toNat : ℕ) : ℤ) - 64 = x.exp16 := by omega
  rw [h2]
  cases x.signbit <;> simp [sgn]

theorem zero_value : zero.value = 0 := by rw [value_zero_iff]; rfl

theorem neg_value (x : IBMFloat) : x.neg.value = -x.value := by
  unfold neg isZero
  split
  · rename_i h
    have h : x.intMantissa = 0 := by simpa using h
    rw [zero_value, (value_zero_iff x).mpr h, neg_zero]
  · exact flip_value x

theorem and_7f_byte (a : UInt8) : (a &&& 0b01111111) = a ∧ a.toNat < 128 ∨
    (a &&& 0b01111111) = a ^^^ 0b10000000 ∧ 128 ≤ a.toNat := by
  have h : ∀ k : Fin 256, ((UInt8.ofNat k.val) &&& 0b01111111) = UInt8.ofNat k.val ∧ (UInt8.ofNat k.val).toNat < 128 ∨
    ((UInt8.ofNat k.val) &&& 0b01111111) = (UInt8.ofNat k.val) ^^^ 0b10000000 ∧ 128 ≤ (UInt8.ofNat k.val).toNat := by
    decide +kernel
  have := h ⟨a.toNat, u8_lt a⟩
  simpa using this

theorem abs_value_eq (x : IBMFloat) : x.abs.value = |x.value| := by
  unfold abs isZero
  split
  · rename_i h
    have h : x.intMantissa = 0 := by simpa using h
    rw [zero_value, (value_zero_iff x).mpr h, abs_zero]
  · rename_i h
    have h : x.intMantissa ≠ 0 := by simpa using h
    have hs := value_neg_iff x h
    rw [signbit_eq] at hs
    simp only [decide_eq_true_eq] at hs
    rcases and_7f_byte x.a with ⟨h1, h2⟩ | ⟨h1, h2⟩
    · rw [h1, abs_of_nonneg (not_lt.mp (fun hc => by have := hs.mp hc; omega))]
    · rw [h1, flip_value, abs_of_neg (hs.mpr h2)]

/-! ## Arithmetic -/

theorem isTruncation_zero_of_tiny {q : ℚ} (h : |q| < ibmTiny) : IsTruncation q 0 where
  representable := representable_iff.mpr ⟨zero, zero_value⟩
  le := by simp
  same_sign := by simp
  greatest := by
    intro w hw hle
    obtain ⟨x, rfl⟩ := representable_iff.mp hw
    by_cases h0 : x.intMantissa = 0
    · rw [(value_zero_iff x).mpr h0]
    · have := tiny_le_of_ne_zero x h0
      linarith

/-- `from_float_without_underflow` on a finite number. -/
theorem withoutUnderflow_fin (q : ℚ) :
    if ibmMax < |q| then fromFloatWithoutUnderflow (.fin q) = .error .overflowError
    else ∃ r, fromFloatWithoutUnderflow (.fin q) = .ok r ∧ IsTruncation q r.value := by
  have hpos : (0 : ℚ) < ibmMax := by unfold ibmMax; norm_num
  by_cases hq : q = 0
  · subst hq
    rw [if_neg (by simp; linarith)]
    refine ⟨zero, by unfold fromFloatWithoutUnderflow ieee2ibm; simp, ?_⟩
    rw [zero_value]
    exact isTruncation_zero_of_tiny (by rw [abs_zero]; unfold ibmTiny; norm_num)
  · unfold fromFloatWithoutUnderflow
    rw [ieee2ibm_fin hq]
    split
    · rename_i h; rfl
    · rename_i h
      by_cases h2 : |q| < ibmTiny
      · rw [if_pos h2]
        exact ⟨zero, rfl, by rw [zero_value]; exact isTruncation_zero_of_tiny h2⟩
      · rw [if_neg h2]
        exact ⟨_, rfl, conv_isTruncation hq (not_lt.mp h) (not_lt.mp h2)⟩

theorem withoutUnderflow_negZero : fromFloatWithoutUnderflow .negZero = .ok zero := rfl

/-- `from_float_without_underflow` after rounding a result of moderate magnitude. -/
theorem withoutUnderflow_ofRat {q : ℚ} (h : |q| < (2 : ℚ) ^ (1000 : ℤ)) :
    if ibmMax < |round64 q| then fromFloatWithoutUnderflow (PyFloat.ofRat q) = .error .overflowError
    else ∃ r, fromFloatWithoutUnderflow (PyFloat.ofRat q) = .ok r ∧ IsTruncation (round64 q) r.value := by
  rcases ofRat_finite h with h1 | ⟨h1, h2⟩
  · rw [h1]; exact withoutUnderflow_fin _
  · rw [h1, h2]
    have hpos : (0 : ℚ) < ibmMax := by unfold ibmMax; norm_num
    rw [if_neg (by simp; linarith)]
    refine ⟨zero, rfl, ?_⟩
    rw [zero_value]
    exact isTruncation_zero_of_tiny (by rw [abs_zero]; unfold ibmTiny; norm_num)

theorem ibmMax_lt_252 : ibmMax < (2 : ℚ) ^ (252 : ℤ) := by unfold ibmMax; norm_num

theorem round64_zero : round64 0 = 0 := by simp [round64, roundTo]

theorem withoutUnderflow_zero (s : Bool) : fromFloatWithoutUnderflow (PyFloat.zero s) = .ok zero := by
  cases s
  · unfold fromFloatWithoutUnderflow PyFloat.zero ieee2ibm; simp
  · rfl

theorem mul_exact (x y : IBMFloat) : round64 (x.value * y.value) = x.value * y.value := by
  have h1 := exp16_range x
  have h2 := exp16_range y
  refine roundTo_exact
    (((if x.signbit then -1 else 1) * (x.intMantissa : ℤ)) * ((if y.signbit then -1 else 1) * (y.intMantissa : ℤ)))
    ((4 * x.exp16 - 24) + (4 * y.exp16 - 24)) ?_ ?_ (by omega)
  · rw [value_dyadic, value_dyadic, zpow_add₀ (by norm_num)]
    push_cast
    ring
  · rw [abs_mul]
    have a := value_dyadic_abs x
    have b := value_dyadic_abs y
    calc _ ≤ (2 ^ 24 : ℤ) * 2 ^ 24 := mul_le_mul a.le b.le (abs_nonneg _) (by norm_num)
      _ < 2 ^ 53 := by norm_num

/-- Outcome of multiplication. -/
theorem mul_spec (x y : IBMFloat) :
    if ibmMax < |x.value * y.value| then x.mul y = .error .overflowError
    else ∃ r, x.mul y = .ok r ∧ IsTruncation (x.value * y.value) r.value := by
  unfold mul
  rw [toFloat_eq, toFloat_eq]
  by_cases h0 : x.value * y.value = 0
  · rw [mul_fin_zero h0, withoutUnderflow_zero, h0]
    have hpos : (0 : ℚ) < ibmMax := by unfold ibmMax; norm_num
    rw [if_neg (by simp; linarith)]
    refine ⟨zero, rfl, ?_⟩
    rw [zero_value]
    exact isTruncation_zero_of_tiny (by rw [abs_zero]; unfold ibmTiny; norm_num)
  · rw [mul_fin h0]
    have hb : |x.value * y.value| < (2 : ℚ) ^ (1000 : ℤ) := by
      rw [abs_mul]
      have hx := (abs_value_le_max x).trans_lt ibmMax_lt_252
      have hy := (abs_value_le_max y).trans_lt ibmMax_lt_252
      have hp := two_zpow_pos 252
      calc |x.value| * |y.value| ≤ 2 ^ (252 : ℤ) * 2 ^ (252 : ℤ) :=
            mul_le_mul hx.le hy.le (abs_nonneg _) hp.le
        _ = 2 ^ (504 : ℤ) := by rw [← zpow_add₀ (by norm_num)]; norm_num
        _ < 2 ^ (1000 : ℤ) := two_zpow_lt.mpr (by norm_num)
    have := withoutUnderflow_ofRat hb
    rwa [mul_exact] at this

/-- Outcome of addition. -/
theorem add_spec (x y : IBMFloat) :
    if ibmMax < |round64 (x.value + y.value)| then x.add y = .error .overflowError
    else ∃ r, x.add y = .ok r ∧ IsTruncation (round64 (x.value + y.value)) r.value := by
  unfold add
  rw [toFloat_eq, toFloat_eq]
  by_cases h0 : x.value + y.value = 0
  · rw [add_fin_zero h0, withoutUnderflow_zero, h0, round64_zero]
    have hpos : (0 : ℚ) < ibmMax := by unfold ibmMax; norm_num
    rw [if_neg (by simp; linarith)]
    refine ⟨zero, rfl, ?_⟩
    rw [zero_value]
    exact isTruncation_zero_of_tiny (by rw [abs_zero]; unfold ibmTiny; norm_num)
  · rw [add_fin h0]
    have hb : |x.value + y.value| < (2 : ℚ) ^ (1000 : ℤ) := by
      have hx := (abs_value_le_max x).trans_lt ibmMax_lt_252
      have hy := (abs_value_le_max y).trans_lt ibmMax_lt_252
      have := abs_add_le x.value y.value
      have h4 : (2 : ℚ) ^ (252 : ℤ) + 2 ^ (252 : ℤ) = 2 ^ (253 : ℤ) := by
        rw [show (253 : ℤ) = 252 + 1 by norm_num, zpow_add_one₀ (by norm_num)]; ring
      have h5 : (2 : ℚ) ^ (253 : ℤ) < 2 ^ (1000 : ℤ) := two_zpow_lt.mpr (by norm_num)
      generalize (2 : ℚ) ^ (252 : ℤ) = A at *
      generalize (2 : ℚ) ^ (253 : ℤ) = B at *
      generalize (2 : ℚ) ^ (1000 : ℤ) = C at *
      linarith
    exact withoutUnderflow_ofRat hb

theorem lt_fin (p q : ℚ) : PyFloat.lt (.fin p) (.fin q) = true ↔ p < q := decide_eq_true_iff

theorem le_fin (p q : ℚ) : PyFloat.le (.fin p) (.fin q) = true ↔ p ≤ q := by
  have : PyFloat.le (.fin p) (.fin q) = (decide (p < q) || decide (p = q)) := rfl
  rw [this, Bool.or_eq_true, decide_eq_true_iff, decide_eq_true_iff]
  exact le_iff_lt_or_eq.symm

theorem neg_fin (q : ℚ) : PyFloat.neg (.fin q) = if q = 0 then .negZero else .fin (-q) := rfl

theorem sub_spec (x y : IBMFloat) :
    if ibmMax < |round64 (x.value - y.value)| then x.sub y = .error .overflowError
    else ∃ r, x.sub y = .ok r ∧ IsTruncation (round64 (x.value - y.value)) r.value := by
  by_cases hy : y.value = 0
  · -- y is zero: x + (-0.0)
    have hadd := add_spec x y
    rw [hy, add_zero] at hadd
    rw [hy, sub_zero]
    have e : x.sub y = x.add y := by
      unfold sub add PyFloat.sub
      rw [toFloat_eq, toFloat_eq, neg_fin, if_pos hy, hy]
      unfold PyFloat.add
      simp only [PyFloat.val, add_zero]
      by_cases hx : x.value = 0
      · simp only [hx, if_true, withoutUnderflow_zero]
      · simp only [hx, if_false]
    rw [e]; exact hadd
  · have hadd := add_spec x y.neg
    rw [neg_value, ← sub_eq_add_neg] at hadd
    have e : x.sub y = x.add y.neg := by
      unfold sub add PyFloat.sub
      rw [toFloat_eq, toFloat_eq, toFloat_eq, neg_fin, if_neg hy, neg_value]
    rw [e]; exact hadd

theorem truediv_zero (x y : IBMFloat) (h : y.value = 0) : x.truediv y = .error .zeroDivisionError := by
  unfold truediv PyFloat.div
  rw [toFloat_eq, toFloat_eq, h]
  simp [PyFloat.isFinite, PyFloat.val, bind, Except.bind]

theorem div_fin_eq (p q : ℚ) (h : q ≠ 0) : PyFloat.div (.fin p) (.fin q) =
    .ok (if p / q = 0 then PyFloat.zero ((PyFloat.fin p).signbit != (PyFloat.fin q).signbit)
      else PyFloat.ofRat (p / q)) := by
  have : (PyFloat.isFinite (.fin q) && decide ((PyFloat.fin q).val = 0)) = false := by
    simp [PyFloat.isFinite, PyFloat.val, h]
  refine (if_neg (c := (PyFloat.isFinite (.fin q) && decide ((PyFloat.fin q).val = 0)) = true) ?_).trans rfl
  rw [this]; simp

theorem div_fin_zero (p : ℚ) : PyFloat.div (.fin p) (.fin 0) = .error .zeroDivisionError := rfl

theorem div_bound (x y : IBMFloat) (h : y.value ≠ 0) : |x.value / y.value| < (2 : ℚ) ^ (1000 : ℤ) := by
  rw [abs_div]
  have hx := (abs_value_le_max x).trans_lt ibmMax_lt_252
  have hm : y.intMantissa ≠ 0 := fun hc => h ((value_zero_iff y).mpr hc)
  have hy := tiny_le_of_ne_zero y hm
  have ht : ibmTiny = (2 : ℚ) ^ (-280 : ℤ) := by decide +kernel
  have hp := two_zpow_pos (-280)
  rw [ht] at hy
  rw [div_lt_iff₀ (lt_of_lt_of_le hp hy)]
  calc |x.value| < 2 ^ (252 : ℤ) := hx
    _ ≤ 2 ^ (720 : ℤ) := two_zpow_le.mpr (by norm_num)
    _ = 2 ^ (1000 : ℤ) * 2 ^ (-280 : ℤ) := by rw [← zpow_add₀ (by norm_num)]; norm_num
    _ ≤ 2 ^ (1000 : ℤ) * |y.value| := by
      have := two_zpow_pos 1000
      gcongr

theorem truediv_spec (x y : IBMFloat) (h : y.value ≠ 0) :
    if ibmMax < |round64 (x.value / y.value)| then x.truediv y = .error .overflowError
    else ∃ r, x.truediv y = .ok r ∧ IsTruncation (round64 (x.value / y.value)) r.value := by
  unfold truediv
  rw [toFloat_eq, toFloat_eq, div_fin_eq _ _ h]
  simp only [bind, Except.bind]
  by_cases h0 : x.value / y.value = 0
  · simp only [h0, if_true, withoutUnderflow_zero, round64_zero]
    have hpos : (0 : ℚ) < ibmMax := by unfold ibmMax; norm_num
    rw [if_neg (by simp; linarith)]
    refine ⟨zero, rfl, ?_⟩
    rw [zero_value]
    exact isTruncation_zero_of_tiny (by rw [abs_zero]; unfold ibmTiny; norm_num)
  · simp only [h0, if_false]
    exact withoutUnderflow_ofRat (div_bound x y h)

theorem add_exact (x y : IBMFloat) (h : |x.exp16 - y.exp16| ≤ 7) :
    round64 (x.value + y.value) = x.value + y.value := by
  wlog hle : x.exp16 ≤ y.exp16 generalizing x y
  · rw [add_comm]; exact this y x (by rw [abs_sub_comm]; exact h) (by omega)
  have h1 := exp16_range x
  obtain ⟨n, hn⟩ : ∃ n : ℕ, y.exp16 = x.exp16 + n := ⟨(y.exp16 - x.exp16).toNat, by omega⟩
  have hn7 : n ≤ 7 := by
    rw [abs_le] at h; omega
  refine roundTo_exact
    (((if x.signbit then -1 else 1) * (x.intMantissa : ℤ))
      + ((if y.signbit then -1 else 1) * (y.intMantissa : ℤ)) * 16 ^ n)
    (4 * x.exp16 - 24) ?_ ?_ (by omega)
  · rw [value_dyadic x, value_dyadic y, hn]
    have e : (2 : ℚ) ^ (4 * (x.exp16 + n) - 24) = 2 ^ (4 * x.exp16 - 24) * 16 ^ n := by
      have : 4 * (x.exp16 + n) - 24 = (4 * x.exp16 - 24) + 4 * (n : ℤ) := by ring
      rw [this, zpow_add₀ (by norm_num), zpow_mul, zpow_natCast]
      norm_num
    rw [e]
    push_cast
    ring
  · have a := value_dyadic_abs x
    have b := value_dyadic_abs y
    have hp : (16 : ℤ) ^ n ≤ 16 ^ 7 := pow_le_pow_right₀ (by norm_num) hn7
    have hp0 : (0 : ℤ) < 16 ^ n := by positivity
    refine lt_of_le_of_lt (abs_add_le _ _) ?_
    rw [abs_mul _ ((16 : ℤ) ^ n), abs_of_pos hp0]
    have : |((if y.signbit then -1 else 1) * (y.intMantissa : ℤ) : ℤ)| * 16 ^ n ≤ 2 ^ 24 * 16 ^ 7 :=
      mul_le_mul b.le hp hp0.le (by norm_num)
    calc _ ≤ (2 : ℤ) ^ 24 + 2 ^ 24 * 16 ^ 7 := add_le_add a.le this
      _ < 2 ^ 53 := by norm_num

end IBMFloat

end Segpy
