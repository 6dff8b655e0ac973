import Verif.Lemmas.IbmArith

/-! # Lemmas about rounding to integers and decimal digits, remainders and floor division -/

namespace Segpy

open Spec

theorem nearestInt_round (q : ℚ) : NearestInt q (roundHalfEven q) :=
  ⟨roundHalfEven_nearest q, fun m hm h => roundHalfEven_tie q m hm h⟩

/-- An integer of at most 24 bits, times a power of 16, is a value. -/
theorem exists_value (k : Int) (e : Int) (hk : |k| < 2 ^ 24) (he : -64 ≤ e) (he2 : e ≤ 63) :
    ∃ y : IBMFloat, y.value = k * (16 : ℚ) ^ (e - 6) := by
  have hm : k.natAbs < 2 ^ 24 := by
    have : ((k.natAbs : ℕ) : ℤ) < 2 ^ 24 := by rwa [Int.natCast_natAbs]
    exact_mod_cast this
  have hB : (e + 64).toNat < 128 := by omega
  refine ⟨IBMFloat.mk' (decide (k < 0)) (e + 64).toNat k.natAbs, ?_⟩
  rw [IBMFloat.value_eq, IBMFloat.mk'_mantissa _ _ _ hm, IBMFloat.mk'_signbit _ _ _ hB, IBMFloat.mk'_exp16 _ _ _ hB]
  have h1 : ((e + 64).toNat : Int) - 64 = e := by omega
  have h2 : IBMFloat.sgn (decide (k < 0)) * ((k.natAbs : ℕ) : ℚ) = k := by
    unfold IBMFloat.sgn
    by_cases h : k < 0
    · have : ((k.natAbs : ℕ) : ℤ) = -k := by omega
      have : ((k.natAbs : ℕ) : ℚ) = -k := by rw [← Int.cast_natCast, this, Int.cast_neg]
      rw [this]; simp [h]
    · have : ((k.natAbs : ℕ) : ℤ) = k := by omega
      have : ((k.natAbs : ℕ) : ℚ) = k := by rw [← Int.cast_natCast, this]
      rw [this]; simp [h]
  rw [h1, zpow_sub₀ (by norm_num)]
  calc _ = IBMFloat.sgn (decide (k < 0)) * ((k.natAbs : ℕ) : ℚ) * (16 ^ e / 2 ^ 24) := by ring
    _ = _ := by rw [h2]; norm_num

/-- The value as an integer times a power of 16. -/
theorem value_hex (x : IBMFloat) :
    ∃ k : Int, x.value = k * (16 : ℚ) ^ (x.exp16 - 6) ∧ |k| < 2 ^ 24 := by
  refine ⟨_, ?_, IBMFloat.value_dyadic_abs x⟩
  rw [IBMFloat.value_dyadic x]
  congr 1
  rw [show (16 : ℚ) = 2 ^ (4 : ℤ) by norm_num, ← zpow_mul]
  congr 1
  ring

/-- Converting the value of an `IBMFloat` is exact. -/
theorem withoutUnderflow_value (y : IBMFloat) :
    ∃ z, IBMFloat.fromFloatWithoutUnderflow (.fin y.value) = .ok z ∧ z.value = y.value := by
  have h := IBMFloat.withoutUnderflow_fin y.value
  rw [if_neg (not_lt.mpr (IBMFloat.abs_value_le_max y))] at h
  obtain ⟨r, h1, h2⟩ := h
  exact ⟨r, h1, IBMFloat.isTruncation_unique h2 (IBMFloat.isTruncation_self y)⟩

/-- The nearest integer to a value is a value. -/
theorem round_value (x : IBMFloat) : ∃ y : IBMFloat, y.value = roundHalfEven x.value := by
  obtain ⟨k, hk, hb⟩ := value_hex x
  by_cases he : 6 ≤ x.exp16
  · refine ⟨x, ?_⟩
    obtain ⟨n, hn⟩ : ∃ n : ℕ, x.exp16 - 6 = n := ⟨(x.exp16 - 6).toNat, by omega⟩
    have : x.value = ((k * 16 ^ n : Int) : ℚ) := by
      rw [hk, hn, zpow_natCast]; push_cast; rfl
    rw [this, roundHalfEven_int]
  · have hlt : |x.value| ≤ 2 ^ 20 := by
      rw [hk, abs_mul, abs_of_pos (a := (16 : ℚ) ^ (x.exp16 - 6)) (by positivity)]
      have h1 : |(k : ℚ)| ≤ 2 ^ 24 := by
        rw [← Int.cast_abs]; exact_mod_cast hb.le
      have h2 : (16 : ℚ) ^ (x.exp16 - 6) ≤ 16 ^ (-1 : ℤ) := zpow_le_zpow_right₀ (by norm_num) (by omega)
      calc |(k : ℚ)| * 16 ^ (x.exp16 - 6) ≤ 2 ^ 24 * 16 ^ (-1 : ℤ) := by gcongr
        _ = 2 ^ 20 := by norm_num
    have hc := roundHalfEven_close x.value
    have hr : |roundHalfEven x.value| < 2 ^ 24 := by
      have h3 : |(roundHalfEven x.value : ℚ)| ≤ 2 ^ 20 + 1 / 2 := by
        have := abs_sub_abs_le_abs_sub (roundHalfEven x.value : ℚ) x.value
        linarith
      have h4 : |(roundHalfEven x.value : ℚ)| < 2 ^ 24 := lt_of_le_of_lt h3 (by norm_num)
      rw [← Int.cast_abs] at h4
      exact_mod_cast h4
    obtain ⟨y, hy⟩ := exists_value (roundHalfEven x.value) 6 hr (by norm_num) (by norm_num)
    exact ⟨y, by rw [hy]; simp⟩

theorem ofInt_value {n : Int} {y : IBMFloat} (h : y.value = n) : PyFloat.ofInt n = .ok (.fin n) := by
  have hr : round64 (n : ℚ) = n := by rw [← h]; exact round64_value y
  have hb : ¬ (2 : ℚ) ^ (1024 : Int) ≤ |(n : ℚ)| := by
    rw [← h]
    exact not_le.mpr (lt_of_le_of_lt (IBMFloat.abs_value_le_max y) IBMFloat.ibmMax_lt)
  unfold PyFloat.ofInt PyFloat.ofRat
  dsimp only
  rw [hr, if_neg hb, if_neg]
  rintro ⟨h0, h1⟩
  rw [h0] at h1
  exact lt_irrefl _ h1

/-! ## Decimal digits -/

/-- With this many decimal places a value is exact. -/
theorem value_decimal (x : IBMFloat) {nd : Int} (h : 323 < nd) : ∃ d : Int, x.value * (10 : ℚ) ^ nd = d := by
  have hr := IBMFloat.exp16_range x
  rw [IBMFloat.value_dyadic x]
  set m : ℤ := (if x.signbit then -1 else 1) * (x.intMantissa : ℤ)
  obtain ⟨n, hn⟩ : ∃ n : ℕ, nd = n := ⟨nd.toNat, by omega⟩
  obtain ⟨j, hj⟩ : ∃ j : ℕ, 4 * x.exp16 - 24 + nd = j := ⟨(4 * x.exp16 - 24 + nd).toNat, by omega⟩
  refine ⟨m * 2 ^ j * 5 ^ n, ?_⟩
  have : (10 : ℚ) ^ nd = 2 ^ nd * 5 ^ n := by
    rw [show (10 : ℚ) = 2 * 5 by norm_num, mul_zpow]
    congr 1
    rw [hn, zpow_natCast]
  rw [this]
  calc (m : ℚ) * 2 ^ (4 * x.exp16 - 24) * (2 ^ nd * 5 ^ n) = m * (2 ^ (4 * x.exp16 - 24) * 2 ^ nd) * 5 ^ n := by ring
    _ = m * 2 ^ j * 5 ^ n := by
      rw [← zpow_add₀ (by norm_num), hj, zpow_natCast]
    _ = _ := by push_cast; rfl

theorem ibmMax_small : ibmMax < (10 : ℚ) ^ (100 : ℤ) := by unfold ibmMax; norm_num

theorem roundHalfEven_eq_zero {q : ℚ} (h : |q| < 1 / 2) : roundHalfEven q = 0 := by
  have hc := roundHalfEven_close q
  have : |(roundHalfEven q : ℚ)| < 1 := by
    have := abs_sub_abs_le_abs_sub (roundHalfEven q : ℚ) q
    linarith
  rw [← Int.cast_abs] at this
  have : |roundHalfEven q| < 1 := by exact_mod_cast this
  exact Int.abs_lt_one_iff.mp this

/-- `round(float(x), ndigits)` is the decimal number nearest to the value, rounded to a double. -/
theorem roundDigits_spec (x : IBMFloat) (nd : Int) :
    (x.toFloat.roundDigits nd).isFinite = true ∧
    NearestDouble ((roundHalfEven (x.value * (10 : ℚ) ^ nd) : ℚ) / (10 : ℚ) ^ nd) (x.toFloat.roundDigits nd).val := by
  have h10 : (0 : ℚ) < (10 : ℚ) ^ nd := by positivity
  have hself : NearestDouble x.value x.value := by
    have := nearestDouble_round64 x.value
    rwa [round64_value] at this
  have hz : NearestDouble 0 0 := by
    have := nearestDouble_round64 0
    rwa [round64_zero] at this
  rw [IBMFloat.toFloat_eq]
  unfold PyFloat.roundDigits
  show (if x.value = 0 then _ else _ : PyFloat).isFinite = true ∧ _
  by_cases h0 : x.value = 0
  · rw [if_pos h0, if_pos (show (PyFloat.fin x.value).val = 0 from h0)]
    refine ⟨rfl, ?_⟩
    rw [h0, zero_mul]
    have : roundHalfEven (0 : ℚ) = 0 := by simpa using roundHalfEven_int 0
    rw [this]
    simpa [PyFloat.val] using hz
  rw [if_neg h0, if_neg (show ¬ (PyFloat.fin x.value).val = 0 from h0)]
  show (if nd > 323 then PyFloat.fin x.value else _).isFinite = true ∧ _
  by_cases h1 : nd > 323
  · rw [if_pos h1]
    refine ⟨rfl, ?_⟩
    obtain ⟨d, hd⟩ := value_decimal x h1
    rw [hd, roundHalfEven_int, ← hd, mul_div_cancel_right₀ _ h10.ne']
    exact hself
  rw [if_neg h1]
  by_cases h2 : nd < -308
  · rw [if_pos h2]
    have hsm : roundHalfEven (x.value * (10 : ℚ) ^ nd) = 0 := by
      apply roundHalfEven_eq_zero
      rw [abs_mul, abs_of_pos h10]
      have a := lt_of_le_of_lt (IBMFloat.abs_value_le_max x) ibmMax_small
      have b : (10 : ℚ) ^ nd ≤ 10 ^ (-309 : ℤ) := zpow_le_zpow_right₀ (by norm_num) (by omega)
      calc |x.value| * (10 : ℚ) ^ nd ≤ 10 ^ (100 : ℤ) * 10 ^ (-309 : ℤ) := mul_le_mul a.le b h10.le (by positivity)
        _ = 10 ^ (-209 : ℤ) := by rw [← zpow_add₀ (by norm_num)]; norm_num
        _ ≤ 10 ^ (-1 : ℤ) := zpow_le_zpow_right₀ (by norm_num) (by norm_num)
        _ < 1 / 2 := by norm_num
    rw [hsm]
    have : ∀ s, (PyFloat.zero s).isFinite = true ∧ (PyFloat.zero s).val = 0 := by intro s; cases s <;> exact ⟨rfl, rfl⟩
    refine ⟨(this _).1, ?_⟩
    rw [(this _).2]
    simpa using hz
  rw [if_neg h2]
  set d := roundHalfEven (x.value * (10 : ℚ) ^ nd) with hd
  show (if (d : ℚ) / 10 ^ nd = 0 then PyFloat.zero (PyFloat.fin x.value).signbit else PyFloat.ofRat ((d : ℚ) / 10 ^ nd)).isFinite
    = true ∧ NearestDouble _ (if (d : ℚ) / 10 ^ nd = 0 then PyFloat.zero (PyFloat.fin x.value).signbit else
      PyFloat.ofRat ((d : ℚ) / 10 ^ nd)).val
  have hr : IsRounded ((d : ℚ) / 10 ^ nd) (if (d : ℚ) / 10 ^ nd = 0 then PyFloat.zero (PyFloat.fin x.value).signbit else
      PyFloat.ofRat ((d : ℚ) / 10 ^ nd)) := isRounded_ite
  have hbound : |(d : ℚ) / 10 ^ nd| ≤ 2 * 10 ^ (100 : ℤ) := by
    by_cases hd0 : d = 0
    · rw [hd0]; simp
    · have hhalf : 1 / 2 ≤ |x.value * 10 ^ nd| := by
        by_contra hc
        exact hd0 (roundHalfEven_eq_zero (not_le.mp hc))
      have hc := roundHalfEven_close (x.value * 10 ^ nd)
      rw [← hd] at hc
      have h3 := abs_sub_abs_le_abs_sub (d : ℚ) (x.value * 10 ^ nd)
      have h4 : |(d : ℚ)| ≤ 2 * |x.value * 10 ^ nd| := by linarith
      rw [abs_div, abs_of_pos h10, div_le_iff₀ h10]
      rw [abs_mul, abs_of_pos h10] at h4
      have a := lt_of_le_of_lt (IBMFloat.abs_value_le_max x) ibmMax_small
      calc |(d : ℚ)| ≤ 2 * (|x.value| * 10 ^ nd) := h4
        _ ≤ 2 * 10 ^ (100 : ℤ) * 10 ^ nd := by
          rw [mul_assoc]
          exact mul_le_mul_of_nonneg_left (mul_le_mul_of_nonneg_right a.le h10.le) (by norm_num)
  rcases hr.1 with ⟨neg, -, r, k1, k2⟩ | ⟨k1, k2, -⟩
  · exfalso
    have hw : IsDouble 0 := representable_zero _ _
    have := k1.nearest 0 hw
    rw [zero_sub, abs_neg] at this
    have h5 := abs_sub_abs_le_abs_sub r ((d : ℚ) / 10 ^ nd)
    have h7 : 2 * (2 * (10 : ℚ) ^ (100 : ℤ)) < 2 ^ (1024 : ℤ) := by
      calc 2 * (2 * (10 : ℚ) ^ (100 : ℤ)) ≤ 2 ^ (2 : ℤ) * 16 ^ (100 : ℤ) := by norm_num
        _ = 2 ^ (402 : ℤ) := by
          rw [show (16 : ℚ) = 2 ^ (4 : ℤ) by norm_num, ← zpow_mul, ← zpow_add₀ (by norm_num)]; rfl
        _ < 2 ^ (1024 : ℤ) := two_zpow_lt.mpr (by norm_num)
    generalize (2 : ℚ) ^ (1024 : ℤ) = P at k2 h7
    generalize (10 : ℚ) ^ (100 : ℤ) = T at hbound h7
    linarith
  · exact ⟨k1, k2⟩
where round64_zero : round64 0 = 0 := by simp [round64, roundTo]

/-! ## Remainders -/

theorem fmodRat_facts (a b : ℚ) (hb : b ≠ 0) :
    |PyFloat.fmodRat a b| < |b| ∧ |PyFloat.fmodRat a b| ≤ |a| ∧ 0 ≤ PyFloat.fmodRat a b * a ∧
    ∃ n : Int, PyFloat.fmodRat a b = a - b * n := by
  have hab : a = b * (a / b) := by field_simp
  unfold PyFloat.fmodRat
  set t := a / b with ht
  have hb2 : 0 < |b| := abs_pos.mpr hb
  by_cases hneg : t < 0
  · rw [if_pos hneg]
    have e : a - b * (⌈t⌉ : ℚ) = b * (t - ⌈t⌉) := by rw [mul_sub, ← hab]
    have h1 : (⌈t⌉ : ℚ) - 1 < t := by linarith [Int.ceil_lt_add_one t]
    have h2 := Int.le_ceil t
    have h3 : (⌈t⌉ : ℚ) ≤ 0 := by exact_mod_cast Int.ceil_le.mpr (by simpa using hneg.le)
    refine ⟨?_, ?_, ?_, _, rfl⟩
    · rw [e, abs_mul]
      have : |t - ⌈t⌉| < 1 := by rw [abs_lt]; constructor <;> linarith
      nlinarith
    · rw [e, abs_mul]
      conv_rhs => rw [hab, abs_mul]
      have : |t - ⌈t⌉| ≤ |t| := by rw [abs_of_nonpos (by linarith), abs_of_neg hneg]; linarith
      exact mul_le_mul_of_nonneg_left this hb2.le
    · rw [e]
      have : b * (t - ⌈t⌉) * a = b ^ 2 * ((t - ⌈t⌉) * t) := by
        rw [show b * (t - ⌈t⌉) * a = b * (t - ⌈t⌉) * (b * t) by rw [← hab]]
        ring
      rw [this]
      exact mul_nonneg (sq_nonneg _) (mul_nonneg_of_nonpos_of_nonpos (by linarith) hneg.le)
  · rw [if_neg hneg]
    have hpos := not_lt.mp hneg
    have e : a - b * (⌊t⌋ : ℚ) = b * (t - ⌊t⌋) := by rw [mul_sub, ← hab]
    have h1 := Int.floor_le t
    have h2 := Int.lt_floor_add_one t
    have h3 : (0 : ℚ) ≤ ⌊t⌋ := by exact_mod_cast Int.floor_nonneg.mpr hpos
    refine ⟨?_, ?_, ?_, _, rfl⟩
    · rw [e, abs_mul]
      have : |t - ⌊t⌋| < 1 := by rw [abs_lt]; constructor <;> linarith
      nlinarith
    · rw [e, abs_mul]
      conv_rhs => rw [hab, abs_mul]
      have : |t - ⌊t⌋| ≤ |t| := by rw [abs_of_nonneg (by linarith), abs_of_nonneg hpos]; linarith
      exact mul_le_mul_of_nonneg_left this hb2.le
    · rw [e]
      have : b * (t - ⌊t⌋) * a = b ^ 2 * ((t - ⌊t⌋) * t) := by
        rw [show b * (t - ⌊t⌋) * a = b * (t - ⌊t⌋) * (b * t) by rw [← hab]]
        ring
      rw [this]
      exact mul_nonneg (sq_nonneg _) (mul_nonneg (by linarith) hpos)

/-- The remainder of floored division is that of `fmod` if that is zero or has the sign of the divisor, and otherwise
the divisor more. -/
theorem remainder_fmod (a b : ℚ) (hb : b ≠ 0) :
    remainder a b = if PyFloat.fmodRat a b = 0 ∨ (b < 0 ↔ PyFloat.fmodRat a b < 0) then PyFloat.fmodRat a b
      else PyFloat.fmodRat a b + b := by
  have hab : a = b * (a / b) := by field_simp
  unfold PyFloat.fmodRat remainder
  set t := a / b with ht
  by_cases hneg : t < 0
  · rw [if_pos hneg]
    have e : a - b * (⌈t⌉ : ℚ) = b * (t - ⌈t⌉) := by rw [mul_sub, ← hab]
    have h1 : (⌈t⌉ : ℚ) - 1 < t := by linarith [Int.ceil_lt_add_one t]
    have h2 := Int.le_ceil t
    rw [e]
    by_cases hint : t = ⌈t⌉
    · have hf : ⌊t⌋ = ⌈t⌉ := by
        rw [hint, Int.floor_intCast, Int.ceil_intCast]
      rw [hf, e, if_pos]
      left
      rw [← hint, sub_self, mul_zero]
    · have hlt : t < ⌈t⌉ := lt_of_le_of_ne h2 hint
      have hf : ⌊t⌋ = ⌈t⌉ - 1 := by
        rw [Int.floor_eq_iff]
        push_cast
        exact ⟨h1.le, by linarith⟩
      rw [if_neg, hf]
      · push_cast
        conv_lhs => rw [hab]
        ring
      · rintro (h | h)
        · rcases mul_eq_zero.mp h with h | h
          · exact hb h
          · exact hint (by linarith)
        · rcases lt_or_gt_of_ne hb with h3 | h3
          · have := h.mp h3
            nlinarith
          · have : b * (t - ⌈t⌉) < 0 := by nlinarith
            exact absurd (h.mpr this) (not_lt.mpr h3.le)
  · rw [if_neg hneg, if_pos]
    have e : a - b * (⌊t⌋ : ℚ) = b * (t - ⌊t⌋) := by rw [mul_sub, ← hab]
    have h1 := Int.floor_le t
    rw [e]
    by_cases hint : t - ⌊t⌋ = 0
    · left; rw [hint, mul_zero]
    · right
      have hp : 0 < t - ⌊t⌋ := lt_of_le_of_ne (by linarith) (Ne.symm hint)
      constructor
      · intro h; nlinarith
      · intro h
        by_contra hc
        have := mul_nonneg (not_lt.mp hc) hp.le
        linarith

/-- `fmod` of two doubles is a double. -/
theorem fmodRat_double {a b : ℚ} (ha : IsDouble a) (hb : IsDouble b) (hne : b ≠ 0) : IsDouble (PyFloat.fmodRat a b) := by
  obtain ⟨f1, f2, -, n, hn⟩ := fmodRat_facts a b hne
  obtain ⟨m, u, rfl, hm, hu⟩ := ha
  obtain ⟨k, w, rfl, hk, hw⟩ := hb
  set r := PyFloat.fmodRat (↑m * 2 ^ u) (↑k * 2 ^ w)
  rcases le_total u w with h | h
  · obtain ⟨j, hj⟩ : ∃ j : ℕ, w = u + j := ⟨(w - u).toNat, by omega⟩
    have e : r = ((m - k * 2 ^ j * n : Int) : ℚ) * 2 ^ u := by
      rw [hn, hj, zpow_add₀ (by norm_num), zpow_natCast]
      push_cast
      ring
    refine ⟨_, u, e, ?_, hu⟩
    rw [e, abs_mul, abs_mul, abs_of_pos (two_zpow_pos u)] at f2
    have := le_of_mul_le_mul_right f2 (two_zpow_pos u)
    rw [← Int.cast_abs, ← Int.cast_abs] at this
    exact lt_of_le_of_lt (by exact_mod_cast this) hm
  · obtain ⟨j, hj⟩ : ∃ j : ℕ, u = w + j := ⟨(u - w).toNat, by omega⟩
    have e : r = ((m * 2 ^ j - k * n : Int) : ℚ) * 2 ^ w := by
      rw [hn, hj, zpow_add₀ (by norm_num), zpow_natCast]
      push_cast
      ring
    refine ⟨_, w, e, ?_, hw⟩
    rw [e, abs_mul, abs_mul, abs_of_pos (two_zpow_pos w)] at f1
    have := lt_of_mul_lt_mul_right f1 (two_zpow_pos w).le
    rw [← Int.cast_abs, ← Int.cast_abs] at this
    exact lt_trans (by exact_mod_cast this) hk

/-- `fmod` of two IBM numbers is an IBM number. -/
theorem fmodRat_ibm (x y : IBMFloat) (hne : y.value ≠ 0) : ∃ z : IBMFloat, z.value = PyFloat.fmodRat x.value y.value := by
  obtain ⟨f1, f2, -, n, hn⟩ := fmodRat_facts x.value y.value hne
  obtain ⟨m, hx, hm⟩ := value_hex x
  obtain ⟨k, hy, hk⟩ := value_hex y
  have rx := IBMFloat.exp16_range x
  have ry := IBMFloat.exp16_range y
  set r := PyFloat.fmodRat x.value y.value
  have hp : ∀ e : ℤ, (0 : ℚ) < 16 ^ e := fun e => by positivity
  rcases le_total x.exp16 y.exp16 with h | h
  · obtain ⟨j, hj⟩ : ∃ j : ℕ, y.exp16 - 6 = x.exp16 - 6 + j := ⟨(y.exp16 - x.exp16).toNat, by omega⟩
    have e : r = ((m - k * 16 ^ j * n : Int) : ℚ) * 16 ^ (x.exp16 - 6) := by
      rw [hn, hx, hy, hj, zpow_add₀ (by norm_num), zpow_natCast]
      push_cast
      ring
    have hb : |m - k * 16 ^ j * n| < 2 ^ 24 := by
      rw [e, hx, abs_mul, abs_mul, abs_of_pos (hp _)] at f2
      have := le_of_mul_le_mul_right f2 (hp _)
      rw [← Int.cast_abs, ← Int.cast_abs] at this
      exact lt_of_le_of_lt (by exact_mod_cast this) hm
    obtain ⟨z, hz⟩ := exists_value _ _ hb rx.1 rx.2
    exact ⟨z, by rw [hz, e]⟩
  · obtain ⟨j, hj⟩ : ∃ j : ℕ, x.exp16 - 6 = y.exp16 - 6 + j := ⟨(x.exp16 - y.exp16).toNat, by omega⟩
    have e : r = ((m * 16 ^ j - k * n : Int) : ℚ) * 16 ^ (y.exp16 - 6) := by
      rw [hn, hx, hy, hj, zpow_add₀ (by norm_num), zpow_natCast]
      push_cast
      ring
    have hb : |m * 16 ^ j - k * n| < 2 ^ 24 := by
      rw [e, hy, abs_mul, abs_mul, abs_of_pos (hp _)] at f1
      have := lt_of_mul_lt_mul_right f1 (hp _).le
      rw [← Int.cast_abs, ← Int.cast_abs] at this
      exact lt_trans (by exact_mod_cast this) hk
    obtain ⟨z, hz⟩ := exists_value _ _ hb ry.1 ry.2
    exact ⟨z, by rw [hz, e]⟩

/-- `%` on floats, without the special cases. -/
theorem mod_finite {f g : PyFloat} (hf : f.isFinite = true) (hg : g.isFinite = true) (h0 : g.val ≠ 0) :
    f.mod g = .ok (if PyFloat.fmodRat f.val g.val = 0 then PyFloat.zero g.signbit
        else if decide (g.val < 0) != decide (PyFloat.fmodRat f.val g.val < 0) then
          (PyFloat.fin (PyFloat.fmodRat f.val g.val)).add (.fin g.val)
        else .fin (PyFloat.fmodRat f.val g.val)) := by
  have hc : ¬ ((g.isFinite && decide (g.val = 0)) = true) := by simp [h0]
  unfold PyFloat.mod
  rw [if_neg hc]
  cases f <;> cases g <;> first | rfl | simp [PyFloat.isFinite] at hf hg

/-- The result of `%` is the remainder, rounded. -/
theorem mod_rounded {f g : PyFloat} (hf : f.isFinite = true) (hg : g.isFinite = true) (h0 : g.val ≠ 0)
    (df : IsDouble f.val) (dg : IsDouble g.val) (bf : |f.val| < (2 : ℚ) ^ (1024 : Int)) :
    ∃ r, f.mod g = .ok r ∧ IsRounded (remainder f.val g.val) r := by
  refine ⟨_, mod_finite hf hg h0, ?_⟩
  rw [remainder_fmod _ _ h0]
  obtain ⟨-, f2, -, -⟩ := fmodRat_facts f.val g.val h0
  have hd := fmodRat_double df dg h0
  set m := PyFloat.fmodRat f.val g.val with hm
  by_cases hz : m = 0
  · rw [if_pos hz, if_pos (Or.inl hz), hz]
    exact isRounded_zero _
  · rw [if_neg hz]
    by_cases hs : (g.val < 0 ↔ m < 0)
    · rw [if_pos (Or.inr hs), if_neg (by simp [hs])]
      refine ⟨Or.inr ⟨rfl, ?_, lt_of_le_of_lt f2 bf⟩, fun _ => ?_⟩
      · have := nearestDouble_round64 m
        rwa [show round64 m = m from roundTo_of_representable hd] at this
      · show decide (m < 0) = true ↔ _
        exact decide_eq_true_iff
    · rw [if_neg (by rintro (h | h); exacts [hz h, hs h]), if_pos]
      · exact add_rounded (f := .fin m) (g := .fin g.val) rfl rfl
      · simpa using hs

/-- If the operands have the same sign the result is exact. -/
theorem remainder_same_sign {a b : ℚ} (hb : b ≠ 0) (h : 0 ≤ a * b) : remainder a b = PyFloat.fmodRat a b := by
  rw [remainder_fmod a b hb, if_pos]
  obtain ⟨-, -, h3, -⟩ := fmodRat_facts a b hb
  by_cases hz : PyFloat.fmodRat a b = 0
  · exact Or.inl hz
  · right
    have ha : a ≠ 0 := by
      intro ha
      obtain ⟨-, h2, -, -⟩ := fmodRat_facts a b hb
      rw [ha, abs_zero] at h2
      rw [ha] at hz
      exact hz (abs_eq_zero.mp (le_antisymm h2 (abs_nonneg _)))
    rcases lt_or_gt_of_ne ha with h4 | h4
    · have hb' : b < 0 := by
        by_contra hc
        have : 0 < b := lt_of_le_of_ne (not_lt.mp hc) (Ne.symm hb)
        nlinarith
      have hm : PyFloat.fmodRat a b < 0 := by
        by_contra hc
        have : 0 < PyFloat.fmodRat a b := lt_of_le_of_ne (not_lt.mp hc) (Ne.symm hz)
        nlinarith
      exact ⟨fun _ => hm, fun _ => hb'⟩
    · have hb' : ¬ b < 0 := fun hc => by nlinarith
      have hm : ¬ PyFloat.fmodRat a b < 0 := fun hc => by nlinarith
      exact ⟨fun h => absurd h hb', fun h => absurd h hm⟩

/-! ## Floor division -/

/-- Rounding does not change the integer part of a quotient if a double separates it from the next integer. -/
theorem floor_round {q w : ℚ} (hw : IsDouble w) (h1 : q ≤ w) (h2 : w < (⌊q⌋ : ℚ) + 1) (h3 : |⌊q⌋| < 2 ^ 53) :
    ⌊round64 q⌋ = ⌊q⌋ := by
  have hint : ∀ n : Int, |n| ≤ 2 ^ 53 → round64 (n : ℚ) = n := by
    intro n hn
    have hd : IsDouble (n : ℚ) := by
      have := representable_of_le (p := 53) (by norm_num) (emin := -1074) (m := n) (u := 0) hn (by norm_num)
      rwa [zpow_zero, mul_one] at this
    exact roundTo_of_representable hd
  have hlow : (⌊q⌋ : ℚ) ≤ round64 q := by
    have := roundTo_mono (p := 53) (by norm_num) (-1074) (Int.floor_le q)
    have e := hint ⌊q⌋ h3.le
    unfold round64 at e
    rw [e] at this
    exact this
  have hup : round64 q ≤ w := by
    have := roundTo_mono (p := 53) (by norm_num) (-1074) h1
    rw [show roundTo 53 (-1074) w = w from roundTo_of_representable hw] at this
    exact this
  rw [Int.floor_eq_iff]
  exact ⟨hlow, lt_of_le_of_lt hup h2⟩

/-- A quotient of IBM numbers below `2 ^ 28` is separated by a double from the next integer. -/
theorem quotient_gap (x y : IBMFloat) (hy : y.value ≠ 0) (hq : |x.value / y.value| < 2 ^ 28) :
    ∃ w, IsDouble w ∧ x.value / y.value ≤ w ∧ w < (⌊x.value / y.value⌋ : ℚ) + 1 ∧ |⌊x.value / y.value⌋| < 2 ^ 53 := by
  have rx := IBMFloat.exp16_range x
  have ry := IBMFloat.exp16_range y
  have hx := IBMFloat.value_dyadic x
  have hxa := IBMFloat.value_dyadic_abs x
  have hyv := IBMFloat.value_dyadic y
  have hya := IBMFloat.value_dyadic_abs y
  set a : ℤ := (if x.signbit then -1 else 1) * (x.intMantissa : ℤ)
  set b : ℤ := (if y.signbit then -1 else 1) * (y.intMantissa : ℤ)
  set q := x.value / y.value with hqd
  have hb : b ≠ 0 := by
    rintro h
    rw [h] at hyv
    exact hy (by rw [hyv]; simp)
  have hfl := Int.floor_le q
  have hfu := Int.lt_floor_add_one q
  obtain ⟨hq1, hq2⟩ := abs_lt.mp hq
  have hN1 : -(2 ^ 28) ≤ ⌊q⌋ := by
    rw [Int.le_floor]; push_cast; exact hq1.le
  have hN2 : ⌊q⌋ < 2 ^ 28 := by
    rw [Int.floor_lt]; push_cast; exact hq2
  have hN : |⌊q⌋| < 2 ^ 53 := by
    rw [abs_lt]; constructor <;> omega
  -- the case in which the gap is at least 2 ^ -25
  have big : (2 : ℚ) ^ (-25 : ℤ) ≤ (⌊q⌋ : ℚ) + 1 - q →
      ∃ w, IsDouble w ∧ q ≤ w ∧ w < (⌊q⌋ : ℚ) + 1 ∧ |⌊q⌋| < 2 ^ 53 := by
    intro hgap
    refine ⟨(((⌊q⌋ + 1) * 2 ^ 25 - 1 : ℤ) : ℚ) * 2 ^ (-25 : ℤ), ?_, ?_, ?_, hN⟩
    · refine representable_of_le (by norm_num) ?_ (by norm_num)
      rw [abs_le]; constructor <;> omega
    · push_cast
      norm_num at hgap ⊢
      linarith
    · push_cast
      norm_num
      linarith
  -- an integer multiple of the gap
  have mult : ∀ (D : ℤ), D ≠ 0 → (∃ A : ℤ, q * D = A) → 1 ≤ ((⌊q⌋ : ℚ) + 1 - q) * |(D : ℚ)| := by
    rintro D hD ⟨A, hA⟩
    have hpos : 0 < ((⌊q⌋ : ℚ) + 1 - q) * |(D : ℚ)| :=
      mul_pos (by linarith) (abs_pos.mpr (by exact_mod_cast hD))
    rcases abs_cases (D : ℚ) with ⟨e, -⟩ | ⟨e, -⟩
    · have h1 : ((⌊q⌋ : ℚ) + 1 - q) * |(D : ℚ)| = (((⌊q⌋ + 1) * D - A : ℤ) : ℚ) := by
        rw [e]; push_cast; rw [← hA]; ring
      rw [h1] at hpos ⊢
      exact_mod_cast (show (0 : ℤ) < _ by exact_mod_cast hpos)
    · have h1 : ((⌊q⌋ : ℚ) + 1 - q) * |(D : ℚ)| = ((-((⌊q⌋ + 1) * D) + A : ℤ) : ℚ) := by
        rw [e]; push_cast; rw [← hA]; ring
      rw [h1] at hpos ⊢
      exact_mod_cast (show (0 : ℤ) < _ by exact_mod_cast hpos)
  have gapOf : ∀ D : ℤ, D ≠ 0 → (∃ A : ℤ, q * D = A) → |D| ≤ 2 ^ 25 → (2 : ℚ) ^ (-25 : ℤ) ≤ (⌊q⌋ : ℚ) + 1 - q := by
    intro D hD hA hle
    have h1 := mult D hD hA
    have h2 : |(D : ℚ)| ≤ 2 ^ 25 := by rw [← Int.cast_abs]; exact_mod_cast hle
    have h3 : (0 : ℚ) < (⌊q⌋ : ℚ) + 1 - q := by linarith
    have h4 : 1 ≤ ((⌊q⌋ : ℚ) + 1 - q) * 2 ^ 25 := h1.trans (mul_le_mul_of_nonneg_left h2 h3.le)
    norm_num at h4 ⊢
    linarith
  have hbq : (b : ℚ) ≠ 0 := by exact_mod_cast hb
  rcases le_total y.exp16 x.exp16 with h | h
  · -- the quotient is an integer over `b`
    apply big
    obtain ⟨j, hj⟩ : ∃ j : ℕ, 4 * x.exp16 - 24 = 4 * y.exp16 - 24 + j := ⟨(4 * (x.exp16 - y.exp16)).toNat, by omega⟩
    refine gapOf b hb ⟨a * 2 ^ j, ?_⟩ (by linarith)
    rw [hqd, hx, hyv, hj, zpow_add₀ (by norm_num), zpow_natCast]
    have := (two_zpow_pos (4 * y.exp16 - 24)).ne'
    push_cast
    field_simp
  · obtain ⟨j, hj⟩ : ∃ j : ℕ, 4 * y.exp16 - 24 = 4 * x.exp16 - 24 + j := ⟨(4 * (y.exp16 - x.exp16)).toNat, by omega⟩
    have hqa : q * ((b * 2 ^ j : ℤ) : ℚ) = a := by
      rw [hqd, hx, hyv, hj, zpow_add₀ (by norm_num), zpow_natCast]
      have := (two_zpow_pos (4 * x.exp16 - 24)).ne'
      push_cast
      field_simp
    have hD : b * 2 ^ j ≠ 0 := mul_ne_zero hb (by positivity)
    by_cases hle : |b * 2 ^ j| ≤ 2 ^ 25
    · exact big (gapOf _ hD ⟨a, hqa⟩ hle)
    · -- the quotient is less than one half
      have hDq : (2 : ℚ) ^ 25 < |((b * 2 ^ j : ℤ) : ℚ)| := by
        rw [← Int.cast_abs]; exact_mod_cast not_le.mp hle
      have haq : |(a : ℚ)| < 2 ^ 24 := by rw [← Int.cast_abs]; exact_mod_cast hxa
      have hprod : |q| * |((b * 2 ^ j : ℤ) : ℚ)| = |(a : ℚ)| := by rw [← abs_mul, hqa]
      have hqh : |q| < 1 / 2 := by
        by_contra hc
        have h1 : 1 / 2 * (2 : ℚ) ^ 25 ≤ |q| * |((b * 2 ^ j : ℤ) : ℚ)| :=
          mul_le_mul (not_lt.mp hc) hDq.le (by norm_num) (abs_nonneg _)
        rw [hprod] at h1
        norm_num at h1 haq
        linarith
      obtain ⟨k1, k2⟩ := abs_lt.mp hqh
      by_cases hs : q < 0
      · have hf : ⌊q⌋ = -1 := by rw [Int.floor_eq_iff]; push_cast; constructor <;> linarith
        -- the quotient is at most `-2 ^ -1000`
        have hup : q ≤ ((-1 : ℤ) : ℚ) * 2 ^ (-1000 : ℤ) := by
          have h1 := mult _ hD ⟨a, hqa⟩
          rw [hf] at h1
          have hj' : (j : ℤ) ≤ 508 := by omega
          have h2 : |((b * 2 ^ j : ℤ) : ℚ)| ≤ 2 ^ (1000 : ℤ) := by
            push_cast
            rw [abs_mul, abs_of_pos (a := (2 : ℚ) ^ j) (by positivity), ← zpow_natCast]
            have hb' : |(b : ℚ)| ≤ 2 ^ (24 : ℤ) := by
              rw [← Int.cast_abs]
              have : ((|b| : ℤ) : ℚ) ≤ ((2 ^ 24 : ℤ) : ℚ) := by exact_mod_cast hya.le
              refine this.trans (le_of_eq ?_)
              norm_cast
            calc |(b : ℚ)| * 2 ^ (j : ℤ) ≤ 2 ^ (24 : ℤ) * 2 ^ (508 : ℤ) :=
                  mul_le_mul hb' (two_zpow_le.mpr hj') (two_zpow_pos _).le (two_zpow_pos _).le
              _ = 2 ^ (532 : ℤ) := by rw [← zpow_add₀ (by norm_num)]; norm_num
              _ ≤ 2 ^ (1000 : ℤ) := two_zpow_le.mpr (by norm_num)
          have h3 : 1 ≤ -q * 2 ^ (1000 : ℤ) := by
            refine h1.trans ?_
            have : ((-1 : ℤ) : ℚ) + 1 - q = -q := by push_cast; ring
            rw [this]
            exact mul_le_mul_of_nonneg_left h2 (by linarith)
          rw [zpow_neg]
          have hp := two_zpow_pos 1000
          generalize (2 : ℚ) ^ (1000 : ℤ) = P at h3 hp ⊢
          rw [Int.cast_neg, Int.cast_one, neg_one_mul, le_neg, inv_le_iff_one_le_mul₀ hp]
          linarith
        refine ⟨_, representable_of_le (by norm_num) (by norm_num) (by norm_num), hup, ?_, hN⟩
        rw [hf]
        have hp := two_zpow_pos (-1000)
        push_cast
        linarith
      · have hf : ⌊q⌋ = 0 := by rw [Int.floor_eq_iff]; push_cast; constructor <;> linarith
        apply big
        rw [hf]
        norm_num
        linarith

end Segpy
