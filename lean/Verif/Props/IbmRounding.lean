import Verif.Lemmas.IbmArith2

/-!
# C78, C79: rounding, remainders and floor division of `IBMFloat`s

See `Verif/Spec/IbmArith.lean` for the specification.
-/

namespace Segpy.Props

open Spec

/-! ## C78 rounding -/

/-- `round(x)` is always exact: an `IBMFloat` whose value is the nearest integer, the even one of two.  It is not an int,
as `round` gives for a float. -/
theorem C78_round (x : IBMFloat) : ∃ (y : IBMFloat) (n : Int), x.round none = .ok y ∧ NearestInt x.value n ∧ y.value = n := by
  obtain ⟨y, hy⟩ := round_value x
  obtain ⟨z, hz, hzv⟩ := withoutUnderflow_value y
  refine ⟨z, roundHalfEven x.value, ?_, nearestInt_round _, by rw [hzv, hy]⟩
  unfold IBMFloat.round
  rw [(toFloat_finite x).2]
  dsimp only
  rw [ofInt_value hy, ← hy]
  exact hz

/-- `round(x, ndigits)` for any int `ndigits`: the nearest multiple of `10 ** -ndigits`, the even one of two, as a double
and then truncated to IBM precision.  It raises `OverflowError` if that is too large. -/
theorem C78_round_digits (x : IBMFloat) (ndigits : Int) :
    ∃ (n : Int) (r : ℚ), NearestInt (x.value * (10 : ℚ) ^ ndigits) n ∧ NearestDouble (n / (10 : ℚ) ^ ndigits) r ∧
      (|r| ≤ ibmMax → ∃ y, x.round (some ndigits) = .ok y ∧ IsTruncation r y.value) ∧
      (ibmMax < |r| → x.round (some ndigits) = .error .overflowError) := by
  obtain ⟨h1, h2⟩ := roundDigits_spec x ndigits
  refine ⟨_, _, nearestInt_round _, h2, ?_, ?_⟩
  · intro hle
    rcases withoutUnderflow_any (x.toFloat.roundDigits ndigits) with ⟨-, -, y, h3, h4⟩ | ⟨-, h3, -⟩ | ⟨h3, -⟩
    · exact ⟨y, h3, h4⟩
    · exact absurd hle (not_le.mpr h3)
    · rw [h1] at h3; cases h3
  · intro hlt
    rcases withoutUnderflow_any (x.toFloat.roundDigits ndigits) with ⟨-, h3, -⟩ | ⟨-, -, h3⟩ | ⟨h3, -⟩
    · exact absurd h3 (not_le.mpr hlt)
    · exact h3
    · rw [h1] at h3; cases h3

/-- `round(x, 0)` has the value of `round(x)`. -/
theorem C78_round_zero_digits (x : IBMFloat) : ∃ y z, x.round none = .ok y ∧ x.round (some 0) = .ok z ∧ z.value = y.value := by
  obtain ⟨w, hw⟩ := round_value x
  obtain ⟨y, hy, hyv⟩ := withoutUnderflow_value w
  obtain ⟨h1, h2⟩ := roundDigits_spec x 0
  rw [zpow_zero, mul_one, div_one, ← hw] at h2
  have hval : (x.toFloat.roundDigits 0).val = w.value := by
    have := h2.nearest _ (value_isDouble w)
    rw [sub_self, abs_zero] at this
    exact sub_eq_zero.mp (abs_eq_zero.mp (le_antisymm this (abs_nonneg _)))
  rcases withoutUnderflow_any (x.toFloat.roundDigits 0) with ⟨-, -, z, h3, h4⟩ | ⟨-, h3, -⟩ | ⟨h3, -⟩
  · refine ⟨y, z, ?_, h3, ?_⟩
    · unfold IBMFloat.round
      rw [(toFloat_finite x).2]
      dsimp only
      rw [ofInt_value hw, ← hw]
      exact hy
    · rw [hval] at h4
      rw [hyv]
      exact IBMFloat.isTruncation_unique h4 (IBMFloat.isTruncation_self w)
  · rw [hval] at h3
    exact absurd h3 (not_lt.mpr (IBMFloat.abs_value_le_max w))
  · rw [h1] at h3; cases h3

-- 2.5, 3.5 and -0.75; 0.15625 to two digits
example : (⟨0x41, 0x28, 0, 0⟩ : IBMFloat).round none = .ok ⟨0x41, 0x20, 0, 0⟩ ∧
    (⟨0x41, 0x38, 0, 0⟩ : IBMFloat).round none = .ok ⟨0x41, 0x40, 0, 0⟩ ∧
    (⟨0xC0, 0xC0, 0, 0⟩ : IBMFloat).round none = .ok ⟨0xC1, 0x10, 0, 0⟩ := by decide +kernel

example : (⟨0x40, 0x28, 0, 0⟩ : IBMFloat).value = 15625 / 100000 ∧
    ∃ y, (⟨0x40, 0x28, 0, 0⟩ : IBMFloat).round (some 2) = .ok y ∧ |y.value - 16 / 100| < 1 / 10 ^ 7 :=
  ⟨by decide +kernel, ⟨0x40, 0x28, 0xF5, 0xC2⟩, by decide +kernel, by decide +kernel⟩

-- the greatest IBM number to two significant digits; to one, it is too large
example : (⟨0x7F, 0xFF, 0xFF, 0xFF⟩ : IBMFloat).round (some (-75)) = .ok ⟨0x7F, 0xF7, 0x9D, 0xC0⟩ ∧
    (⟨0x7F, 0xFF, 0xFF, 0xFF⟩ : IBMFloat).round (some (-76)) = .error .overflowError := by decide +kernel

/-! ## C79 remainders and floor division -/

/-- `x % v` and `v % x` are the remainder of floored division rounded to a double, which has the sign of the divisor;
for a zero divisor they raise `ZeroDivisionError`. -/
theorem C79_mod (x : IBMFloat) (v : PyNum) (q : ℚ) (h : OperandValue v q) (hd : IsDouble q)
    (hb : |q| < (2 : ℚ) ^ (1024 : Int)) :
    (q ≠ 0 → GivesFloat (remainder x.value q) (x.modNum v)) ∧ (q = 0 → x.modNum v = .error .zeroDivisionError) ∧
    (x.value ≠ 0 → GivesFloat (remainder q x.value) (x.rmodNum v)) ∧
    (x.value = 0 → x.rmodNum v = .error .zeroDivisionError) := by
  obtain ⟨f, hf, hfin, hval⟩ := operand_float h
  obtain ⟨t1, t2⟩ := toFloat_finite x
  have hbx : |x.toFloat.val| < (2 : ℚ) ^ (1024 : Int) := by
    rw [t2]; exact lt_of_le_of_lt (IBMFloat.abs_value_le_max x) IBMFloat.ibmMax_lt
  have hdx : IsDouble x.toFloat.val := by rw [t2]; exact value_isDouble x
  have zero : ∀ a b : PyFloat, b.isFinite = true → b.val = 0 → a.mod b = .error .zeroDivisionError := by
    intro a b h1 h2
    unfold PyFloat.mod
    rw [if_pos (by simp [h1, h2])]
  unfold IBMFloat.modNum IBMFloat.rmodNum
  rw [hf]
  refine ⟨?_, ?_, ?_, ?_⟩
  · intro h0
    obtain ⟨r, h1, h2⟩ := mod_rounded t1 hfin (by rwa [hval]) hdx (by rwa [hval]) hbx
    rw [t2, hval] at h2
    refine ⟨r, ?_, h2⟩
    show (do let p ← x.toFloat.mod f; IBMFloat.wrap v p) = _
    rw [h1]
    exact wrap_operand h r
  · intro h0
    show (do let p ← x.toFloat.mod f; IBMFloat.wrap v p) = _
    rw [zero _ f hfin (by rw [hval, h0])]
    rfl
  · intro h0
    obtain ⟨r, h1, h2⟩ := mod_rounded hfin t1 (by rwa [t2]) (by rwa [hval]) hdx (by rwa [hval])
    rw [t2, hval] at h2
    refine ⟨r, ?_, h2⟩
    show (do return PyNum.float (← f.mod x.toFloat)) = _
    rw [h1]
    rfl
  · intro h0
    show (do return PyNum.float (← f.mod x.toFloat)) = _
    rw [zero _ _ t1 (by rw [t2, h0])]
    rfl

/-- `x % y` for two `IBMFloat`s: the remainder rounded to a double, and then truncated to IBM precision. -/
theorem C79_mod_ibm (x y : IBMFloat) :
    (y.value ≠ 0 → GivesIbm (remainder x.value y.value) (x.modNum (.ibm y))) ∧
    (y.value = 0 → x.modNum (.ibm y) = .error .zeroDivisionError) := by
  obtain ⟨t1, t2⟩ := toFloat_finite x
  obtain ⟨u1, u2⟩ := toFloat_finite y
  have hbx : |x.toFloat.val| < (2 : ℚ) ^ (1024 : Int) := by
    rw [t2]; exact lt_of_le_of_lt (IBMFloat.abs_value_le_max x) IBMFloat.ibmMax_lt
  constructor
  · intro h0
    obtain ⟨r, h1, h2⟩ := mod_rounded t1 u1 (by rwa [u2]) (by rw [t2]; exact value_isDouble x)
      (by rw [u2]; exact value_isDouble y) hbx
    rw [t2, u2] at h2
    have e : x.modNum (.ibm y) = (do return PyNum.ibm (← IBMFloat.fromFloatWithoutUnderflow r)) := by
      unfold IBMFloat.modNum
      show (do let p ← x.toFloat.mod y.toFloat; IBMFloat.wrap (.ibm y) p) = _
      rw [h1]
      rfl
    rw [e]
    exact givesIbm_of h2
  · intro h0
    unfold IBMFloat.modNum
    show (do let p ← x.toFloat.mod y.toFloat; IBMFloat.wrap (.ibm y) p) = _
    unfold PyFloat.mod
    rw [if_pos (by simp [u1, u2, h0])]
    rfl

/-- The remainder is exact if the operands have the same sign. -/
theorem C79_mod_exact (x y : IBMFloat) (h0 : y.value ≠ 0) (h : 0 ≤ x.value * y.value) :
    ∃ z, x.modNum (.ibm y) = .ok (.ibm z) ∧ z.value = remainder x.value y.value := by
  obtain ⟨w, hw⟩ := fmodRat_ibm x y h0
  rw [← remainder_same_sign h0 h] at hw
  obtain ⟨g, hg, hr⟩ := (C79_mod_ibm x y).1 h0
  rw [← hw] at hg
  obtain ⟨g1, g2⟩ := isRounded_exact hg (value_isDouble w)
    (lt_of_le_of_lt (IBMFloat.abs_value_le_max w) IBMFloat.ibmMax_lt)
  rw [g1, g2] at hr
  rcases hr with ⟨-, -, z, h3, h4⟩ | ⟨-, h3, -⟩ | ⟨h3, -⟩
  · exact ⟨z, h3, by rw [← hw]; exact IBMFloat.isTruncation_unique h4 (IBMFloat.isTruncation_self w)⟩
  · exact absurd h3 (not_lt.mpr (IBMFloat.abs_value_le_max w))
  · cases h3

/-- A rounded remainder lies between zero and the divisor; it may equal the divisor. -/
theorem C79_mod_range (x : IBMFloat) (v : PyNum) (q : ℚ) (h : OperandValue v q) (hd : IsDouble q)
    (hb : |q| < (2 : ℚ) ^ (1024 : Int)) (h0 : q ≠ 0) :
    ∃ g, x.modNum v = .ok (.float g) ∧ g.isFinite = true ∧ (0 < q → 0 ≤ g.val ∧ g.val ≤ q) ∧
      (q < 0 → q ≤ g.val ∧ g.val ≤ 0) := by
  obtain ⟨g, hg, hr⟩ := (C79_mod x v q h hd hb).1 h0
  have hz : IsDouble 0 := representable_zero _ _
  -- the remainder itself is in the range
  have hm : (0 < q → 0 ≤ remainder x.value q ∧ remainder x.value q ≤ q) ∧
      (q < 0 → q ≤ remainder x.value q ∧ remainder x.value q ≤ 0) := by
    have e : remainder x.value q = q * (x.value / q - ⌊x.value / q⌋) := by
      unfold remainder; field_simp
    have h1 := Int.floor_le (x.value / q)
    have h2 := Int.lt_floor_add_one (x.value / q)
    rw [e]
    constructor
    · intro hq; constructor <;> nlinarith
    · intro hq; constructor <;> nlinarith
  have key : ∀ r, NearestDouble (remainder x.value q) r →
      (0 < q → 0 ≤ r ∧ r ≤ q) ∧ (q < 0 → q ≤ r ∧ r ≤ 0) := by
    intro r hr
    have low : ∀ w, IsDouble w → w ≤ remainder x.value q → w ≤ r := by
      intro w hw hle
      by_contra hc
      have := hr.nearest w hw
      rw [abs_of_nonpos (by linarith : r - remainder x.value q ≤ 0),
        abs_of_nonpos (by linarith : w - remainder x.value q ≤ 0)] at this
      linarith
    have up : ∀ w, IsDouble w → remainder x.value q ≤ w → r ≤ w := by
      intro w hw hle
      by_contra hc
      have := hr.nearest w hw
      rw [abs_of_nonneg (by linarith : 0 ≤ r - remainder x.value q),
        abs_of_nonneg (by linarith : 0 ≤ w - remainder x.value q)] at this
      linarith
    exact ⟨fun hq => ⟨low 0 hz (hm.1 hq).1, up q hd (hm.1 hq).2⟩, fun hq => ⟨low q hd (hm.2 hq).1, up 0 hz (hm.2 hq).2⟩⟩
  rcases hr.1 with ⟨neg, -, r, k1, k2⟩ | ⟨k1, k2, -⟩
  · exfalso
    obtain ⟨a, b⟩ := key r k1
    have : |r| ≤ |q| := by
      rcases lt_or_gt_of_ne h0 with hq | hq
      · rw [abs_of_nonpos (b hq).2, abs_of_neg hq]; linarith [(b hq).1]
      · rw [abs_of_nonneg (a hq).1, abs_of_pos hq]; exact (a hq).2
    exact absurd (lt_of_le_of_lt (k2.trans this) hb) (lt_irrefl _)
  · exact ⟨g, hg, k1, (key _ k2).1, (key _ k2).2⟩

/-- The remainder by the divisor can be the divisor itself, which is not a remainder. -/
theorem C79_mod_equals_divisor : ∃ x y z : IBMFloat, 0 < y.value ∧ x.modNum (.ibm y) = .ok (.ibm z) ∧ z.value = y.value :=
  ⟨⟨0xA0, 0x10, 0, 0⟩, ⟨0x41, 0x10, 0, 0⟩, ⟨0x41, 0x10, 0, 0⟩, by decide +kernel, by decide +kernel, by decide +kernel⟩

/-- `x // y` and `y // x` are the integer part of the exact quotient if that is less than `2 ** 28`, for a divisor `y`
that is an `IBMFloat`, or a number of IBM precision such as an int of at most 24 bits. -/
theorem C79_floordiv_partial (x y : IBMFloat) (v : PyNum) (hv : v = .ibm y ∨ OperandValue v y.value) :
    (y.value ≠ 0 → |x.value / y.value| < 2 ^ 28 → x.floordivNum v = .ok ⌊x.value / y.value⌋) ∧
    (x.value ≠ 0 → |y.value / x.value| < 2 ^ 28 → x.rfloordivNum v = .ok ⌊y.value / x.value⌋) ∧
    (y.value = 0 → x.floordivNum v = .error .zeroDivisionError) ∧
    (x.value = 0 → x.rfloordivNum v = .error .zeroDivisionError) := by
  obtain ⟨f, hf, hfin, hval⟩ : ∃ f, floatOfNum v = .ok f ∧ f.isFinite = true ∧ f.val = y.value := by
    rcases hv with rfl | hv
    · exact ⟨y.toFloat, rfl, toFloat_finite y⟩
    · exact operand_float hv
  obtain ⟨t1, t2⟩ := toFloat_finite x
  have main : ∀ (a b : IBMFloat) (f g : PyFloat), f.isFinite = true → f.val = a.value → g.isFinite = true → g.val = b.value →
      b.value ≠ 0 → |a.value / b.value| < 2 ^ 28 → (do (← f.div g).floor : Res Int) = .ok ⌊a.value / b.value⌋ := by
    intro a b f g hf1 hf2 hg1 hg2 h0 hq
    obtain ⟨r, h1, h2⟩ := div_rounded hf1 hg1 (by rwa [hg2])
    rw [hf2, hg2] at h2
    obtain ⟨w, w1, w2, w3, w4⟩ := quotient_gap a b h0 hq
    have hfl := Int.floor_le (a.value / b.value)
    have key : ∀ s, NearestDouble (a.value / b.value) s → ⌊s⌋ = ⌊a.value / b.value⌋ := by
      intro s hs
      have hi : IsDouble (⌊a.value / b.value⌋ : ℚ) := by
        have := representable_of_le (p := 53) (by norm_num) (emin := -1074) (m := ⌊a.value / b.value⌋) (u := 0) w4.le
          (by norm_num)
        rwa [zpow_zero, mul_one] at this
      rw [Int.floor_eq_iff]
      constructor
      · by_contra hc
        have := hs.nearest _ hi
        rw [abs_of_nonpos (by linarith : s - a.value / b.value ≤ 0),
          abs_of_nonpos (by linarith : (⌊a.value / b.value⌋ : ℚ) - a.value / b.value ≤ 0)] at this
        linarith
      · by_contra hc
        have := hs.nearest w w1
        rw [abs_of_nonneg (by linarith : 0 ≤ s - a.value / b.value),
          abs_of_nonneg (by linarith : 0 ≤ w - a.value / b.value)] at this
        linarith
    rw [h1]
    show r.floor = _
    rcases h2.1 with ⟨neg, -, s, k1, k2⟩ | ⟨k1, k2, -⟩
    · exfalso
      have h3 := key s k1
      have h4 : |s| < 2 ^ 54 := by
        have h5 := Int.floor_le s
        have h6 := Int.lt_floor_add_one s
        rw [h3] at h5 h6
        obtain ⟨l, u⟩ := abs_lt.mp w4
        have l' : -(2 ^ 53 : ℚ) < (⌊a.value / b.value⌋ : ℚ) := by exact_mod_cast l
        have u' : (⌊a.value / b.value⌋ : ℚ) < 2 ^ 53 := by exact_mod_cast u
        rw [abs_lt]
        constructor <;> norm_num at * <;> linarith
      have h5 : (2 : ℚ) ^ 54 ≤ (2 : ℚ) ^ (1024 : ℤ) := by
        rw [← zpow_natCast]; exact two_zpow_le.mpr (by norm_num)
      exact absurd (lt_of_lt_of_le h4 h5) (not_lt.mpr k2)
    · have h3 := key r.val k2
      cases r with
      | fin p => show Except.ok ⌊_⌋ = _; rw [h3]
      | negZero => show Except.ok ⌊_⌋ = _; rw [h3]
      | inf s => cases k1
      | nan => cases k1
  unfold IBMFloat.floordivNum IBMFloat.rfloordivNum
  rw [hf]
  refine ⟨?_, ?_, ?_, ?_⟩
  · intro h0 hq
    exact main x y _ f t1 t2 hfin hval h0 hq
  · intro h0 hq
    exact main y x f _ hfin hval t1 t2 h0 hq
  · intro h0
    show (do (← x.toFloat.div f).floor : Res Int) = _
    rw [div_by_zero hfin (by rw [hval, h0])]
    rfl
  · intro h0
    show (do (← f.div x.toFloat).floor : Res Int) = _
    rw [div_by_zero t1 (by rw [t2, h0])]
    rfl

/-- Floor division and remainder belong together, for such operands of the same sign. -/
theorem C79_divmod_partial (x y : IBMFloat) (h0 : y.value ≠ 0) (h : 0 ≤ x.value * y.value)
    (hq : |x.value / y.value| < 2 ^ 28) :
    ∃ n z, x.floordivNum (.ibm y) = .ok n ∧ x.modNum (.ibm y) = .ok (.ibm z) ∧ n * y.value + z.value = x.value := by
  obtain ⟨z, hz, hzv⟩ := C79_mod_exact x y h0 h
  refine ⟨_, z, (C79_floordiv_partial x y (.ibm y) (Or.inl rfl)).1 h0 hq, hz, ?_⟩
  rw [hzv, remainder]
  ring

/-- For larger quotients the result is not the integer part, and not that to which the remainder belongs. -/
theorem C79_floordiv_fails : ∃ (x y z : IBMFloat) (n : Int), y.value ≠ 0 ∧ x.floordivNum (.ibm y) = .ok n ∧
    n ≠ ⌊x.value / y.value⌋ ∧ x.modNum (.ibm y) = .ok (.ibm z) ∧ n * y.value + z.value ≠ x.value :=
  ⟨⟨0x55, 0x10, 0, 0⟩, ⟨0x41, 0x30, 0, 0⟩, ⟨0x41, 0x10, 0, 0⟩, 402975273204876369199104, by decide +kernel,
    by decide +kernel, by decide +kernel, by decide +kernel, by decide +kernel⟩

-- 7.5 % 2, -7.5 % 2 and -7.5 // 2
example : (⟨0x41, 0x78, 0, 0⟩ : IBMFloat).modNum (.int 2) = .ok (.float (.fin (3 / 2))) ∧
    (⟨0xC1, 0x78, 0, 0⟩ : IBMFloat).modNum (.int 2) = .ok (.float (.fin (1 / 2))) ∧
    (⟨0xC1, 0x78, 0, 0⟩ : IBMFloat).floordivNum (.int 2) = .ok (-4) ∧ OperandValue (.int 2) 2 ∧
    (⟨0x41, 0x20, 0, 0⟩ : IBMFloat).value = 2 :=
  ⟨by decide +kernel, by decide +kernel, by decide +kernel, ⟨by norm_num, by norm_num⟩, by decide +kernel⟩

example : |(⟨0x45, 0xFF, 0xFF, 0xFF⟩ : IBMFloat).value / (⟨0x40, 0x30, 0, 1⟩ : IBMFloat).value| < 2 ^ 28 ∧
    0 ≤ (⟨0x45, 0xFF, 0xFF, 0xFF⟩ : IBMFloat).value * (⟨0x40, 0x30, 0, 1⟩ : IBMFloat).value := by decide +kernel

end Segpy.Props
