import Verif.Lemmas.Float
import Verif.Model.IbmFloat
import Verif.Spec.IbmFloat
import Mathlib.Algebra.Order.Floor.Semifield

/-! # Lemmas about the IBM float model -/

namespace Segpy

namespace IBMFloat

open Spec

/-- Assemble an IBM float from sign, biased exponent and mantissa. -/
def mk' (s : Bool) (B m : Nat) : IBMFloat :=
  ⟨UInt8.ofNat (s.toNat * 128 + B), UInt8.ofNat (m / 65536), UInt8.ofNat (m / 256), UInt8.ofNat m⟩

theorem u8_lt (a : UInt8) : a.toNat < 256 := a.toNat_lt

theorem intMantissa_eq (x : IBMFloat) : x.intMantissa = ibmMantissa x.b x.c x.d := by
  have hb := u8_lt x.b
  have hc := u8_lt x.c
  have hd := u8_lt x.d
  unfold intMantissa ibmMantissa
  rw [Nat.or_assoc, ← Nat.shiftLeft_add_eq_or_of_lt (i := 8) (b := x.d.toNat) hd,
    ← Nat.shiftLeft_add_eq_or_of_lt (i := 16) (by rw [Nat.shiftLeft_eq]; omega)]
  simp only [Nat.shiftLeft_eq]
  omega

theorem mantissa_lt (b c d : UInt8) : ibmMantissa b c d < 2 ^ 24 := by
  have hb := u8_lt b
  have hc := u8_lt c
  have hd := u8_lt d
  unfold ibmMantissa
  omega

theorem and_7f (n : Nat) : n &&& 0x7f = n % 128 := Nat.and_two_pow_sub_one_eq_mod n 7

theorem and_ff (n : Nat) : n &&& 0xff = n % 256 := Nat.and_two_pow_sub_one_eq_mod n 8

theorem and_80_ne (n : Nat) (h : n < 256) : n &&& 0x80 ≠ 0 ↔ 128 ≤ n := by
  revert h
  have : ∀ k : Fin 256, (k.val &&& 0x80 ≠ 0 ↔ 128 ≤ k.val) := by decide +kernel
  intro h; exact this ⟨n, h⟩

theorem signbit_eq (x : IBMFloat) : x.signbit = decide (128 ≤ x.a.toNat) := by
  unfold signbit
  simp only [and_80_ne _ (u8_lt x.a)]

theorem exp16_eq (x : IBMFloat) : x.exp16 = ((x.a.toNat % 128 : Nat) : Int) - 64 := by
  unfold exp16 EXPONENT_BIAS
  rw [and_7f]

theorem exp16_range (x : IBMFloat) : -64 ≤ x.exp16 ∧ x.exp16 ≤ 63 := by
  rw [exp16_eq]; omega

/-- Sign factor. -/
def sgn (s : Bool) : ℚ := if s then -1 else 1

theorem value_eq (x : IBMFloat) :
    x.value = sgn x.signbit * ((x.intMantissa : ℚ) / 2 ^ 24) * (16 : ℚ) ^ x.exp16 := by
  unfold value ibmValue
  rw [intMantissa_eq, exp16_eq, signbit_eq]
  congr 2
  unfold sgn
  by_cases h : x.a.toNat < 128
  · rw [if_pos h, if_neg (by simpa using h)]
  · rw [if_neg h, if_pos (by simpa using h)]

theorem mk'_mantissa (s : Bool) (B m : Nat) (hm : m < 2 ^ 24) : (mk' s B m).intMantissa = m := by
  rw [intMantissa_eq]
  unfold ibmMantissa mk'
  simp only [UInt8.toNat_ofNat']
  omega

theorem mk'_signbit (s : Bool) (B m : Nat) (hB : B < 128) : (mk' s B m).signbit = s := by
  rw [signbit_eq]
  unfold mk'
  simp only [UInt8.toNat_ofNat']
  cases s <;> simp <;> omega

theorem mk'_exp16 (s : Bool) (B m : Nat) (hB : B < 128) : (mk' s B m).exp16 = (B : Int) - 64 := by
  rw [exp16_eq]
  unfold mk'
  simp only [UInt8.toNat_ofNat']
  cases s <;> simp <;> omega

theorem eq_mk' (x : IBMFloat) : x = mk' x.signbit (x.exp16 + 64).toNat x.intMantissa := by
  have ha := u8_lt x.a
  have hb := u8_lt x.b
  have hc := u8_lt x.c
  have hd := u8_lt x.d
  rw [exp16_eq, signbit_eq, intMantissa_eq]
  unfold mk' ibmMantissa
  cases x with
  | mk a b c d =>
  simp only [IBMFloat.mk.injEq] at *
  refine ⟨?_, ?_, ?_, ?_⟩ <;> apply UInt8.toNat.inj <;> rw [UInt8.toNat_ofNat'] 
  · by_cases h : 128 ≤ a.toNat <;> simp [h] <;> omega
  all_goals omega

theorem or_sign (s : Bool) (B : Nat) (hB : B < 128) :
    ((if s then 0x80 else 0x00 : Nat) ||| B) = s.toNat * 128 + B := by
  cases s
  · simp
  · have : ∀ k : Fin 128, (0x80 ||| k.val) = 128 + k.val := by decide +kernel
    simpa using this ⟨B, hB⟩

theorem ofNats_eq (s : Bool) (B m : Nat) (hB : B < 128) :
    ofNats ((if s then 0x80 else 0x00 : Nat) ||| B) ((m >>> 16) &&& 0xff) ((m >>> 8) &&& 0xff)
      (m &&& 0xff) = .ok (mk' s B m) := by
  unfold ofNats
  rw [or_sign s B hB]
  simp only [and_ff, Nat.shiftRight_eq_div_pow]
  rw [if_pos ⟨by cases s <;> simp <;> omega, by omega, by omega, by omega⟩]
  unfold mk'
  congr 2 <;> apply UInt8.toNat.inj <;> simp only [UInt8.toNat_ofNat'] <;> omega

theorem sixteen_zpow (k : ℤ) : (16 : ℚ) ^ k = (2 : ℚ) ^ (4 * k) := by
  rw [zpow_mul]; norm_num

theorem zpow_mul_pow (k : ℤ) (n : ℕ) : (2 : ℚ) ^ k * 2 ^ n = 2 ^ (k + (n : ℤ)) := by
  rw [zpow_add₀ (by norm_num), zpow_natCast]

theorem sixteen_zpow_pos (k : ℤ) : (0 : ℚ) < 16 ^ k := by positivity

theorem sixteen_zpow_le {a b : ℤ} : (16 : ℚ) ^ a ≤ 16 ^ b ↔ a ≤ b :=
  zpow_le_zpow_iff_right₀ (by norm_num)

theorem sixteen_zpow_lt {a b : ℤ} : (16 : ℚ) ^ a < 16 ^ b ↔ a < b :=
  zpow_lt_zpow_iff_right₀ (by norm_num)

/-- Base-16 exponent: the `k` with `16^(k-1) ≤ |q| < 16^k`. -/
def hexExp (q : ℚ) : ℤ := (frexpExp q + 3) / 4

theorem hexExp_spec {q : ℚ} (hq : q ≠ 0) :
    (16 : ℚ) ^ (hexExp q - 1) ≤ |q| ∧ |q| < (16 : ℚ) ^ (hexExp q) := by
  obtain ⟨h1, h2⟩ := frexpExp_spec hq
  unfold hexExp
  constructor
  · refine le_trans ?_ h1
    rw [sixteen_zpow, two_zpow_le]; omega
  · refine lt_of_lt_of_le h2 ?_
    rw [sixteen_zpow, two_zpow_le]; omega

theorem hexExp_unique {q : ℚ} {k : ℤ} (h1 : (16 : ℚ) ^ (k - 1) ≤ |q|) (h2 : |q| < (16 : ℚ) ^ k) :
    hexExp q = k := by
  have hq : q ≠ 0 := by
    rintro rfl
    rw [abs_zero] at h1
    exact absurd h1 (not_le.mpr (sixteen_zpow_pos _))
  obtain ⟨g1, g2⟩ := hexExp_spec hq
  have a1 := sixteen_zpow_lt.mp (lt_of_le_of_lt g1 h2)
  have a2 := sixteen_zpow_lt.mp (lt_of_le_of_lt h1 g2)
  omega

/-- The mantissa stored for magnitude `|q|` at base-16 exponent `K`. -/
def hexMant (q : ℚ) (K : ℤ) : ℕ := ⌊|q| * 2 ^ 24 / (16 : ℚ) ^ K⌋₊

theorem trunc_natAbs (y : ℚ) : (if y < 0 then ⌈y⌉ else ⌊y⌋).natAbs = ⌊|y|⌋₊ := by
  split
  · rename_i h
    rw [abs_of_neg h, ← Int.natAbs_neg, ← Int.floor_neg]
    have : (0 : ℤ) ≤ ⌊-y⌋ := Int.floor_nonneg.mpr (by linarith)
    rw [← Int.floor_toNat]
    omega
  · rename_i h
    push Not at h
    rw [abs_of_nonneg h]
    have : (0 : ℤ) ≤ ⌊y⌋ := Int.floor_nonneg.mpr h
    rw [← Int.floor_toNat]
    omega

theorem floor_shiftRight (y : ℚ) (n : ℕ) : ⌊y⌋₊ >>> n = ⌊y / 2 ^ n⌋₊ := by
  rw [Nat.shiftRight_eq_div_pow]
  have := Nat.floor_div_natCast y (2 ^ n)
  push_cast at this
  rw [this]

/-- Closed form of the conversion of a finite non-zero number. -/
theorem ieee2ibmCore_eq {q : ℚ} (hK : hexExp q ≤ 63) :
    ieee2ibmCore q =
      if hexExp q < -64 ∧ hexMant q (-64) = 0 then .error .floatingPointError
      else .ok (mk' (decide (q < 0)) (max (hexExp q) (-64) + 64).toNat
        (hexMant q (max (hexExp q) (-64)))) := by
  unfold ieee2ibmCore
  simp only [trunc_natAbs]
  set e := frexpExp q with he
  have hk : hexExp q = (e + 3) / 4 := rfl
  have hfm : e.fmod 4 = e % 4 := Int.fmod_eq_emod_of_nonneg _ (by norm_num)
  have hsign : (if q < 0 then 0x80 else 0x00 : Nat) = (if decide (q < 0) then 0x80 else 0x00 : Nat) := by
    simp
  have hbiased : ((if e.fmod 4 ≠ 0 then e + (4 - e.fmod 4) else e).fdiv 4 + EXPONENT_BIAS)
      = hexExp q + 64 := by
    rw [hfm, Int.fdiv_eq_ediv_of_nonneg _ (by norm_num), hk, EXPONENT_BIAS]
    split <;> omega
  have hmant : (if e.fmod 4 ≠ 0 then ⌊|q / 2 ^ e * (L24 : ℚ)|⌋₊ >>> (4 - e.fmod 4).toNat
      else ⌊|q / 2 ^ e * (L24 : ℚ)|⌋₊) = hexMant q (hexExp q) := by
    have habs : |q / 2 ^ e * (L24 : ℚ)| = |q| * 2 ^ 24 / 2 ^ e := by
      rw [abs_mul, abs_div, abs_of_pos (two_zpow_pos e)]
      unfold L24
      push_cast
      norm_num
      ring
    rw [habs]
    unfold hexMant
    split
    · rename_i h
      rw [floor_shiftRight]
      congr 1
      rw [div_div, sixteen_zpow, zpow_mul_pow]
      congr 2
      rw [hfm] at *
      omega
    · rename_i h
      congr 2
      rw [sixteen_zpow]
      congr 1
      rw [hfm] at h
      omega
  rw [hbiased, hmant, hsign]
  by_cases hneg : hexExp q < -64
  · have h1 : hexExp q + 64 < 0 := by omega
    have hshift : hexMant q (hexExp q) >>> (4 * (0 - (hexExp q + 64))).toNat = hexMant q (-64) := by
      unfold hexMant
      rw [floor_shiftRight]
      congr 1
      rw [div_div, sixteen_zpow, sixteen_zpow, zpow_mul_pow]
      congr 2
      omega
    rw [if_pos h1, hshift]
    have hmax : max (hexExp q) (-64) = -64 := by omega
    rw [hmax]
    by_cases hz : hexMant q (-64) = 0
    · rw [if_pos hz, if_pos ⟨hneg, hz⟩]
    · have hnot : ¬ (hexExp q < -64 ∧ hexMant q (-64) = 0) := fun h => hz h.2
      rw [if_neg hz, if_neg hnot]
      have : hexExp q + 64 + (0 - (hexExp q + 64)) = 0 := by omega
      rw [this]
      exact ofNats_eq _ 0 _ (by norm_num)
  · have h1 : ¬ hexExp q + 64 < 0 := by omega
    have hnot : ¬ (hexExp q < -64 ∧ hexMant q (-64) = 0) := fun h => hneg h.1
    rw [if_neg h1, if_neg hnot]
    have hmax : max (hexExp q) (-64) = hexExp q := by omega
    rw [hmax]
    exact ofNats_eq _ _ _ (by omega)

theorem maxIbm_eq : MAX_IBM_FLOAT = ibmMax := by
  have : MAX_IBM_FLOAT = (2 ^ 24 - 1) / 2 ^ 24 * 16 ^ 63 := by decide +kernel
  exact this

theorem hexExp_le_of_le_max {q : ℚ} (hq : q ≠ 0) (h : |q| ≤ ibmMax) : hexExp q ≤ 63 := by
  have := (hexExp_spec hq).1
  have hlt : |q| < (16 : ℚ) ^ (63 : ℤ) := by
    refine lt_of_le_of_lt h ?_
    unfold ibmMax
    norm_num
  have := sixteen_zpow_lt.mp (lt_of_le_of_lt this hlt)
  omega

theorem hexMant_lt {q : ℚ} (hq : q ≠ 0) {K : ℤ} (hK : hexExp q ≤ K) : hexMant q K < 2 ^ 24 := by
  unfold hexMant
  have h2 := (hexExp_spec hq).2
  have h3 : (16 : ℚ) ^ hexExp q ≤ 16 ^ K := sixteen_zpow_le.mpr hK
  rw [Nat.floor_lt (by positivity), div_lt_iff₀ (sixteen_zpow_pos K)]
  push_cast
  have : |q| < 16 ^ K := lt_of_lt_of_le h2 h3
  linarith

theorem intMantissa_zero_iff (x : IBMFloat) : x.intMantissa = 0 ↔ (x.b = 0 ∧ x.c = 0 ∧ x.d = 0) := by
  rw [intMantissa_eq]
  unfold ibmMantissa
  constructor
  · intro h
    refine ⟨?_, ?_, ?_⟩ <;> apply UInt8.toNat.inj <;> simp <;> omega
  · rintro ⟨h1, h2, h3⟩
    simp [h1, h2, h3]

theorem value_zero_iff (x : IBMFloat) : x.value = 0 ↔ x.intMantissa = 0 := by
  rw [value_eq]
  have h1 : sgn x.signbit ≠ 0 := by unfold sgn; split <;> norm_num
  have h2 := (sixteen_zpow_pos x.exp16).ne'
  simp [h1, h2]

theorem intMantissa_lt (x : IBMFloat) : x.intMantissa < 2 ^ 24 := by
  rw [intMantissa_eq]; exact mantissa_lt _ _ _

theorem abs_value (x : IBMFloat) :
    |x.value| = (x.intMantissa : ℚ) / 2 ^ 24 * (16 : ℚ) ^ x.exp16 := by
  rw [value_eq, abs_mul, abs_mul, abs_of_pos (sixteen_zpow_pos _)]
  have h1 : |sgn x.signbit| = 1 := by unfold sgn; split <;> norm_num
  rw [h1, one_mul, abs_of_nonneg (by positivity)]

theorem value_neg_iff (x : IBMFloat) (h : x.intMantissa ≠ 0) : x.value < 0 ↔ x.signbit = true := by
  rw [value_eq]
  have hm : (0 : ℚ) < (x.intMantissa : ℚ) / 2 ^ 24 := by
    have : 0 < x.intMantissa := Nat.pos_of_ne_zero h
    positivity
  have hp := mul_pos hm (sixteen_zpow_pos x.exp16)
  unfold sgn
  cases x.signbit
  · simp only [Bool.false_eq_true, if_false, one_mul, iff_false, not_lt]; exact hp.le
  · simp only [if_true, iff_true, neg_one_mul]
    nlinarith

theorem abs_value_le_max (x : IBMFloat) : |x.value| ≤ ibmMax := by
  rw [abs_value]
  unfold ibmMax
  have h1 : (x.intMantissa : ℚ) ≤ 2 ^ 24 - 1 := by
    have : x.intMantissa + 1 ≤ 2 ^ 24 := intMantissa_lt x
    have : ((x.intMantissa + 1 : ℕ) : ℚ) ≤ 2 ^ 24 := by exact_mod_cast this
    push_cast at this; linarith
  have h2 : (16 : ℚ) ^ x.exp16 ≤ 16 ^ (63 : ℤ) := sixteen_zpow_le.mpr (exp16_range x).2
  have h3 : (16 : ℚ) ^ (63 : ℤ) = 16 ^ 63 := by norm_cast
  rw [h3] at h2
  gcongr

theorem ten24 : (2 : ℚ) ^ 24 = (2 : ℚ) ^ (24 : ℤ) := by norm_cast

/-- The value as an integer times a power of two. -/
theorem value_dyadic (x : IBMFloat) :
    x.value = (((if x.signbit then -1 else 1) * (x.intMantissa : ℤ) : ℤ) : ℚ) * (2 : ℚ) ^ (4 * x.exp16 - 24) := by
  rw [value_eq, zpow_sub₀ (by norm_num), ← sixteen_zpow]
  unfold sgn
  push_cast
  rw [ten24]
  split <;> field_simp <;> norm_num

theorem value_dyadic_abs (x : IBMFloat) :
    |((if x.signbit then -1 else 1) * (x.intMantissa : ℤ) : ℤ)| < 2 ^ 24 := by
  have := intMantissa_lt x
  rw [abs_lt]
  split <;> constructor <;> omega

theorem ibmMax_lt : ibmMax < (2 : ℚ) ^ (1024 : ℤ) := by
  have : ibmMax < (2 : ℚ) ^ (252 : ℤ) := by unfold ibmMax; norm_num
  exact this.trans (two_zpow_lt.mpr (by norm_num))

/-- `ibm2ieee` is exact. -/
theorem ibm2ieee_eq (x : IBMFloat) : x.ibm2ieee = .fin x.value := by
  unfold ibm2ieee
  split
  · rename_i h
    rw [(value_zero_iff x).mpr ((intMantissa_zero_iff x).mpr h)]
  · rename_i h
    have hm0 : x.intMantissa ≠ 0 := fun h0 => h ((intMantissa_zero_iff x).mp h0)
    have hmpos : (0 : ℚ) < (x.intMantissa : ℚ) := by exact_mod_cast Nat.pos_of_ne_zero hm0
    have hr := exp16_range x
    have hmlt := intMantissa_lt x
    have hint : ((x.b.toNat <<< 16) ||| (x.c.toNat <<< 8) ||| x.d.toNat) = x.intMantissa := rfl
    simp only [hint]
    have hexp : (((x.a.toNat &&& 0x7f : Nat) : ℤ) - EXPONENT_BIAS) = x.exp16 := rfl
    rw [hexp]
    have hL : ((L24 : ℕ) : ℚ) = 2 ^ 24 := by unfold L24; norm_num
    rw [hL]
    have hq1 : (x.intMantissa : ℚ) / 2 ^ 24 = ((x.intMantissa : ℤ) : ℚ) * 2 ^ (-24 : ℤ) := by
      rw [zpow_neg, ← ten24]; push_cast; rw [div_eq_mul_inv]
    have hle1 : (x.intMantissa : ℚ) / 2 ^ 24 < 1 := by
      rw [div_lt_one (by positivity)]
      exact_mod_cast hmlt
    have e1 : PyFloat.ofRat ((x.intMantissa : ℚ) / 2 ^ 24) = .fin ((x.intMantissa : ℚ) / 2 ^ 24) := by
      refine ofRat_exact (x.intMantissa : ℤ) (-24) hq1 ?_ (by norm_num) ?_
      · rw [abs_of_nonneg (by omega)]; omega
      · rw [abs_of_nonneg (by positivity)]
        refine hle1.trans ?_
        have : (2:ℚ)^(0:ℤ) < 2 ^ (1024:ℤ) := two_zpow_lt.mpr (by norm_num)
        simpa using this
    rw [e1]
    have e2 : pow16 x.exp16 = .fin ((16 : ℚ) ^ x.exp16) := by
      unfold pow16
      refine ofRat_exact 1 (4 * x.exp16) ?_ (by norm_num) (by omega) ?_
      · rw [sixteen_zpow]; simp
      · rw [abs_of_pos (sixteen_zpow_pos _), sixteen_zpow]
        exact two_zpow_lt.mpr (by omega)
    rw [e2]
    have hs : (if x.a.toNat &&& 0x80 ≠ 0 then PyFloat.fin (-1) else PyFloat.fin 1) = .fin (sgn x.signbit) := by
      unfold sgn signbit
      by_cases h : x.a.toNat &&& 0x80 ≠ 0 <;> simp [h]
    rw [hs]
    have hs1 : sgn x.signbit ≠ 0 := by unfold sgn; split <;> norm_num
    have hsabs : |sgn x.signbit| = 1 := by unfold sgn; split <;> norm_num
    have hne : (x.intMantissa : ℚ) / 2 ^ 24 ≠ 0 := by positivity
    have e3 : (PyFloat.fin (sgn x.signbit)).mul (.fin ((x.intMantissa : ℚ) / 2 ^ 24))
        = .fin (sgn x.signbit * ((x.intMantissa : ℚ) / 2 ^ 24)) := by
      rw [mul_fin (mul_ne_zero hs1 hne)]
      refine ofRat_exact ((if x.signbit then -1 else 1) * (x.intMantissa : ℤ)) (-24) ?_ ?_ (by norm_num) ?_
      · rw [hq1]; unfold sgn; push_cast; split <;> ring
      · exact (value_dyadic_abs x).trans (by norm_num)
      · rw [abs_mul, hsabs, one_mul, abs_of_nonneg (by positivity)]
        refine hle1.trans ?_
        have : (2:ℚ)^(0:ℤ) < 2 ^ (1024:ℤ) := two_zpow_lt.mpr (by norm_num)
        simpa using this
    rw [e3]
    rw [mul_fin (mul_ne_zero (mul_ne_zero hs1 hne) (sixteen_zpow_pos _).ne')]
    rw [← value_eq]
    refine ofRat_exact _ _ (value_dyadic x) ((value_dyadic_abs x).trans (by norm_num)) (by omega) ?_
    exact lt_of_le_of_lt (abs_value_le_max x) ibmMax_lt

theorem toFloat_eq (x : IBMFloat) : x.toFloat = .fin x.value := ibm2ieee_eq x

/-! ## Conversion from finite numbers -/

theorem hexMant_zero_iff (q : ℚ) : hexMant q (-64) = 0 ↔ |q| < ibmTiny := by
  unfold hexMant ibmTiny
  rw [Nat.floor_eq_zero, div_lt_one (sixteen_zpow_pos _)]
  have h : (16 : ℚ) ^ (-64 : ℤ) = 1 / 16 ^ 64 := by rw [zpow_neg, one_div]; norm_cast
  rw [h, div_right_comm, lt_div_iff₀ (by positivity : (0 : ℚ) < 2 ^ 24)]

theorem hexExp_lt_of_lt_tiny {q : ℚ} (hq : q ≠ 0) (h : |q| < ibmTiny) : hexExp q < -64 := by
  have h1 := (hexExp_spec hq).1
  have h2 : ibmTiny < (16 : ℚ) ^ (-66 : ℤ) := by unfold ibmTiny; norm_num
  have := sixteen_zpow_lt.mp (lt_of_le_of_lt h1 (h.trans h2))
  omega

/-- The exponent actually stored. -/
def storedExp (q : ℚ) : ℤ := max (hexExp q) (-64)

/-- The float produced for a non-zero, in-range `q`. -/
def conv (q : ℚ) : IBMFloat :=
  mk' (decide (q < 0)) (storedExp q + 64).toNat (hexMant q (storedExp q))

/-- Outcome of the conversion of a non-zero finite number. -/
theorem ieee2ibm_fin {q : ℚ} (hq : q ≠ 0) :
    ieee2ibm (.fin q) =
      if ibmMax < |q| then .error .overflowError
      else if |q| < ibmTiny then .error .floatingPointError
      else .ok (conv q) := by
  unfold ieee2ibm MIN_IBM_FLOAT
  rw [maxIbm_eq]
  simp only [hq, if_false]
  have hpos : (0 : ℚ) < ibmMax := by unfold ibmMax; norm_num
  by_cases h1 : ibmMax < |q|
  · rw [if_pos h1]
    by_cases h2 : q < -ibmMax
    · rw [if_pos h2]
    · rw [if_neg h2]
      have : q > ibmMax := by
        rcases lt_abs.mp h1 with h | h
        · exact h
        · exact absurd (by linarith) h2
      rw [if_pos this]
  · rw [if_neg h1]
    have h1' := not_lt.mp h1
    have ⟨ha, hb⟩ := abs_le.mp h1'
    rw [if_neg (not_lt.mpr ha), if_neg (not_lt.mpr hb), ieee2ibmCore_eq (hexExp_le_of_le_max hq h1')]
    by_cases h3 : |q| < ibmTiny
    · rw [if_pos h3, if_pos ⟨hexExp_lt_of_lt_tiny hq h3, (hexMant_zero_iff q).mpr h3⟩]
    · rw [if_neg h3, if_neg (fun h => h3 ((hexMant_zero_iff q).mp h.2))]
      rfl

theorem storedExp_le {q : ℚ} (hq : q ≠ 0) (h : |q| ≤ ibmMax) : storedExp q ≤ 63 := by
  have := hexExp_le_of_le_max hq h
  unfold storedExp; omega

theorem storedExp_ge (q : ℚ) : -64 ≤ storedExp q := by unfold storedExp; omega

theorem conv_mantissa {q : ℚ} (hq : q ≠ 0) : (conv q).intMantissa = hexMant q (storedExp q) :=
  mk'_mantissa _ _ _ (hexMant_lt hq (by unfold storedExp; omega))

theorem conv_exp16 {q : ℚ} (hq : q ≠ 0) (h : |q| ≤ ibmMax) : (conv q).exp16 = storedExp q := by
  have := storedExp_le hq h
  have := storedExp_ge q
  unfold conv
  rw [mk'_exp16 _ _ _ (by omega)]
  omega

theorem conv_signbit {q : ℚ} (hq : q ≠ 0) (h : |q| ≤ ibmMax) :
    (conv q).signbit = decide (q < 0) := by
  have := storedExp_le hq h
  have := storedExp_ge q
  exact mk'_signbit _ _ _ (by omega)

theorem conv_abs {q : ℚ} (hq : q ≠ 0) (h : |q| ≤ ibmMax) :
    |(conv q).value| = (hexMant q (storedExp q) : ℚ) / 2 ^ 24 * 16 ^ storedExp q := by
  rw [abs_value, conv_mantissa hq, conv_exp16 hq h]

theorem conv_le {q : ℚ} (hq : q ≠ 0) (h : |q| ≤ ibmMax) : |(conv q).value| ≤ |q| := by
  rw [conv_abs hq h]
  have hp := sixteen_zpow_pos (storedExp q)
  have h1 : (hexMant q (storedExp q) : ℚ) ≤ |q| * 2 ^ 24 / 16 ^ storedExp q :=
    Nat.floor_le (by positivity)
  calc (hexMant q (storedExp q) : ℚ) / 2 ^ 24 * 16 ^ storedExp q
      ≤ (|q| * 2 ^ 24 / 16 ^ storedExp q) / 2 ^ 24 * 16 ^ storedExp q := by gcongr
    _ = |q| := by field_simp

theorem conv_gt {q : ℚ} (hq : q ≠ 0) (h : |q| ≤ ibmMax) :
    |q| < |(conv q).value| + 16 ^ storedExp q / 2 ^ 24 := by
  rw [conv_abs hq h]
  have hp := sixteen_zpow_pos (storedExp q)
  have h1 : |q| * 2 ^ 24 / 16 ^ storedExp q < (hexMant q (storedExp q) : ℚ) + 1 :=
    Nat.lt_floor_add_one _
  rw [div_lt_iff₀ hp] at h1
  have h2 : (0 : ℚ) < 2 ^ 24 := by positivity
  rw [div_mul_eq_mul_div, ← add_div, lt_div_iff₀ h2]
  linarith

theorem hexMant_normal {q : ℚ} (hq : q ≠ 0) : 2 ^ 20 ≤ hexMant q (hexExp q) := by
  unfold hexMant
  rw [Nat.le_floor_iff (by positivity), le_div_iff₀ (sixteen_zpow_pos _)]
  have h1 := (hexExp_spec hq).1
  rw [zpow_sub_one₀ (by norm_num)] at h1
  push_cast
  linarith

theorem representable_iff {w : ℚ} : IbmRepresentable w ↔ ∃ x : IBMFloat, x.value = w := by
  constructor
  · rintro ⟨a, b, c, d, h⟩; exact ⟨⟨a, b, c, d⟩, h⟩
  · rintro ⟨⟨a, b, c, d⟩, h⟩; exact ⟨a, b, c, d, h⟩

/-- No representable magnitude lies above the converted one and below the source. -/
theorem conv_greatest {q : ℚ} (hq : q ≠ 0) (h : |q| ≤ ibmMax) (x : IBMFloat)
    (hx : |x.value| ≤ |q|) : |x.value| ≤ |(conv q).value| := by
  rcases le_or_gt (storedExp q) x.exp16 with hE | hE
  · -- a multiple of the quantum
    rw [conv_abs hq h, abs_value] at *
    have hp := sixteen_zpow_pos (storedExp q)
    obtain ⟨n, hn⟩ : ∃ n : ℕ, x.exp16 = storedExp q + n := ⟨(x.exp16 - storedExp q).toNat, by omega⟩
    rw [hn, zpow_add₀ (by norm_num), zpow_natCast] at hx ⊢
    have hle : x.intMantissa * 16 ^ n ≤ hexMant q (storedExp q) := by
      unfold hexMant
      rw [Nat.le_floor_iff (by positivity), le_div_iff₀ hp]
      push_cast
      have h2 : (0 : ℚ) < 2 ^ 24 := by positivity
      rw [div_mul_eq_mul_div, div_le_iff₀ h2] at hx
      linarith
    have hle' : (x.intMantissa : ℚ) * 16 ^ n ≤ hexMant q (storedExp q) := by exact_mod_cast hle
    calc (x.intMantissa : ℚ) / 2 ^ 24 * (16 ^ storedExp q * 16 ^ n)
        = ((x.intMantissa : ℚ) * 16 ^ n) / 2 ^ 24 * 16 ^ storedExp q := by ring
      _ ≤ (hexMant q (storedExp q) : ℚ) / 2 ^ 24 * 16 ^ storedExp q := by gcongr
  · -- a smaller exponent: below the leading digit
    have hK : storedExp q = hexExp q := by
      have := (exp16_range x).1
      unfold storedExp at *; omega
    have hn := hexMant_normal hq
    rw [conv_abs hq h, abs_value, hK]
    have hm : (x.intMantissa : ℚ) ≤ 2 ^ 24 := by exact_mod_cast (intMantissa_lt x).le
    have hn' : (2 : ℚ) ^ 20 ≤ hexMant q (hexExp q) := by exact_mod_cast hn
    have hEle : (16 : ℚ) ^ x.exp16 ≤ 16 ^ (hexExp q - 1) := sixteen_zpow_le.mpr (by omega)
    rw [zpow_sub_one₀ (by norm_num)] at hEle
    have hp := sixteen_zpow_pos (hexExp q)
    calc (x.intMantissa : ℚ) / 2 ^ 24 * 16 ^ x.exp16
        ≤ 2 ^ 24 / 2 ^ 24 * (16 ^ hexExp q * 16⁻¹) := by gcongr
      _ = 2 ^ 20 / 2 ^ 24 * 16 ^ hexExp q := by ring
      _ ≤ (hexMant q (hexExp q) : ℚ) / 2 ^ 24 * 16 ^ hexExp q := by gcongr

theorem conv_nonzero {q : ℚ} (hq : q ≠ 0) (ht : ibmTiny ≤ |q|) :
    (conv q).intMantissa ≠ 0 := by
  rw [conv_mantissa hq]
  unfold storedExp
  rcases le_or_gt (-64) (hexExp q) with h1 | h1
  · rw [max_eq_left h1]
    have := hexMant_normal hq
    omega
  · rw [max_eq_right h1.le, Ne, hexMant_zero_iff]
    exact not_lt.mpr ht

theorem conv_sign {q : ℚ} (hq : q ≠ 0) (h : |q| ≤ ibmMax) (ht : ibmTiny ≤ |q|) :
    (conv q).value < 0 ↔ q < 0 := by
  rw [value_neg_iff _ (conv_nonzero hq ht), conv_signbit hq h]
  simp

theorem conv_mul_pos {q : ℚ} (hq : q ≠ 0) (h : |q| ≤ ibmMax) (ht : ibmTiny ≤ |q|) :
    0 < (conv q).value * q := by
  have h1 := conv_sign hq h ht
  have h2 : (conv q).value ≠ 0 := fun h0 => conv_nonzero hq ht ((value_zero_iff _).mp h0)
  rcases lt_or_gt_of_ne hq with hn | hn
  · exact mul_pos_of_neg_of_neg (h1.mpr hn) hn
  · have : ¬ (conv q).value < 0 := fun hc => absurd (h1.mp hc) (not_lt.mpr hn.le)
    have : 0 < (conv q).value := lt_of_le_of_ne (not_lt.mp this) (Ne.symm h2)
    exact mul_pos this hn

theorem conv_isTruncation {q : ℚ} (hq : q ≠ 0) (h : |q| ≤ ibmMax) (ht : ibmTiny ≤ |q|) :
    IsTruncation q (conv q).value where
  representable := representable_iff.mpr ⟨_, rfl⟩
  le := conv_le hq h
  same_sign := (conv_mul_pos hq h ht).le
  greatest := by
    intro w hw hle
    obtain ⟨x, rfl⟩ := representable_iff.mp hw
    exact conv_greatest hq h x hle

theorem tiny_le_of_ne_zero (x : IBMFloat) (h : x.intMantissa ≠ 0) : ibmTiny ≤ |x.value| := by
  rw [abs_value]
  unfold ibmTiny
  have h1 : (1 : ℚ) ≤ x.intMantissa := by exact_mod_cast Nat.pos_of_ne_zero h
  have h2 : (16 : ℚ) ^ (-64 : ℤ) ≤ 16 ^ x.exp16 := sixteen_zpow_le.mpr (exp16_range x).1
  have h3 : (16 : ℚ) ^ (-64 : ℤ) = 1 / 16 ^ 64 := by rw [zpow_neg, one_div]; norm_cast
  calc (1 : ℚ) / 2 ^ 24 / 16 ^ 64 = 1 / 2 ^ 24 * 16 ^ (-64 : ℤ) := by rw [h3]; ring
    _ ≤ (x.intMantissa : ℚ) / 2 ^ 24 * 16 ^ x.exp16 := by gcongr

/-- Two numbers with the same magnitude and compatible signs are equal. -/
theorem eq_of_abs_eq {a b : ℚ} (h : |a| = |b|) (hs : 0 ≤ a * b) : a = b := by
  rcases abs_eq_abs.mp h with h | h
  · exact h
  · subst h
    have : b = 0 := by nlinarith
    simp [this]

/-- A truncation is unique. -/
theorem isTruncation_unique {v r s : ℚ} (hr : IsTruncation v r) (hs : IsTruncation v s) : r = s := by
  have h1 : |r| = |s| :=
    le_antisymm (hs.greatest r hr.representable hr.le) (hr.greatest s hs.representable hs.le)
  by_cases hv : v = 0
  · have := hr.le; have := hs.le
    subst hv
    simp only [abs_zero, abs_nonpos_iff] at *
    simp [*]
  · refine eq_of_abs_eq h1 ?_
    have h2 : 0 ≤ (r * s) * (v * v) := by
      have := mul_nonneg hr.same_sign hs.same_sign
      linarith [this]
    have h3 : 0 < v * v := mul_self_pos.mpr hv
    exact nonneg_of_mul_nonneg_left h2 h3

/-- Representable numbers are their own truncation. -/
theorem isTruncation_self (x : IBMFloat) : IsTruncation x.value x.value where
  representable := representable_iff.mpr ⟨_, rfl⟩
  le := le_refl _
  same_sign := mul_self_nonneg _
  greatest := fun _ _ h => h

/-- Converting the exact value of an IBM float succeeds with an equal value. -/
theorem ieee2ibm_value (x : IBMFloat) :
    ∃ r, ieee2ibm (.fin x.value) = .ok r ∧ r.value = x.value := by
  by_cases h0 : x.value = 0
  · refine ⟨zero, ?_, ?_⟩
    · unfold ieee2ibm; simp [h0]
    · rw [h0, value_zero_iff]; rfl
  · have hm : x.intMantissa ≠ 0 := fun h => h0 ((value_zero_iff x).mpr h)
    have h1 := abs_value_le_max x
    have h2 := tiny_le_of_ne_zero x hm
    refine ⟨conv x.value, ?_, ?_⟩
    · rw [ieee2ibm_fin h0, if_neg (not_lt.mpr h1), if_neg (not_lt.mpr h2)]
    · exact isTruncation_unique (conv_isTruncation h0 h1 h2) (isTruncation_self x)

/-- Normalised non-zero floats: position of the leading digit. -/
theorem hexExp_of_normal (x : IBMFloat) (h : 2 ^ 20 ≤ x.intMantissa) : hexExp x.value = x.exp16 := by
  have hm := intMantissa_lt x
  have hp := sixteen_zpow_pos x.exp16
  have h1 : (2 : ℚ) ^ 20 ≤ x.intMantissa := by exact_mod_cast h
  have h2 : (x.intMantissa : ℚ) < 2 ^ 24 := by exact_mod_cast hm
  apply hexExp_unique
  · rw [abs_value, zpow_sub_one₀ (by norm_num)]
    calc (16 : ℚ) ^ x.exp16 * 16⁻¹ = 2 ^ 20 / 2 ^ 24 * 16 ^ x.exp16 := by ring
      _ ≤ _ := by gcongr
  · rw [abs_value]
    calc (x.intMantissa : ℚ) / 2 ^ 24 * 16 ^ x.exp16 < 2 ^ 24 / 2 ^ 24 * 16 ^ x.exp16 := by gcongr
      _ = 16 ^ x.exp16 := by ring

theorem hexMant_value (x : IBMFloat) : hexMant x.value x.exp16 = x.intMantissa := by
  unfold hexMant
  rw [abs_value]
  have hp := (sixteen_zpow_pos x.exp16).ne'
  have : (x.intMantissa : ℚ) / 2 ^ 24 * 16 ^ x.exp16 * 2 ^ 24 / 16 ^ x.exp16 = (x.intMantissa : ℕ) := by
    field_simp
  rw [this, Nat.floor_natCast]

theorem conv_normal (x : IBMFloat) (h : 2 ^ 20 ≤ x.intMantissa) : conv x.value = x := by
  have hne : x.intMantissa ≠ 0 := by omega
  have hr := exp16_range x
  have hk := hexExp_of_normal x h
  have hs : storedExp x.value = x.exp16 := by unfold storedExp; omega
  conv_rhs => rw [eq_mk' x]
  unfold conv
  rw [hs, hexMant_value]
  congr 1
  have := value_neg_iff x hne
  cases hsb : x.signbit <;> simp [hsb] at this ⊢ <;> assumption

theorem normal_iff (x : IBMFloat) : 16 ≤ x.b.toNat ↔ 2 ^ 20 ≤ x.intMantissa := by
  have hc := u8_lt x.c
  have hd := u8_lt x.d
  rw [intMantissa_eq]
  unfold ibmMantissa
  omega

/-- Normalised floats are determined by their value. -/
theorem eq_of_value_eq {x y : IBMFloat} (hx : 2 ^ 20 ≤ x.intMantissa) (hy : 2 ^ 20 ≤ y.intMantissa)
    (h : x.value = y.value) : x = y := by
  rw [← conv_normal x hx, ← conv_normal y hy, h]

/-! ## Normalisation -/

theorem normalizeLoop_some {fuel : ℕ} {E : ℤ} {M : ℕ} {E' : ℤ} {M' : ℕ}
    (h : normalizeLoop fuel E M = some (E', M')) (hM : M < 2 ^ 24) (hE : -64 ≤ E) :
    2 ^ 20 ≤ M' ∧ M' < 2 ^ 24 ∧ -64 ≤ E' ∧ E' ≤ E ∧ (M' : ℚ) * 16 ^ E' = (M : ℚ) * 16 ^ E := by
  induction fuel generalizing E M with
  | zero => simp [normalizeLoop] at h
  | succ n ih =>
    unfold normalizeLoop at h
    simp only [Nat.shiftLeft_eq, one_mul] at h
    split at h
    · rename_i hlt
      split at h
      · simp at h
      · rename_i hr
        simp only [Bool.not_eq_true, Bool.not_eq_false', Bool.and_eq_true, decide_eq_true_eq] at hr
        obtain ⟨a, b, c, d, e⟩ := ih h (by omega) (by omega)
        refine ⟨a, b, c, by omega, ?_⟩
        rw [e]
        push_cast
        rw [zpow_sub_one₀ (by norm_num)]
        ring
    · simp only [Option.some.injEq, Prod.mk.injEq] at h
      obtain ⟨rfl, rfl⟩ := h
      exact ⟨by omega, hM, hE, le_refl _, rfl⟩

theorem normalizeLoop_none {fuel : ℕ} {E : ℤ} {M : ℕ}
    (h : normalizeLoop fuel E M = none) (hE : -64 ≤ E) (hE' : E ≤ 63) (hf : E + 65 ≤ fuel) :
    (M : ℚ) * 16 ^ (E + 64) < 2 ^ 20 := by
  induction fuel generalizing E M with
  | zero => omega
  | succ n ih =>
    unfold normalizeLoop at h
    simp only [Nat.shiftLeft_eq, one_mul] at h
    split at h
    · rename_i hlt
      split at h
      · rename_i hr
        simp only [Bool.not_eq_true', Bool.and_eq_false_iff, decide_eq_false_iff_not] at hr
        have : E = -64 := by omega
        subst this
        simp only [Int.reduceNeg, neg_add_cancel, zpow_zero, mul_one]
        exact_mod_cast hlt
      · rename_i hr
        simp only [Bool.not_eq_true, Bool.not_eq_false', Bool.and_eq_true, decide_eq_true_eq] at hr
        have := ih h (by omega) (by omega) (by push_cast at hf; omega)
        push_cast at this
        have e : E - 1 + 64 = (E + 64) - 1 := by ring
        rw [e, zpow_sub_one₀ (by norm_num)] at this
        linarith
    · simp at h

theorem minNormal_eq : ibmMinNormal = (16 : ℚ) ^ (-65 : ℤ) := by
  unfold ibmMinNormal; rw [zpow_neg, one_div]; norm_cast

/-- Outcome of `normalize` on a non-zero float. -/
theorem normalize_spec (x : IBMFloat) (h : x.intMantissa ≠ 0) :
    (∃ r, x.normalize = .ok r ∧ r.value = x.value ∧ r.signbit = x.signbit ∧ 2 ^ 20 ≤ r.intMantissa
        ∧ ibmMinNormal ≤ |x.value|) ∨
    (x.normalize = .error .floatingPointError ∧ |x.value| < ibmMinNormal) := by
  have hr := exp16_range x
  have hm := intMantissa_lt x
  unfold normalize isZero
  have : (x.intMantissa == 0) = false := by simpa using h
  rw [this]
  simp only [Bool.false_eq_true, if_false]
  cases hl : normalizeLoop 129 x.exp16 x.intMantissa with
  | none =>
    right
    refine ⟨rfl, ?_⟩
    have := normalizeLoop_none hl hr.1 hr.2 (by push_cast; omega)
    rw [abs_value, minNormal_eq]
    rw [zpow_add₀ (by norm_num)] at this
    have e : (16 : ℚ) ^ (-65 : ℤ) = 2 ^ 20 / 2 ^ 24 / 16 ^ (64 : ℤ) := by norm_num
    rw [e, div_mul_eq_mul_div, div_right_comm]
    apply div_lt_div_of_pos_right _ (by positivity)
    rw [lt_div_iff₀ (by positivity)]
    linarith
  | some p =>
    obtain ⟨E', M'⟩ := p
    left
    obtain ⟨a, b, c, d, e⟩ := normalizeLoop_some hl hm hr.1
    simp only
    have hs : (x.signbit.toNat <<< 7) = (if x.signbit then 0x80 else 0x00) := by
      cases x.signbit <;> rfl
    have hb : E' + EXPONENT_BIAS = E' + 64 := rfl
    rw [hs, hb, ofNats_eq _ _ _ (by omega)]
    have hsb := mk'_signbit x.signbit (E' + 64).toNat M' (by omega)
    have hmm := mk'_mantissa x.signbit (E' + 64).toNat M' b
    have hee := mk'_exp16 x.signbit (E' + 64).toNat M' (by omega)
    have hee' : (mk' x.signbit (E' + 64).toNat M').exp16 = E' := by omega
    have hv : (mk' x.signbit (E' + 64).toNat M').value = x.value := by
      rw [value_eq, value_eq, hsb, hmm, hee', mul_assoc, mul_assoc, div_mul_eq_mul_div,
        div_mul_eq_mul_div, e]
    refine ⟨_, rfl, hv, hsb, by rw [hmm]; exact a, ?_⟩
    rw [← hv, abs_value, hmm, hee', minNormal_eq]
    have h1 : (2 : ℚ) ^ 20 ≤ M' := by exact_mod_cast a
    have h2 : (16 : ℚ) ^ (-64 : ℤ) ≤ 16 ^ E' := sixteen_zpow_le.mpr c
    calc (16 : ℚ) ^ (-65 : ℤ) = 2 ^ 20 / 2 ^ 24 * 16 ^ (-64 : ℤ) := by norm_num
      _ ≤ _ := by gcongr

end IBMFloat

end Segpy
