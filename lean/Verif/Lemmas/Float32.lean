import Verif.Lemmas.IbmFloat3
import Verif.Py.Float32
import Verif.Spec.Float32
import Mathlib.Tactic.IntervalCases

/-! # Lemmas about rounding to nearest, and binary32 -/

namespace Segpy

open Spec

/-- Rounding to an integer is nearest. -/
theorem roundHalfEven_nearest (x : ℚ) (n : ℤ) : |(roundHalfEven x : ℚ) - x| ≤ |(n : ℚ) - x| := by
  have hc := roundHalfEven_close x
  by_cases h : n = roundHalfEven x
  · rw [h]
  · have h1 : (1 : ℚ) ≤ |((n - roundHalfEven x : ℤ) : ℚ)| := by
      have : (1 : ℤ) ≤ |n - roundHalfEven x| := Int.one_le_abs (sub_ne_zero.mpr h)
      exact_mod_cast this
    have h2 : |((n - roundHalfEven x : ℤ) : ℚ)| ≤ |(n : ℚ) - x| + |(roundHalfEven x : ℚ) - x| := by
      have : ((n - roundHalfEven x : ℤ) : ℚ) = ((n : ℚ) - x) - ((roundHalfEven x : ℚ) - x) := by push_cast; ring
      rw [this]
      exact abs_sub _ _
    linarith

/-- A tie goes to an even integer. -/
theorem roundHalfEven_tie (x : ℚ) (n : ℤ) (hn : n ≠ roundHalfEven x)
    (h : |(n : ℚ) - x| = |(roundHalfEven x : ℚ) - x|) : roundHalfEven x % 2 = 0 := by
  have hc := roundHalfEven_close x
  have h1 : (1 : ℚ) ≤ |((n - roundHalfEven x : ℤ) : ℚ)| := by
    have : (1 : ℤ) ≤ |n - roundHalfEven x| := Int.one_le_abs (sub_ne_zero.mpr hn)
    exact_mod_cast this
  have h2 : |((n - roundHalfEven x : ℤ) : ℚ)| ≤ |(n : ℚ) - x| + |(roundHalfEven x : ℚ) - x| := by
    have : ((n - roundHalfEven x : ℤ) : ℚ) = ((n : ℚ) - x) - ((roundHalfEven x : ℚ) - x) := by push_cast; ring
    rw [this]
    exact abs_sub _ _
  have h3 : |(roundHalfEven x : ℚ) - x| = 1 / 2 := by linarith
  have f1 : ((x.floor : ℤ) : ℚ) ≤ x := Int.floor_le x
  have f2 : x < (x.floor : ℤ) + 1 := Int.lt_floor_add_one x
  unfold roundHalfEven at h3 ⊢
  simp only at h3 ⊢
  split_ifs at h3 ⊢ with a b c
  · rw [abs_of_nonpos (by linarith)] at h3; linarith
  · push_cast at h3
    rw [abs_of_nonneg (by linarith)] at h3; linarith
  · exact c
  · omega

theorem roundHalfEven_le (x : ℚ) (n : ℤ) (h : x ≤ n) : roundHalfEven x ≤ n := by
  by_contra hc
  have hn := roundHalfEven_nearest x n
  have hn2 := roundHalfEven_tie x n (by omega)
  have h1 : ((n : ℤ) : ℚ) + 1 ≤ roundHalfEven x := by exact_mod_cast (by omega : n + 1 ≤ roundHalfEven x)
  rw [abs_of_nonneg (by linarith : (0 : ℚ) ≤ n - x), abs_of_nonneg (by linarith)] at hn
  linarith

theorem le_roundHalfEven (x : ℚ) (n : ℤ) (h : (n : ℚ) ≤ x) : n ≤ roundHalfEven x := by
  by_contra hc
  have hn := roundHalfEven_nearest x n
  have h1 : (roundHalfEven x : ℚ) + 1 ≤ (n : ℤ) := by exact_mod_cast (by omega : roundHalfEven x + 1 ≤ n)
  rw [abs_of_nonpos (by linarith : (n : ℚ) - x ≤ 0), abs_of_nonpos (by linarith)] at hn
  linarith

/-- The quantum in which `roundTo` works. -/
def quantum (p : ℕ) (emin : ℤ) (q : ℚ) : ℤ := max (frexpExp q - p) emin

theorem roundTo_eq (p : ℕ) (emin : ℤ) {q : ℚ} (hq : q ≠ 0) :
    roundTo p emin q = (roundHalfEven (q / 2 ^ quantum p emin q) : ℚ) * 2 ^ quantum p emin q := by
  unfold roundTo; rw [if_neg hq]; rfl

theorem scaled_lt (p : ℕ) (emin : ℤ) {q : ℚ} (hq : q ≠ 0) : |q / 2 ^ quantum p emin q| < 2 ^ p := by
  have h := (frexpExp_spec hq).2
  have hp := two_zpow_pos (quantum p emin q)
  rw [abs_div, abs_of_pos hp, div_lt_iff₀ hp, ← zpow_natCast, ← zpow_add₀ (by norm_num)]
  refine lt_of_lt_of_le h (two_zpow_le.mpr ?_)
  unfold quantum; omega

theorem scaled_ge (p : ℕ) (emin : ℤ) {q : ℚ} (hq : q ≠ 0) (hu : emin < quantum p emin q) :
    (2 : ℚ) ^ ((p : ℤ) - 1) ≤ |q / 2 ^ quantum p emin q| := by
  have h := (frexpExp_spec hq).1
  have hp := two_zpow_pos (quantum p emin q)
  rw [abs_div, abs_of_pos hp, le_div_iff₀ hp, ← zpow_add₀ (by norm_num)]
  refine le_trans (two_zpow_le.mpr ?_) h
  unfold quantum at *; omega

theorem roundInt_abs_le (p : ℕ) (emin : ℤ) {q : ℚ} (hq : q ≠ 0) :
    |roundHalfEven (q / 2 ^ quantum p emin q)| ≤ 2 ^ p := by
  have h := abs_lt.mp (scaled_lt p emin hq)
  rw [abs_le]
  constructor
  · apply le_roundHalfEven; push_cast; exact h.1.le
  · apply roundHalfEven_le; push_cast; exact h.2.le

theorem representable_of_le {p : ℕ} (hp : 1 ≤ p) {emin m u : ℤ} (hm : |m| ≤ 2 ^ p) (hu : emin ≤ u) :
    Representable p emin (m * (2 : ℚ) ^ u) := by
  rcases lt_or_eq_of_le hm with h | h
  · exact ⟨m, u, rfl, h, hu⟩
  · obtain ⟨k, rfl⟩ := Nat.exists_eq_add_of_le hp
    have h2 : (2 : ℤ) ^ (1 + k) = 2 * 2 ^ k := by rw [pow_add, pow_one]
    have hk : (0 : ℤ) < 2 ^ k := by positivity
    rcases abs_eq (by positivity : (0 : ℤ) ≤ 2 ^ (1 + k)) |>.mp h with h | h
    · refine ⟨2 ^ k, u + 1, ?_, ?_, by omega⟩
      · rw [h, zpow_add_one₀ (by norm_num), h2]; push_cast; ring
      · rw [abs_of_pos hk, h2]; omega
    · refine ⟨-2 ^ k, u + 1, ?_, ?_, by omega⟩
      · rw [h, zpow_add_one₀ (by norm_num), h2]; push_cast; ring
      · rw [abs_neg, abs_of_pos hk, h2]; omega

theorem representable_zero (p : ℕ) (emin : ℤ) : Representable p emin 0 :=
  ⟨0, emin, by simp, by simp, le_refl _⟩

theorem roundTo_representable {p : ℕ} (hp : 1 ≤ p) (emin : ℤ) (q : ℚ) : Representable p emin (roundTo p emin q) := by
  by_cases hq : q = 0
  · unfold roundTo; rw [if_pos hq]; exact representable_zero _ _
  · rw [roundTo_eq p emin hq]
    exact representable_of_le hp (roundInt_abs_le p emin hq) (le_max_right _ _)

theorem roundTo_of_representable {p : ℕ} {emin : ℤ} {q : ℚ} (h : Representable p emin q) : roundTo p emin q = q := by
  obtain ⟨m, u, hq, hm, hu⟩ := h
  exact roundTo_exact m u hq hm hu

/-- A representable number is a multiple of the quantum, or closer to zero than any number with that quantum. -/
theorem representable_grid {p : ℕ} {emin : ℤ} {q w : ℚ} (hw : Representable p emin w) :
    (∃ n : ℤ, w = n * 2 ^ quantum p emin q) ∨
      (emin < quantum p emin q ∧ |w| < 2 ^ (quantum p emin q + p - 1)) := by
  obtain ⟨m, u, h, hm, hu⟩ := hw
  by_cases hle : quantum p emin q ≤ u
  · left
    refine ⟨m * 2 ^ (u - quantum p emin q).toNat, ?_⟩
    push_cast
    rw [h, mul_assoc, ← zpow_natCast, ← zpow_add₀ (by norm_num)]
    congr 2
    omega
  · right
    refine ⟨by omega, ?_⟩
    rw [h, abs_mul, abs_of_pos (two_zpow_pos u)]
    have h1 : (|(m : ℚ)|) < 2 ^ p := by exact_mod_cast hm
    calc |(m : ℚ)| * 2 ^ u < 2 ^ p * 2 ^ u := mul_lt_mul_of_pos_right h1 (two_zpow_pos u)
      _ = 2 ^ ((p : ℤ) + u) := by rw [zpow_add₀ (by norm_num), zpow_natCast]
      _ ≤ _ := two_zpow_le.mpr (by omega)

theorem dist_scale (k u : ℤ) (q : ℚ) : |(k : ℚ) * 2 ^ u - q| = |(k : ℚ) - q / 2 ^ u| * 2 ^ u := by
  have hp := two_zpow_pos u
  rw [← abs_of_pos hp, ← abs_mul, abs_of_pos hp]
  congr 1
  field_simp

/-- With a finer quantum one stays strictly farther away. -/
theorem finer_farther {p : ℕ} (hp : 1 ≤ p) {emin : ℤ} {q w : ℚ} (hq : q ≠ 0) (hu : emin < quantum p emin q)
    (hw : |w| < 2 ^ (quantum p emin q + p - 1)) : |roundTo p emin q - q| < |w - q| := by
  have hspec := (frexpExp_spec hq).1
  have he : frexpExp q - 1 = quantum p emin q + p - 1 := by unfold quantum at *; omega
  rw [he] at hspec
  have hsplit : (2 : ℚ) ^ (quantum p emin q + p - 1) = ((2 ^ (p - 1) : ℤ) : ℚ) * 2 ^ quantum p emin q := by
    push_cast
    rw [← zpow_natCast, ← zpow_add₀ (by norm_num)]
    congr 1; omega
  rw [roundTo_eq p emin hq, dist_scale]
  have hpos := two_zpow_pos (quantum p emin q)
  rcases le_or_gt 0 q with h0 | h0
  · have hn := roundHalfEven_nearest (q / 2 ^ quantum p emin q) (2 ^ (p - 1))
    have h1 := mul_le_mul_of_nonneg_right hn hpos.le
    rw [← dist_scale (2 ^ (p - 1)), ← hsplit] at h1
    refine lt_of_le_of_lt h1 ?_
    rw [abs_of_nonneg h0] at hspec
    have := (abs_lt.mp hw).2
    rw [abs_of_nonpos (by linarith), abs_of_nonpos (by linarith)]
    linarith
  · have hn := roundHalfEven_nearest (q / 2 ^ quantum p emin q) (-2 ^ (p - 1))
    have h1 := mul_le_mul_of_nonneg_right hn hpos.le
    rw [← dist_scale (-2 ^ (p - 1)), Int.cast_neg, neg_mul, ← hsplit] at h1
    refine lt_of_le_of_lt h1 ?_
    rw [abs_of_neg h0] at hspec
    have := (abs_lt.mp hw).1
    rw [abs_of_nonneg (by linarith), abs_of_nonneg (by linarith)]
    linarith

/-- Rounding gives a nearest representable number. -/
theorem roundTo_nearest {p : ℕ} (hp : 1 ≤ p) {emin : ℤ} (q : ℚ) {w : ℚ} (hw : Representable p emin w) :
    |roundTo p emin q - q| ≤ |w - q| := by
  by_cases hq : q = 0
  · subst hq; simp [roundTo]
  rcases representable_grid (q := q) hw with ⟨n, rfl⟩ | ⟨hu, hlt⟩
  · rw [roundTo_eq p emin hq, dist_scale, dist_scale]
    exact mul_le_mul_of_nonneg_right (roundHalfEven_nearest _ n) (two_zpow_pos _).le
  · exact (finer_farther hp hq hu hlt).le

/-- If another representable number is as near, the integer multiple of the quantum that was chosen is even. -/
theorem roundTo_tie {p : ℕ} (hp : 1 ≤ p) {emin : ℤ} {q w : ℚ} (hq : q ≠ 0) (hw : Representable p emin w)
    (hne : w ≠ roundTo p emin q) (h : |w - q| = |roundTo p emin q - q|) :
    roundHalfEven (q / 2 ^ quantum p emin q) % 2 = 0 := by
  rcases representable_grid (q := q) hw with ⟨n, rfl⟩ | ⟨hu, hlt⟩
  · rw [roundTo_eq p emin hq, dist_scale, dist_scale] at h
    rw [roundTo_eq p emin hq] at hne
    have hpos := two_zpow_pos (quantum p emin q)
    exact roundHalfEven_tie _ n (fun e => hne (by rw [e])) (mul_right_cancel₀ hpos.ne' h)
  · exact absurd h (finer_farther hp hq hu hlt).ne'

/-! ## binary32 -/

/-- Decoding the two parts of a magnitude. -/
theorem ofBits_parts (neg : Bool) (U N : Nat) (hN : N < 2 ^ 24) (hU : U ≤ 253) (h : U = 0 ∨ 2 ^ 23 ≤ N) :
    float32OfBits ((if neg then 2 ^ 31 else 0) + (U * 2 ^ 23 + N)) =
      if N = 0 then PyFloat.zero neg
      else .fin ((if neg then -1 else 1) * ((N : ℚ) * (2 : ℚ) ^ ((U : ℤ) - 149))) := by
  have hs : decide (((if neg then 2 ^ 31 else 0) + (U * 2 ^ 23 + N)) / 2 ^ 31 % 2 = 1) = neg := by
    cases neg <;> simp <;> omega
  unfold float32OfBits
  simp only [hs]
  by_cases hsub : N < 2 ^ 23
  · have hU0 : U = 0 := by omega
    subst hU0
    have e1 : ((if neg = true then 2 ^ 31 else 0) + (0 * 2 ^ 23 + N)) / 2 ^ 23 % 256 = 0 := by
      cases neg <;> simp <;> omega
    have e2 : ((if neg = true then 2 ^ 31 else 0) + (0 * 2 ^ 23 + N)) % 2 ^ 23 = N := by
      cases neg <;> simp <;> omega
    rw [e1, e2]
    simp only [Nat.reduceEqDiff, ↓reduceIte, Nat.cast_zero, zero_sub]
    have hp := two_zpow_pos (-149)
    by_cases h0 : N = 0
    · simp [h0]
    · have : (N : ℚ) * 2 ^ (-149 : ℤ) ≠ 0 := mul_ne_zero (by exact_mod_cast h0) hp.ne'
      rw [if_neg this, if_neg h0]
      cases neg <;> simp
  · have e1 : ((if neg = true then 2 ^ 31 else 0) + (U * 2 ^ 23 + N)) / 2 ^ 23 % 256 = U + 1 := by
      cases neg <;> simp <;> omega
    have e2 : ((if neg = true then 2 ^ 31 else 0) + (U * 2 ^ 23 + N)) % 2 ^ 23 = N - 2 ^ 23 := by
      cases neg <;> simp <;> omega
    have hU1 : ¬ (U + 1 = 255) := by omega
    have hU2 : ¬ (U + 1 = 0) := by omega
    have hN0 : ¬ (N = 0) := by omega
    rw [e1, e2, if_neg hU1, if_neg hN0]
    simp only [if_neg hU2]
    have e3 : 2 ^ 23 + (N - 2 ^ 23) = N := by omega
    have e4 : ((U + 1 : ℕ) : ℤ) - 150 = (U : ℤ) - 149 := by push_cast; ring
    rw [e3, e4]
    have hp := two_zpow_pos ((U : ℤ) - 149)
    have : (N : ℚ) * 2 ^ ((U : ℤ) - 149) ≠ 0 := mul_ne_zero (Nat.cast_ne_zero.mpr hN0) hp.ne'
    rw [if_neg this]
    cases neg <;> simp

/-- The parts of the magnitude of a representable number. -/
theorem magnitude32_parts {r : ℚ} (hr : r ≠ 0) (hrep : IsFloat32 r) :
    ∃ U N : Nat, magnitude32 r = U * 2 ^ 23 + N ∧ N < 2 ^ 24 ∧ N ≠ 0 ∧ U ≤ 253 ∧ (U = 0 ∨ 2 ^ 23 ≤ N) ∧
      |r| = (N : ℚ) * (2 : ℚ) ^ ((U : ℤ) - 149) := by
  obtain ⟨hrep, hmax⟩ := hrep
  have hq := roundTo_of_representable hrep
  rw [roundTo_eq 24 (-149) hr] at hq
  have hlt := scaled_lt 24 (-149) hr
  have hge := scaled_ge 24 (-149) hr
  set u := quantum 24 (-149) r with hu
  set k := roundHalfEven (r / 2 ^ u) with hk
  have hpos := two_zpow_pos u
  have hx : r / 2 ^ u = k := by rw [div_eq_iff hpos.ne']; exact hq.symm
  have habs : |r| / 2 ^ u = ((k.natAbs : ℕ) : ℚ) := by
    have : |r / 2 ^ u| = |r| / 2 ^ u := by rw [abs_div, abs_of_pos hpos]
    rw [← this, hx, ← Int.cast_abs, Int.abs_eq_natAbs]; rfl
  rw [hx, ← Int.cast_abs, Int.abs_eq_natAbs] at hlt hge
  have hu149 : -149 ≤ u := le_max_right _ _
  have hu104 : u ≤ 104 := by
    have := two_zpow_lt.mp (lt_of_le_of_lt (frexpExp_spec hr).1 hmax)
    rw [hu]; unfold quantum; omega
  have hU : (((u + 149).toNat : ℕ) : ℤ) = u + 149 := Int.toNat_of_nonneg (by omega)
  refine ⟨(u + 149).toNat, k.natAbs, ?_, ?_, ?_, by omega, ?_, ?_⟩
  · unfold magnitude32
    rw [if_neg hr]
    simp only
    have : max (frexpExp r - 24) (-149) = u := rfl
    rw [this, habs]
    congr 1
  · exact_mod_cast hlt
  · intro h0
    rw [h0] at habs
    rw [div_eq_iff hpos.ne'] at habs
    simp at habs
    exact hr habs
  · by_cases h0 : -149 < u
    · right
      have := hge h0
      rw [show ((24 : ℕ) : ℤ) - 1 = ((23 : ℕ) : ℤ) by norm_num, zpow_natCast] at this
      exact_mod_cast this
    · left; omega
  · rw [hU, add_sub_cancel_right, ← habs, div_mul_cancel₀ _ hpos.ne']

theorem round32_zero : round32 0 = 0 := by simp [round32, roundTo]

/-- Rounding keeps the sign. -/
theorem roundTo_sign (p : ℕ) (emin : ℤ) (q : ℚ) : (0 ≤ q → 0 ≤ roundTo p emin q) ∧ (q ≤ 0 → roundTo p emin q ≤ 0) := by
  by_cases hq : q = 0
  · subst hq; simp [roundTo]
  rw [roundTo_eq p emin hq]
  have hpos := two_zpow_pos (quantum p emin q)
  constructor
  · intro h
    have : 0 ≤ roundHalfEven (q / 2 ^ quantum p emin q) :=
      le_roundHalfEven _ 0 (by push_cast; exact div_nonneg h hpos.le)
    exact mul_nonneg (by exact_mod_cast this) hpos.le
  · intro h
    have : roundHalfEven (q / 2 ^ quantum p emin q) ≤ 0 :=
      roundHalfEven_le _ 0 (by push_cast; exact div_nonpos_of_nonpos_of_nonneg h hpos.le)
    exact mul_nonpos_of_nonpos_of_nonneg (by exact_mod_cast this) hpos.le

/-- Reading back the bits of a finite float gives the rounded number, zero with the sign of the original. -/
theorem float32_round_trip (q : ℚ) (h : |round32 q| < (2 : ℚ) ^ (128 : ℤ)) :
    ∃ bits, float32Bits (.fin q) = .ok bits ∧ bits < 2 ^ 32 ∧
      float32OfBits bits = if round32 q = 0 then PyFloat.zero (decide (q < 0)) else .fin (round32 q) := by
  refine ⟨(if q < 0 then 2 ^ 31 else 0) + magnitude32 (round32 q), ?_, ?_⟩
  · unfold float32Bits
    simp only
    rw [if_neg (not_le.mpr h)]
  · have hs : (if q < 0 then 2 ^ 31 else 0) = (if (decide (q < 0)) = true then 2 ^ 31 else 0 : ℕ) := by simp
    by_cases h0 : round32 q = 0
    · have hm : magnitude32 (round32 q) = 0 := by unfold magnitude32; rw [if_pos h0]
      rw [hm, hs]
      constructor
      · split <;> norm_num
      · have := ofBits_parts (decide (q < 0)) 0 0 (by norm_num) (by norm_num) (Or.inl rfl)
        rw [zero_mul, zero_add] at this
        rw [this, if_pos rfl, if_pos h0]
    · obtain ⟨U, N, h1, h2, h3, h4, h5, h6⟩ := magnitude32_parts h0 ⟨roundTo_representable (by norm_num) _ _, h⟩
      rw [h1, hs]
      constructor
      · split <;> omega
      · rw [ofBits_parts _ U N h2 h4 h5, if_neg h3, if_neg h0, ← h6]
        congr 1
        have hsign := roundTo_sign 24 (-149) q
        by_cases hq : q < 0
        · have := hsign.2 hq.le
          simp only [hq, decide_true, if_true]
          rw [abs_of_nonpos this]; ring
        · have := hsign.1 (not_lt.mp hq)
          simp only [hq, decide_false]
          rw [abs_of_nonneg this]; simp

theorem roundHalfEven_neg (x : ℚ) : roundHalfEven (-x) = -roundHalfEven x := by
  by_contra hne
  have hne' : -roundHalfEven (-x) ≠ roundHalfEven x := fun h => hne (by omega)
  have h1 := roundHalfEven_nearest x (-roundHalfEven (-x))
  have h2 := roundHalfEven_nearest (-x) (-roundHalfEven x)
  push_cast at h1 h2
  have e1 : |-(roundHalfEven (-x) : ℚ) - x| = |(roundHalfEven (-x) : ℚ) - -x| := by rw [← abs_neg]; congr 1; ring
  have e2 : |-(roundHalfEven x : ℚ) - -x| = |(roundHalfEven x : ℚ) - x| := by rw [← abs_neg]; congr 1; ring
  rw [e1] at h1
  rw [e2] at h2
  have heq := le_antisymm h1 h2
  have t1 := roundHalfEven_tie x (-roundHalfEven (-x)) hne' (by push_cast; rw [e1]; exact heq.symm)
  have t2 := roundHalfEven_tie (-x) (-roundHalfEven x) (fun h => hne h.symm) (by push_cast; rw [e2]; exact heq)
  -- two different even integers cannot both be within one half
  have c1 := roundHalfEven_close x
  have c2 := roundHalfEven_close (-x)
  have hd : (2 : ℤ) ≤ |roundHalfEven x - -roundHalfEven (-x)| := by
    rw [le_abs]
    omega
  have hd' : (2 : ℚ) ≤ |(roundHalfEven x : ℚ) - -(roundHalfEven (-x) : ℚ)| := by exact_mod_cast hd
  have tri : |(roundHalfEven x : ℚ) - -(roundHalfEven (-x) : ℚ)| ≤
      |(roundHalfEven x : ℚ) - x| + |(roundHalfEven (-x) : ℚ) - -x| := by
    have : (roundHalfEven x : ℚ) - -(roundHalfEven (-x) : ℚ) =
      ((roundHalfEven x : ℚ) - x) + ((roundHalfEven (-x) : ℚ) - -x) := by ring
    rw [this]; exact abs_add_le _ _
  linarith

theorem roundTo_neg (p : ℕ) (emin : ℤ) (q : ℚ) : roundTo p emin (-q) = -roundTo p emin q := by
  by_cases hq : q = 0
  · subst hq; simp [roundTo]
  · rw [roundTo_eq p emin hq, roundTo_eq p emin (neg_ne_zero.mpr hq)]
    have : quantum p emin (-q) = quantum p emin q := by unfold quantum; rw [IBMFloat.frexpExp_neg]
    rw [this, neg_div, roundHalfEven_neg]
    push_cast; ring

private theorem overflow_pos (q : ℚ) (h0 : 0 < q) :
    (2 : ℚ) ^ (128 : ℤ) ≤ round32 q ↔ (2 : ℚ) ^ (128 : ℤ) - 2 ^ (103 : ℤ) ≤ q := by
  have e104 : (2 : ℚ) ^ (104 : ℤ) = 2 * 2 ^ (103 : ℤ) := by
    rw [show (104 : ℤ) = 103 + 1 by norm_num, zpow_add_one₀ (by norm_num)]; ring
  have e128 : (2 : ℚ) ^ (128 : ℤ) = 2 ^ 24 * 2 ^ (104 : ℤ) := by
    rw [← zpow_natCast, ← zpow_add₀ (by norm_num)]; norm_num
  have p103 := two_zpow_pos 103
  constructor
  · intro h
    by_contra hc
    push Not at hc
    have hn := roundTo_nearest (p := 24) (by norm_num) (emin := -149) q
      (w := (2 ^ 24 - 1 : ℤ) * (2 : ℚ) ^ (104 : ℤ)) ⟨2 ^ 24 - 1, 104, rfl, by norm_num, by norm_num⟩
    have hw : ((2 ^ 24 - 1 : ℤ) : ℚ) * (2 : ℚ) ^ (104 : ℤ) = (2 : ℚ) ^ (128 : ℤ) - 2 * 2 ^ (103 : ℤ) := by
      rw [e128, e104]; push_cast; ring
    rw [hw] at hn
    clear hw e128
    unfold round32 at h
    generalize (2 : ℚ) ^ (128 : ℤ) = A at *
    generalize (2 : ℚ) ^ (103 : ℤ) = B at *
    rw [abs_of_nonneg (by linarith : 0 ≤ roundTo 24 (-149) q - q)] at hn
    rcases le_abs.mp hn with hn | hn <;> linarith
  · intro h
    by_contra hc
    push Not at hc
    have hq : q ≠ 0 := h0.ne'
    have hrep := roundTo_representable (p := 24) (by norm_num) (-149) q
    have hpos : 0 < roundTo 24 (-149) q := by
      have hn := roundTo_nearest (p := 24) (by norm_num) (emin := -149) q
        (w := (1 : ℤ) * (2 : ℚ) ^ (127 : ℤ)) ⟨1, 127, rfl, by norm_num, by norm_num⟩
      have hle : (2 : ℚ) ^ (127 : ℤ) ≤ q := by
        refine le_trans ?_ h
        have : (2 : ℚ) ^ (103 : ℤ) ≤ 2 ^ (127 : ℤ) := two_zpow_le.mpr (by norm_num)
        have : (2 : ℚ) ^ (128 : ℤ) = 2 * 2 ^ (127 : ℤ) := by
          rw [show (128 : ℤ) = 127 + 1 by norm_num, zpow_add_one₀ (by norm_num)]; ring
        linarith
      have p127 := two_zpow_pos 127
      rw [Int.cast_one, one_mul] at hn
      generalize (2 : ℚ) ^ (127 : ℤ) = C at *
      rw [abs_of_nonpos (by linarith : C - q ≤ 0)] at hn
      have := (abs_le.mp hn).1
      linarith
    -- below 2^128 the largest representable number is (2^24 - 1) * 2^104
    have hmax : roundTo 24 (-149) q ≤ ((2 ^ 24 - 1 : ℤ) : ℚ) * 2 ^ (104 : ℤ) := by
      obtain ⟨U, N, _, h2, _, h4, _, h6⟩ := magnitude32_parts hpos.ne' ⟨hrep, by rw [abs_of_pos hpos]; exact hc⟩
      rw [abs_of_pos hpos] at h6
      rw [h6]
      have a1 : (N : ℚ) ≤ ((2 ^ 24 - 1 : ℤ) : ℚ) := by
        have : (N : ℤ) ≤ 2 ^ 24 - 1 := by omega
        exact_mod_cast this
      have a2 : (2 : ℚ) ^ ((U : ℤ) - 149) ≤ 2 ^ (104 : ℤ) := two_zpow_le.mpr (by omega)
      exact mul_le_mul a1 a2 (two_zpow_pos _).le (by norm_num)
    have hw : ((2 ^ 24 - 1 : ℤ) : ℚ) * (2 : ℚ) ^ (104 : ℤ) = (2 : ℚ) ^ (128 : ℤ) - 2 * 2 ^ (103 : ℤ) := by
      rw [e128, e104]; push_cast; ring
    have rep128 : Representable 24 (-149) ((2 : ℚ) ^ (128 : ℤ)) := ⟨1, 128, by simp, by norm_num, by norm_num⟩
    have hn := roundTo_nearest (p := 24) (by norm_num) (emin := -149) q rep128
    have htie := roundTo_tie (p := 24) (by norm_num) (emin := -149) hq rep128
    have hreq := roundTo_eq 24 (-149) hq
    rw [hw] at hmax
    have key : q = (2 : ℚ) ^ (128 : ℤ) - 2 ^ (103 : ℤ) ∧
        roundTo 24 (-149) q = (2 : ℚ) ^ (128 : ℤ) - 2 * 2 ^ (103 : ℤ) := by
      clear hw e104 e128 htie rep128 hreq
      generalize (2 : ℚ) ^ (128 : ℤ) = A at *
      generalize (2 : ℚ) ^ (103 : ℤ) = B at *
      rw [abs_of_nonpos (by linarith : roundTo 24 (-149) q - q ≤ 0)] at hn
      rcases le_abs.mp hn with hn | hn
      · constructor <;> linarith
      · exfalso; linarith
    have hev := htie (by rw [key.2]; intro h'; linarith) (by
      rw [key.2, key.1]
      have a1 : (2 : ℚ) ^ (128 : ℤ) - (2 ^ (128 : ℤ) - 2 ^ (103 : ℤ)) = 2 ^ (103 : ℤ) := by ring
      have a2 : (2 : ℚ) ^ (128 : ℤ) - 2 * 2 ^ (103 : ℤ) - (2 ^ (128 : ℤ) - 2 ^ (103 : ℤ)) = -2 ^ (103 : ℤ) := by ring
      rw [a1, a2, abs_neg])
    have hfe : frexpExp q = 128 := by
      apply frexpExp_unique
      · rw [abs_of_pos h0, key.1]
        have : (2 : ℚ) ^ (103 : ℤ) ≤ 2 ^ (127 : ℤ) := two_zpow_le.mpr (by norm_num)
        have e : (2 : ℚ) ^ (128 : ℤ) = 2 * 2 ^ (127 : ℤ) := by
          rw [show (128 : ℤ) = 127 + 1 by norm_num, zpow_add_one₀ (by norm_num)]; ring
        rw [show (128 : ℤ) - 1 = 127 by norm_num]
        linarith
      · rw [abs_of_pos h0, key.1]; linarith
    have hqu : quantum 24 (-149) q = 104 := by unfold quantum; rw [hfe]; norm_num
    rw [hqu] at hev hreq
    rw [key.2, ← hw] at hreq
    have := mul_right_cancel₀ (two_zpow_pos 104).ne' hreq
    have h9 : (2 ^ 24 - 1 : ℤ) = roundHalfEven (q / 2 ^ (104 : ℤ)) := by exact_mod_cast this
    rw [← h9] at hev
    omega

/-- Rounding overflows from halfway beyond the largest binary32 number on. -/
theorem round32_overflow (q : ℚ) :
    (2 : ℚ) ^ (128 : ℤ) ≤ |round32 q| ↔ (2 : ℚ) ^ (128 : ℤ) - 2 ^ (103 : ℤ) ≤ |q| := by
  have hpos : (0 : ℚ) < (2 : ℚ) ^ (128 : ℤ) - 2 ^ (103 : ℤ) := sub_pos.mpr (two_zpow_lt.mpr (by norm_num))
  rcases lt_trichotomy q 0 with h | h | h
  · have hs := (roundTo_sign 24 (-149) q).2 h.le
    have := overflow_pos (-q) (by linarith)
    rw [round32, roundTo_neg] at this
    rw [abs_of_nonpos hs, abs_of_neg h]
    exact this
  · subst h
    rw [round32_zero, abs_zero]
    have := two_zpow_pos 128
    constructor <;> intro h' <;> linarith
  · have hs := (roundTo_sign 24 (-149) q).1 h.le
    rw [abs_of_nonneg hs, abs_of_pos h]
    exact overflow_pos q h

/-- Rounding is monotone. -/
theorem roundTo_mono {p : ℕ} (hp : 1 ≤ p) (emin : ℤ) {x y : ℚ} (h : x ≤ y) : roundTo p emin x ≤ roundTo p emin y := by
  by_contra hlt
  push Not at hlt
  have h1 := roundTo_nearest hp x (roundTo_representable hp emin y)
  have h2 := roundTo_nearest hp y (roundTo_representable hp emin x)
  rcases lt_or_eq_of_le h with h | h
  · have h3 := sq_le_sq.mpr h1
    have h4 := sq_le_sq.mpr h2
    generalize roundTo p emin x = a at *
    generalize roundTo p emin y = b at *
    have h5 : a + b ≤ 2 * x := by
      by_contra hc
      push Not at hc
      nlinarith [mul_pos (sub_pos.mpr hlt) (sub_pos.mpr hc)]
    have h6 : 2 * y ≤ a + b := by
      by_contra hc
      push Not at hc
      nlinarith [mul_pos (sub_pos.mpr hlt) (sub_pos.mpr hc)]
    linarith
  · rw [h] at hlt; exact lt_irrefl _ hlt

end Segpy
