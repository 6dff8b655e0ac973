import Verif.Py.Float

/-! # Lemmas about the float model -/

namespace Segpy

theorem two_zpow_pos (k : ℤ) : (0 : ℚ) < 2 ^ k := by positivity

theorem two_zpow_le {a b : ℤ} : (2 : ℚ) ^ a ≤ 2 ^ b ↔ a ≤ b :=
  zpow_le_zpow_iff_right₀ (by norm_num)

theorem two_zpow_lt {a b : ℤ} : (2 : ℚ) ^ a < 2 ^ b ↔ a < b :=
  zpow_lt_zpow_iff_right₀ (by norm_num)

theorem abs_eq_num_div_den (q : ℚ) : |q| = (q.num.natAbs : ℚ) / (q.den : ℚ) := by
  have hq : q = (q.num : ℚ) / (q.den : ℚ) := (Rat.num_div_den q).symm
  conv_lhs => rw [hq]
  rw [abs_div]
  have : |(q.num : ℚ)| = (q.num.natAbs : ℚ) := by
    rw [← Int.cast_abs, Int.abs_eq_natAbs]; simp
  rw [this]; simp

theorem frexpExp_spec {q : ℚ} (hq : q ≠ 0) :
    (2 : ℚ) ^ (frexpExp q - 1) ≤ |q| ∧ |q| < (2 : ℚ) ^ (frexpExp q) := by
  have hn : q.num.natAbs ≠ 0 := by simpa using hq
  have hd : q.den ≠ 0 := q.den_nz
  have n1 : 2 ^ (Nat.log2 q.num.natAbs) ≤ q.num.natAbs := Nat.log2_self_le hn
  have n2 : q.num.natAbs < 2 ^ (Nat.log2 q.num.natAbs + 1) := Nat.lt_log2_self
  have d1 : 2 ^ (Nat.log2 q.den) ≤ q.den := Nat.log2_self_le hd
  have d2 : q.den < 2 ^ (Nat.log2 q.den + 1) := Nat.lt_log2_self
  generalize hN : Nat.log2 q.num.natAbs = N at *
  generalize hD : Nat.log2 q.den = D at *
  have habs := abs_eq_num_div_den q
  have hdpos : (0 : ℚ) < (q.den : ℚ) := by exact_mod_cast Nat.pos_of_ne_zero hd
  have n1' : (2 : ℚ) ^ N ≤ (q.num.natAbs : ℚ) := by exact_mod_cast n1
  have n2' : (q.num.natAbs : ℚ) < 2 ^ (N + 1) := by exact_mod_cast n2
  have d1' : (2 : ℚ) ^ D ≤ (q.den : ℚ) := by exact_mod_cast d1
  have d2' : (q.den : ℚ) < 2 ^ (D + 1) := by exact_mod_cast d2
  have key : ∀ a b : ℕ, (2 : ℚ) ^ ((a : ℤ) - (b : ℤ)) = 2 ^ a / 2 ^ b := by
    intro a b; rw [zpow_sub₀ (by norm_num)]; simp
  have lo : (2 : ℚ) ^ ((N : ℤ) - D - 1) ≤ |q| := by
    have : ((N : ℤ) - D - 1) = (N : ℤ) - ((D + 1 : ℕ) : ℤ) := by push_cast; ring
    rw [this, key, habs, div_le_div_iff₀ (by positivity) hdpos]
    have := mul_le_mul n1' d2'.le (by positivity) (by positivity)
    linarith
  have hi : |q| < (2 : ℚ) ^ ((N : ℤ) - D + 1) := by
    have : ((N : ℤ) - D + 1) = ((N + 1 : ℕ) : ℤ) - (D : ℤ) := by push_cast; ring
    rw [this, key, habs, div_lt_div_iff₀ hdpos (by positivity)]
    calc (q.num.natAbs : ℚ) * 2 ^ D ≤ (q.num.natAbs : ℚ) * q.den := by gcongr
      _ < 2 ^ (N + 1) * q.den := by gcongr
  unfold frexpExp
  simp only [hN, hD]
  split
  · rename_i h
    refine ⟨?_, hi⟩
    rwa [add_sub_cancel_right]
  · rename_i h
    exact ⟨lo, not_le.mp h⟩

theorem frexpExp_unique {q : ℚ} {e : ℤ} (h1 : (2 : ℚ) ^ (e - 1) ≤ |q|) (h2 : |q| < (2 : ℚ) ^ e) :
    frexpExp q = e := by
  have hq : q ≠ 0 := by
    rintro rfl
    rw [abs_zero] at h1
    exact absurd h1 (not_le.mpr (two_zpow_pos _))
  obtain ⟨g1, g2⟩ := frexpExp_spec hq
  have a1 := two_zpow_lt.mp (lt_of_le_of_lt g1 h2)
  have a2 := two_zpow_lt.mp (lt_of_le_of_lt h1 g2)
  omega

theorem roundHalfEven_int (n : ℤ) : roundHalfEven (n : ℚ) = n := by
  unfold roundHalfEven
  have : (n : ℚ).floor = n := Int.floor_intCast (R := ℚ) n
  simp [this]

theorem roundHalfEven_close (x : ℚ) : |(roundHalfEven x : ℚ) - x| ≤ 1 / 2 := by
  have h1 : ((x.floor : ℤ) : ℚ) ≤ x := Int.floor_le x
  have h2 : x < (x.floor : ℤ) + 1 := Int.lt_floor_add_one x
  unfold roundHalfEven
  simp only
  rw [abs_le]
  split_ifs <;> push_cast <;> constructor <;> linarith

/-- Numbers with at most `p` significant bits and a quantum no finer than `2^emin` are fixed by rounding. -/
theorem roundTo_exact {p : ℕ} {emin : ℤ} {q : ℚ} (m u : ℤ) (hq : q = m * (2 : ℚ) ^ u)
    (hm : |m| < 2 ^ p) (hu : emin ≤ u) : roundTo p emin q = q := by
  unfold roundTo
  split
  · rename_i h; exact h.symm
  · rename_i h
    have hs := frexpExp_spec h
    simp only
    set e := frexpExp q with he
    have hle : e - p ≤ u := by
      by_contra hc
      push Not at hc
      have : |q| < (2 : ℚ) ^ ((p : ℤ) + u) := by
        rw [hq, abs_mul, abs_of_pos (two_zpow_pos u), zpow_add₀ (by norm_num), zpow_natCast]
        have : |(m : ℚ)| < 2 ^ p := by exact_mod_cast hm
        exact mul_lt_mul_of_pos_right this (two_zpow_pos u)
      have h3 := two_zpow_lt.mp (lt_of_le_of_lt hs.1 this)
      omega
    set w := max (e - (p : ℤ)) emin with hw
    have hwu : w ≤ u := max_le hle hu
    have : q / (2 : ℚ) ^ w = ((m * 2 ^ (u - w).toNat : ℤ) : ℚ) := by
      rw [hq, div_eq_iff (two_zpow_pos w).ne']
      push_cast
      rw [mul_assoc]
      congr 1
      rw [← zpow_natCast, ← zpow_add₀ (by norm_num)]
      congr 1
      have : ((u - w).toNat : ℤ) = u - w := Int.toNat_of_nonneg (by omega)
      omega
    rw [this, roundHalfEven_int, ← this]
    field_simp

/-- Exact results are not rounded. -/
theorem ofRat_exact {q : ℚ} (m u : ℤ) (hq : q = m * (2 : ℚ) ^ u)
    (hm : |m| < 2 ^ 53) (hu : -1074 ≤ u) (hb : |q| < (2 : ℚ) ^ (1024 : ℤ)) :
    PyFloat.ofRat q = .fin q := by
  unfold PyFloat.ofRat
  have := roundTo_exact m u hq hm hu
  simp only [round64, this]
  rw [if_neg (not_le.mpr hb), if_neg]
  rintro ⟨h, h'⟩
  simp [h] at h'

theorem mul_fin {a b : ℚ} (h : a * b ≠ 0) :
    (PyFloat.fin a).mul (.fin b) = PyFloat.ofRat (a * b) := by
  unfold PyFloat.mul
  exact if_neg h

theorem mul_fin_zero {a b : ℚ} (h : a * b = 0) :
    (PyFloat.fin a).mul (.fin b)
      = PyFloat.zero ((PyFloat.fin a).signbit != (PyFloat.fin b).signbit) := by
  unfold PyFloat.mul
  exact if_pos h

theorem add_fin_zero {a b : ℚ} (h : a + b = 0) :
    (PyFloat.fin a).add (.fin b)
      = PyFloat.zero ((PyFloat.fin a).signbit && (PyFloat.fin b).signbit) := by
  unfold PyFloat.add
  exact if_pos h

theorem val_zero (s : Bool) : (PyFloat.zero s).val = 0 := by cases s <;> rfl

theorem add_fin {a b : ℚ} (h : a + b ≠ 0) :
    (PyFloat.fin a).add (.fin b) = PyFloat.ofRat (a + b) := by
  unfold PyFloat.add
  exact if_neg h

end Segpy
