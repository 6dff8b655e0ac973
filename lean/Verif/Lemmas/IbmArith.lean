import Verif.Lemmas.Float32
import Verif.Spec.IbmArith
import Verif.Model.IbmArith

/-! # Lemmas about correctly rounded float arithmetic -/

namespace Segpy

open Spec

theorem nearestDouble_round64 (q : ℚ) : NearestDouble q (round64 q) where
  double := roundTo_representable (by norm_num) _ q
  nearest := fun _ hw => roundTo_nearest (by norm_num) q hw
  even := by
    intro w hw hne h
    by_cases hq : q = 0
    · subst hq
      rw [round64_zero']
      exact representable_zero _ _
    · have he := roundTo_tie (by norm_num) hq hw hne h
      have hb := roundInt_abs_le 53 (-1074) hq
      rw [round64, roundTo_eq 53 (-1074) hq]
      set k := roundHalfEven (q / 2 ^ quantum 53 (-1074) q) with hk
      obtain ⟨j, hj⟩ : ∃ j, k = 2 * j := ⟨k / 2, by omega⟩
      have h1 : (k : ℚ) * 2 ^ quantum 53 (-1074) q = (j : ℚ) * 2 ^ (quantum 53 (-1074) q + 1) := by
        rw [zpow_add_one₀ (by norm_num), hj]; push_cast; ring
      rw [h1]
      refine representable_of_le (by norm_num) ?_ ?_
      · rw [hj, abs_mul] at hb
        have : |(2 : ℤ)| = 2 := rfl
        rw [this] at hb
        norm_num at hb ⊢
        omega
      · have : -1074 ≤ quantum 53 (-1074) q := le_max_right _ _
        omega
where round64_zero' : round64 0 = 0 := by simp [round64, roundTo]

theorem isRounded_ofRat (q : ℚ) : IsRounded q (PyFloat.ofRat q) := by
  have hs := roundTo_sign 53 (-1074) q
  unfold PyFloat.ofRat
  simp only
  split
  · rename_i h
    exact ⟨Or.inl ⟨_, rfl, _, nearestDouble_round64 q, h⟩, fun _ => decide_eq_true_iff⟩
  · rename_i h
    split
    · rename_i h0
      refine ⟨Or.inr ⟨rfl, ?_, ?_⟩, fun _ => ⟨fun _ => h0.2, fun _ => rfl⟩⟩
      · show NearestDouble q 0
        rw [← h0.1]
        exact nearestDouble_round64 q
      · show |(0 : ℚ)| < _
        rw [abs_zero]; exact two_zpow_pos _
    · rename_i h0
      refine ⟨Or.inr ⟨rfl, nearestDouble_round64 q, not_le.mp h⟩, fun hq => ?_⟩
      show decide (round64 q < 0) = true ↔ _
      rw [decide_eq_true_iff]
      constructor
      · intro h1
        by_contra hc
        exact absurd (hs.1 (not_lt.mp hc)) (not_le.mpr h1)
      · intro h1
        rcases lt_or_eq_of_le (hs.2 h1.le) with h2 | h2
        · exact h2
        · exact absurd ⟨h2, h1⟩ h0

theorem isRounded_zero (s : Bool) : IsRounded 0 (PyFloat.zero s) := by
  refine ⟨Or.inr ⟨by cases s <;> rfl, ?_, ?_⟩, fun h => absurd rfl h⟩
  · rw [val_zero]
    have := nearestDouble_round64 0
    rwa [show round64 0 = 0 by simp [round64, roundTo]] at this
  · rw [val_zero, abs_zero]; exact two_zpow_pos _

theorem isRounded_ite {q : ℚ} {s : Bool} : IsRounded q (if q = 0 then PyFloat.zero s else PyFloat.ofRat q) := by
  split
  · rename_i h; rw [h]; exact isRounded_zero s
  · exact isRounded_ofRat q

theorem add_rounded {f g : PyFloat} (hf : f.isFinite = true) (hg : g.isFinite = true) :
    IsRounded (f.val + g.val) (f.add g) := by
  cases f <;> cases g <;> first | (simp [PyFloat.isFinite] at hf hg; done) | exact isRounded_ite

theorem mul_rounded {f g : PyFloat} (hf : f.isFinite = true) (hg : g.isFinite = true) :
    IsRounded (f.val * g.val) (f.mul g) := by
  cases f <;> cases g <;> first | (simp [PyFloat.isFinite] at hf hg; done) | exact isRounded_ite

theorem neg_finite {f : PyFloat} (hf : f.isFinite = true) : f.neg.isFinite = true ∧ f.neg.val = -f.val := by
  cases f with
  | fin q =>
    unfold PyFloat.neg
    simp only
    split
    · rename_i h; subst h; exact ⟨rfl, by simp [PyFloat.val]⟩
    · exact ⟨rfl, rfl⟩
  | negZero => exact ⟨rfl, by simp [PyFloat.neg, PyFloat.val]⟩
  | inf s => simp [PyFloat.isFinite] at hf
  | nan => simp [PyFloat.isFinite] at hf

theorem sub_rounded {f g : PyFloat} (hf : f.isFinite = true) (hg : g.isFinite = true) :
    IsRounded (f.val - g.val) (f.sub g) := by
  have hn := neg_finite hg
  have := add_rounded hf hn.1
  rw [hn.2, ← sub_eq_add_neg] at this
  exact this

theorem div_rounded {f g : PyFloat} (hf : f.isFinite = true) (hg : g.isFinite = true) (h0 : g.val ≠ 0) :
    ∃ r, f.div g = .ok r ∧ IsRounded (f.val / g.val) r := by
  have hc : ¬ (g.isFinite && decide (g.val = 0)) = true := by simp [h0]
  unfold PyFloat.div
  dsimp only
  rw [if_neg hc]
  cases f <;> cases g <;>
    first
    | (simp [PyFloat.isFinite] at hf hg; done)
    | exact ⟨_, rfl, isRounded_ite⟩

theorem div_by_zero {f g : PyFloat} (hg : g.isFinite = true) (h0 : g.val = 0) : f.div g = .error .zeroDivisionError := by
  unfold PyFloat.div
  dsimp only
  rw [if_pos (by simp [hg, h0])]

theorem toFloat_finite (x : IBMFloat) : x.toFloat.isFinite = true ∧ x.toFloat.val = x.value := by
  rw [IBMFloat.toFloat_eq]; exact ⟨rfl, rfl⟩

/-- `from_float_without_underflow` of any float. -/
theorem withoutUnderflow_any (g : PyFloat) :
    (g.isFinite = true ∧ |g.val| ≤ ibmMax ∧ ∃ y, IBMFloat.fromFloatWithoutUnderflow g = .ok y ∧ IsTruncation g.val y.value) ∨
    (g.isFinite = true ∧ ibmMax < |g.val| ∧ IBMFloat.fromFloatWithoutUnderflow g = .error .overflowError) ∨
    (g.isFinite = false ∧ IBMFloat.fromFloatWithoutUnderflow g = .error .valueError) := by
  cases g with
  | fin q =>
    have h := IBMFloat.withoutUnderflow_fin q
    split at h
    · rename_i hc; exact Or.inr (Or.inl ⟨rfl, hc, h⟩)
    · rename_i hc; exact Or.inl ⟨rfl, not_lt.mp hc, h⟩
  | negZero =>
    have hpos : (0 : ℚ) < ibmMax := by unfold ibmMax; norm_num
    refine Or.inl ⟨rfl, by simpa [PyFloat.val] using hpos.le, IBMFloat.zero, rfl, ?_⟩
    rw [IBMFloat.zero_value]
    exact IBMFloat.isTruncation_zero_of_tiny (by simp [PyFloat.val]; unfold ibmTiny; norm_num)
  | inf s => exact Or.inr (Or.inr ⟨rfl, rfl⟩)
  | nan => exact Or.inr (Or.inr ⟨rfl, rfl⟩)

theorem givesIbm_of {q : ℚ} {g : PyFloat} (hg : IsRounded q g) :
    GivesIbm q (do return PyNum.ibm (← IBMFloat.fromFloatWithoutUnderflow g)) := by
  refine ⟨g, hg, ?_⟩
  rcases withoutUnderflow_any g with ⟨h1, h2, y, h3, h4⟩ | ⟨h1, h2, h3⟩ | ⟨h1, h3⟩
  · exact Or.inl ⟨h1, h2, y, by rw [h3]; rfl, h4⟩
  · exact Or.inr (Or.inl ⟨h1, h2, by rw [h3]; rfl⟩)
  · exact Or.inr (Or.inr ⟨h1, by rw [h3]; rfl⟩)

/-- `float(n)` for an int of at most 53 bits. -/
theorem ofInt_53 {n : Int} (h : |n| ≤ 2 ^ 53) : PyFloat.ofInt n = .ok (.fin n) := by
  have hr : round64 (n : ℚ) = n := by
    have := representable_of_le (p := 53) (by norm_num) (emin := -1074) (m := n) (u := 0) h (by norm_num)
    rw [zpow_zero, mul_one] at this
    exact roundTo_of_representable this
  have hb : |(n : ℚ)| ≤ 2 ^ 53 := by
    rw [← Int.cast_abs]
    exact_mod_cast h
  unfold PyFloat.ofInt PyFloat.ofRat
  rw [hr]
  simp only
  rw [if_neg (by
    have : (2 : ℚ) ^ 53 < 2 ^ (1024 : Int) := by
      rw [← zpow_natCast]
      exact zpow_lt_zpow_right₀ (by norm_num) (by norm_num)
    exact not_le.mpr (lt_of_le_of_lt hb this)), if_neg]
  rintro ⟨h1, h2⟩
  rw [h1] at h2
  exact lt_irrefl _ h2

theorem operand_float {v : PyNum} {q : ℚ} (h : OperandValue v q) :
    ∃ f, floatOfNum v = .ok f ∧ f.isFinite = true ∧ f.val = q := by
  cases v with
  | int n =>
    obtain ⟨h1, rfl⟩ := h
    exact ⟨.fin n, ofInt_53 h1, rfl, rfl⟩
  | float f => exact ⟨f, rfl, h.1, h.2⟩
  | ibm x => exact h.elim

theorem wrap_operand {v : PyNum} {q : ℚ} (h : OperandValue v q) (p : PyFloat) :
    IBMFloat.wrap v p = .ok (.float p) := by
  cases v with
  | ibm x => exact h.elim
  | int n => rfl
  | float f => rfl

/-- An exact result that is a double is not rounded. -/
theorem isRounded_exact {q : ℚ} {f : PyFloat} (h : IsRounded q f) (hq : IsDouble q) (hb : |q| < (2 : ℚ) ^ (1024 : Int)) :
    f.isFinite = true ∧ f.val = q := by
  have key : ∀ r, NearestDouble q r → r = q := by
    intro r hr
    have := hr.nearest q hq
    rw [sub_self, abs_zero] at this
    exact sub_eq_zero.mp (abs_eq_zero.mp (le_antisymm this (abs_nonneg _)))
  rcases h.1 with ⟨neg, -, r, h1, h2⟩ | ⟨h1, h2, -⟩
  · rw [key r h1] at h2
    exact absurd hb (not_lt.mpr h2)
  · exact ⟨h1, key _ h2⟩

theorem value_isDouble (x : IBMFloat) : IsDouble x.value := by
  have hr := IBMFloat.exp16_range x
  exact ⟨_, _, IBMFloat.value_dyadic x, (IBMFloat.value_dyadic_abs x).trans (by norm_num), by omega⟩

theorem round64_value (x : IBMFloat) : round64 x.value = x.value := roundTo_of_representable (value_isDouble x)

/-- The value as a multiple of the unit of a smaller exponent. -/
theorem value_multiple (x : IBMFloat) (E : Int) (d : Nat) (h1 : E ≤ x.exp16) (h2 : x.exp16 ≤ E + d) :
    ∃ m : Int, x.value = m * (2 : ℚ) ^ (4 * E - 24) ∧ |m| ≤ 2 ^ 24 * 16 ^ d := by
  obtain ⟨n, hn⟩ : ∃ n : ℕ, x.exp16 = E + n := ⟨(x.exp16 - E).toNat, by omega⟩
  have hnd : n ≤ d := by omega
  refine ⟨((if x.signbit then -1 else 1) * (x.intMantissa : ℤ)) * 16 ^ n, ?_, ?_⟩
  · rw [IBMFloat.value_dyadic x, hn]
    have e : (2 : ℚ) ^ (4 * (E + n) - 24) = 2 ^ (4 * E - 24) * 16 ^ n := by
      have : 4 * (E + n) - 24 = (4 * E - 24) + 4 * (n : ℤ) := by ring
      rw [this, zpow_add₀ (by norm_num), zpow_mul, zpow_natCast]
      norm_num
    rw [e]
    push_cast
    ring
  · have a := IBMFloat.value_dyadic_abs x
    have hp : (16 : ℤ) ^ n ≤ 16 ^ d := pow_le_pow_right₀ (by norm_num) hnd
    have hp0 : (0 : ℤ) < 16 ^ n := by positivity
    rw [abs_mul, abs_of_pos hp0]
    exact mul_le_mul a.le hp hp0.le (by norm_num)

theorem sumStep_float (f : PyFloat) (x : IBMFloat) : IBMFloat.sumStep (.float f) x = .ok (.float (f.add x.toFloat)) := rfl

theorem sumStep_start (x : IBMFloat) : IBMFloat.sumStep (.int 0) x = IBMFloat.sumStep (.float (.fin 0)) x := by
  have : floatOfNum (.int 0) = .ok (.fin 0) := ofInt_53 (n := 0) (by norm_num)
  unfold IBMFloat.sumStep IBMFloat.raddNum
  dsimp only
  rw [this]
  rfl

theorem sum_exact_aux {u : Int} {B : Int} (hu : -1074 ≤ u) (hu2 : u ≤ 900) : ∀ (xs : List IBMFloat) (f : PyFloat) (k : Int),
    f.isFinite = true → f.val = k * (2 : ℚ) ^ u → |k| + xs.length * B ≤ 2 ^ 53 →
    (∀ x ∈ xs, ∃ m : Int, x.value = m * (2 : ℚ) ^ u ∧ |m| ≤ B) → 0 ≤ B →
    ∃ g, xs.foldlM IBMFloat.sumStep (.float f) = .ok (.float g) ∧ g.isFinite = true ∧
      g.val = f.val + (xs.map IBMFloat.value).sum
  | [], f, k, hf, hv, _, _, _ => ⟨f, rfl, hf, by simp⟩
  | x :: xs, f, k, hf, hv, hb, hx, hB => by
    obtain ⟨m, hm, hmB⟩ := hx x List.mem_cons_self
    obtain ⟨t1, t2⟩ := toFloat_finite x
    have hsum := add_rounded hf t1
    rw [t2, hv, hm, ← add_mul, ← Int.cast_add] at hsum
    have hlen : ((x :: xs).length : Int) = xs.length + 1 := by simp
    rw [hlen] at hb
    have hkm : |k + m| + xs.length * B ≤ 2 ^ 53 := by
      have := abs_add_le k m
      nlinarith
    have hkm' : |k + m| ≤ 2 ^ 53 := by
      have : 0 ≤ (xs.length : Int) * B := by positivity
      linarith
    have hd : IsDouble (((k + m : Int) : ℚ) * 2 ^ u) := representable_of_le (by norm_num) hkm' hu
    have hlt : |((k + m : Int) : ℚ) * 2 ^ u| < (2 : ℚ) ^ (1024 : Int) := by
      rw [abs_mul, abs_of_pos (two_zpow_pos u), ← Int.cast_abs]
      have h1 : ((|k + m| : Int) : ℚ) ≤ (2 : ℚ) ^ (53 : Int) := by
        have : ((|k + m| : Int) : ℚ) ≤ ((2 ^ 53 : Int) : ℚ) := by exact_mod_cast hkm'
        refine this.trans (le_of_eq ?_)
        norm_cast
      calc ((|k + m| : Int) : ℚ) * 2 ^ u ≤ (2 : ℚ) ^ (53 : Int) * 2 ^ (900 : Int) :=
            mul_le_mul h1 (two_zpow_le.mpr hu2) (two_zpow_pos _).le (two_zpow_pos _).le
        _ = 2 ^ (953 : Int) := by rw [← zpow_add₀ (by norm_num)]; norm_num
        _ < 2 ^ (1024 : Int) := two_zpow_lt.mpr (by norm_num)
    obtain ⟨e1, e2⟩ := isRounded_exact hsum hd hlt
    obtain ⟨g, g1, g2, g3⟩ := sum_exact_aux hu hu2 xs _ (k + m) e1 e2 hkm
      (fun y hy => hx y (List.mem_cons_of_mem _ hy)) hB
    refine ⟨g, ?_, g2, ?_⟩
    · rw [List.foldlM_cons, sumStep_float]
      exact g1
    · rw [g3, e2, hv, List.map_cons, List.sum_cons, hm]
      push_cast
      ring

end Segpy
