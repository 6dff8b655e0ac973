import Verif.Lemmas.IbmPow

/-! # Properties of powers of IBM floats: C105 -/

namespace Segpy.Props

open Segpy.Spec

/-! ## C105 powers -/

/-- The power 0 is 1, whatever the base, and of the type of the exponent. -/
theorem C105_zero (L : Libm) (x : IBMFloat) :
    (∀ y : IBMFloat, y.value = 0 → ∃ r : IBMFloat, x.pow L (.ibm y) = .ok (.num (.ibm r)) ∧ r.value = 1) ∧
    x.pow L (.int 0) = .ok (.num (.float (.fin 1))) ∧
    (∀ f : PyFloat, f.isFinite = true → f.val = 0 → x.pow L (.float f) = .ok (.num (.float (.fin 1)))) := by
  have h0 : ∀ v w : PyFloat, w.isFinite = true → w.val = 0 → floatPow L v w = .ok (.real (.fin 1)) := by
    intro v w h1 h2; unfold floatPow; simp [h1, h2]
  refine ⟨fun y hy => ?_, ?_, fun f h1 h2 => ?_⟩
  · rw [pow_ibm_real L x y (h0 _ _ rfl hy)]
    obtain ⟨z, h1, h2⟩ := withoutUnderflow_value ⟨0x41, 0x10, 0, 0⟩
    have e : (⟨0x41, 0x10, 0, 0⟩ : IBMFloat).value = 1 := by decide +kernel
    rw [e] at h1 h2
    exact ⟨z, by rw [h1]; rfl, h2⟩
  · have hf : floatOfNum (.int 0) = .ok (.fin 0) := by decide +kernel
    have hp := h0 x.toFloat (.fin 0) rfl rfl
    unfold IBMFloat.pow
    rw [hf]
    change (floatPow L x.toFloat (.fin 0) >>= fun _ => _) = _
    rw [hp]; rfl
  · unfold IBMFloat.pow
    show (floatPow L x.toFloat f >>= _) = _
    rw [h0 _ _ h1 h2]; rfl

/-- A power of zero: zero if the exponent is positive, `ZeroDivisionError` if it is negative. -/
theorem C105_base_zero (L : Libm) (x y : IBMFloat) (hx : x.value = 0) :
    (0 < y.value → ∃ r : IBMFloat, x.pow L (.ibm y) = .ok (.num (.ibm r)) ∧ r.value = 0) ∧
    (y.value < 0 → x.pow L (.ibm y) = .error .zeroDivisionError) := by
  refine ⟨fun h => ?_, fun h => ?_⟩
  · have hp : floatPow L (.fin x.value) (.fin y.value) = .ok (.real (.fin 0)) := by
      rw [hx]; unfold floatPow
      simp [PyFloat.isFinite, PyFloat.val, h.ne', not_lt.2 h.le]
      exact ite_self _
    rw [pow_ibm_real L x y hp]
    exact ⟨IBMFloat.zero, by decide +kernel, by decide +kernel⟩
  · refine pow_ibm_error L x y ?_
    rw [hx]; unfold floatPow
    simp [PyFloat.isFinite, PyFloat.val, h.ne, h]

/-- An integral power of a number other than zero, as an `IBMFloat`: given an accurate C library it is the exact power if
that is an IBM float, and otherwise one of the two IBM floats around it.  A power beyond the largest IBM float gives
`OverflowError` or the largest IBM float. -/
theorem C105_integer (L : Libm) (hL : AccuratePow L) (x y : IBMFloat) (n : Int) (hx : x.value ≠ 0) (hy : y.value = n) :
    (|x.value ^ n| ≤ ibmMax → ∃ r : IBMFloat, x.pow L (.ibm y) = .ok (.num (.ibm r)) ∧
      NextTo IbmRepresentable (x.value ^ n) r.value) ∧
    (ibmMax < |x.value ^ n| → x.pow L (.ibm y) = .error .overflowError ∨
      ∃ r : IBMFloat, x.pow L (.ibm y) = .ok (.num (.ibm r)) ∧ |r.value| = ibmMax ∧ 0 < r.value * x.value ^ n) := by
  have hmax : (1 : ℚ) ≤ ibmMax := by unfold ibmMax; norm_num
  have hmax' : ibmMax < (2 : ℚ) ^ (1023 : Int) := by
    have : ibmMax < (2 : ℚ) ^ (253 : Int) := by decide +kernel
    exact this.trans (zpow_lt_zpow_right₀ (by norm_num) (by norm_num))
  have hex : ∀ (s : ℚ), IbmRepresentable s → floatPow L (.fin x.value) (.fin y.value) = .ok (.real (.fin s)) →
      ∃ r : IBMFloat, x.pow L (.ibm y) = .ok (.num (.ibm r)) ∧ r.value = s := by
    intro s hs hp
    obtain ⟨z, rfl⟩ := IBMFloat.representable_iff.1 hs
    obtain ⟨r, h1, h2⟩ := withoutUnderflow_value z
    exact ⟨r, by rw [pow_ibm_real L x y hp, h1]; rfl, h2⟩
  have one : IbmRepresentable 1 := ⟨0x41, 0x10, 0, 0, by decide +kernel⟩
  by_cases hn : n = 0
  · subst hn
    have hp : floatPow L (.fin x.value) (.fin y.value) = .ok (.real (.fin 1)) := by
      unfold floatPow; simp [PyFloat.isFinite, PyFloat.val, hy]
    obtain ⟨r, h1, h2⟩ := hex 1 one hp
    rw [zpow_zero, abs_one]
    exact ⟨fun _ => ⟨r, h1, by rw [h2]; exact fun w _ => ⟨id, id⟩⟩, fun h => absurd h (not_lt.2 hmax)⟩
  have hp := floatPow_integer L hx hn
  have hs := signed_power x.value n
  rw [← hy] at hp
  have ha : 0 < |x.value| := abs_pos.2 hx
  by_cases h1 : |x.value| = 1
  · rw [if_pos h1] at hp
    rw [h1, one_zpow] at hs
    rw [hy] at hp
    rw [← hs] at hp
    have hr : IbmRepresentable (x.value ^ n) := by
      rw [hs]; split
      · exact ibmRepresentable_neg one
      · exact one
    obtain ⟨r, e1, e2⟩ := hex _ hr (by rw [hy]; exact hp)
    have hab : |x.value ^ n| = 1 := by rw [abs_zpow, h1, one_zpow]
    exact ⟨fun _ => ⟨r, e1, by rw [e2]; exact fun w _ => ⟨id, id⟩⟩, fun h => absurd h (by rw [hab]; exact not_lt.2 hmax)⟩
  rw [if_neg h1, hy] at hp
  have hv : 0 < |x.value| ^ n := zpow_pos ha n
  have hab : |x.value ^ n| = |x.value| ^ n := abs_zpow _ _
  rw [hab]
  rcases hL |x.value| n ha h1 hn with ⟨g, hg, hnext⟩ | ⟨hbig, hg⟩
  · rw [hg] at hp
    have g0 : 0 ≤ g := (hnext 0 (representable_zero _ _)).1 hv.le
    have key : ∀ (f : PyFloat) (t : ℚ), f.isFinite = true → f.val = t → |t| = g →
        floatPow L (.fin x.value) (.fin n) = .ok (.real f) →
        (∀ r : ℚ, IsTruncation t r → NextTo IbmRepresentable (x.value ^ n) r ∧ 0 ≤ r * x.value ^ n ∧ |r| ≤ g ∧
          (ibmMax ≤ g → ibmMax ≤ |r|)) →
        (|x.value| ^ n ≤ ibmMax → ∃ r : IBMFloat, x.pow L (.ibm y) = .ok (.num (.ibm r)) ∧
          NextTo IbmRepresentable (x.value ^ n) r.value) ∧
        (ibmMax < |x.value| ^ n → x.pow L (.ibm y) = .error .overflowError ∨
          ∃ r : IBMFloat, x.pow L (.ibm y) = .ok (.num (.ibm r)) ∧ |r.value| = ibmMax ∧ 0 < r.value * x.value ^ n) := by
      intro f t hf hft ht hpow htr
      have hp' := pow_ibm_real L x y (by rw [hy]; exact hpow)
      refine ⟨fun hle => ?_, fun hlt => ?_⟩
      · have gm : g ≤ ibmMax := (hnext _ (ibmRepresentable_double ibmMax_representable)).2 hle
        rcases withoutUnderflow_any f with ⟨_, _, r, e3, e4⟩ | ⟨_, e2, _⟩ | ⟨e1, _⟩
        · rw [hft] at e4
          exact ⟨r, by rw [hp', e3]; rfl, (htr _ e4).1⟩
        · rw [hft, ht] at e2; exact absurd e2 (not_lt.2 gm)
        · rw [hf] at e1; cases e1
      · have gm : ibmMax ≤ g := (hnext _ (ibmRepresentable_double ibmMax_representable)).1 hlt.le
        rcases withoutUnderflow_any f with ⟨_, e2, r, e3, e4⟩ | ⟨_, _, e3⟩ | ⟨e1, _⟩
        · rw [hft] at e4
          rw [hft, ht] at e2
          obtain ⟨_, k2, k3, k4⟩ := htr _ e4
          have hr : |r.value| = ibmMax := le_antisymm (k3.trans e2) (k4 gm)
          refine Or.inr ⟨r, by rw [hp', e3]; rfl, hr, lt_of_le_of_ne k2 (Ne.symm (mul_ne_zero ?_ (zpow_ne_zero n hx)))⟩
          intro h0; rw [h0, abs_zero] at hr; linarith
        · exact Or.inl (by rw [hp', e3]; rfl)
        · rw [hf] at e1; cases e1
    have big : ∀ r : ℚ, IsTruncation g r → (ibmMax ≤ g → ibmMax ≤ |r|) := by
      intro r hr h
      have := hr.greatest _ ibmMax_representable
        (by rwa [abs_of_pos (by linarith : (0 : ℚ) < ibmMax), abs_of_nonneg g0])
      rwa [abs_of_pos (by linarith : (0 : ℚ) < ibmMax)] at this
    by_cases hneg : (decide (x.value < 0) && isOddInteger (n : ℚ)) = true
    · rw [if_pos hneg] at hs
      refine key (PyFloat.neg (.fin g)) (-g) ?_ ?_ (by rw [abs_neg, abs_of_nonneg g0]) ?_ ?_
      · show (if g = 0 then PyFloat.negZero else .fin (-g)).isFinite = true
        split <;> rfl
      · show (if g = 0 then PyFloat.negZero else .fin (-g)).val = -g
        split
        · rename_i h; rw [h]; rfl
        · rfl
      · rw [hp, hneg]; rfl
      · intro r hr
        have hr' := isTruncation_neg hr
        obtain ⟨k1, _, k3⟩ := nextTo_truncation hv hnext hr'
        have k := nextTo_neg k1
        rw [neg_neg, ← hs] at k
        refine ⟨k, ?_, ?_, fun h => ?_⟩
        · rw [hs]; have := mul_nonneg k3 hv.le; linarith
        · have := hr.le; rwa [abs_neg, abs_of_nonneg g0] at this
        · have := big _ hr' h; rwa [abs_neg] at this
    · rw [if_neg hneg] at hs
      refine key (.fin g) g rfl rfl (abs_of_nonneg g0) ?_ ?_
      · rw [hp, Bool.eq_false_iff.2 hneg]; rfl
      · intro r hr
        obtain ⟨k1, _, k3⟩ := nextTo_truncation hv hnext hr
        rw [hs]
        refine ⟨k1, mul_nonneg k3 hv.le, ?_, big _ hr⟩
        have := hr.le; rwa [abs_of_nonneg g0] at this
  · rw [hg] at hp
    have he := pow_ibm_error L x y (by rw [hy]; exact hp)
    exact ⟨fun h => absurd (hbig.trans h) (not_le.2 hmax'), fun _ => Or.inl he⟩

/-- A power that is itself an IBM float is found exactly; so `x ** 1` has the value of `x`. -/
theorem C105_exact (L : Libm) (hL : AccuratePow L) (x y : IBMFloat) (n : Int) (hx : x.value ≠ 0) (hy : y.value = n)
    (h : IbmRepresentable (x.value ^ n)) :
    ∃ r : IBMFloat, x.pow L (.ibm y) = .ok (.num (.ibm r)) ∧ r.value = x.value ^ n := by
  have hb : |x.value ^ n| ≤ ibmMax := by
    obtain ⟨z, hz⟩ := IBMFloat.representable_iff.1 h
    rw [← hz]; exact IBMFloat.abs_value_le_max z
  obtain ⟨r, h1, h2⟩ := (C105_integer L hL x y n hx hy).1 hb
  exact ⟨r, h1, le_antisymm ((h2 _ h).2 le_rfl) ((h2 _ h).1 le_rfl)⟩

/-- Any power of 1 is 1.  A power of another positive number, given the double that C's `pow` computes of the exact values
of base and exponent, is that double truncated to IBM precision, and zero if it is too small; beyond the largest IBM float
`OverflowError` is raised. -/
theorem C105_positive (L : Libm) (x y : IBMFloat) (hx : 0 < x.value) (hy : y.value ≠ 0) :
    (x.value = 1 → ∃ r : IBMFloat, x.pow L (.ibm y) = .ok (.num (.ibm r)) ∧ r.value = 1) ∧
    (x.value ≠ 1 →
      (∀ g, L.cpow x.value y.value = .ok (.fin g) → |g| ≤ ibmMax →
        ∃ r : IBMFloat, x.pow L (.ibm y) = .ok (.num (.ibm r)) ∧ IsTruncation g r.value) ∧
      (∀ g, L.cpow x.value y.value = .ok (.fin g) → ibmMax < |g| → x.pow L (.ibm y) = .error .overflowError) ∧
      (∀ k, L.cpow x.value y.value = .error k → x.pow L (.ibm y) = .error k)) := by
  have hp : floatPow L (.fin x.value) (.fin y.value) =
      if x.value = 1 then .ok (.real (.fin 1)) else do return .real (← L.cpow x.value y.value) := by
    have hn : decide (x.value < 0) = false := decide_eq_false (not_lt.2 hx.le)
    unfold floatPow
    rw [if_neg (by simp [PyFloat.isFinite, PyFloat.val, hy])]
    change (if x.value = 0 then _ else if x.value < 0 ∧ ((⌊y.value⌋ : Int) : ℚ) ≠ y.value then _ else
      (if |x.value| = 1 then .ok (.real (.fin (if decide (x.value < 0) && isOddInteger y.value then -1 else 1))) else do
        let p ← L.cpow |x.value| y.value
        return FloatPower.real (if decide (x.value < 0) && isOddInteger y.value then p.neg else p))) = _
    rw [if_neg hx.ne', if_neg (fun h => absurd h.1 (not_lt.2 hx.le)), abs_of_pos hx, hn]
    rfl
  refine ⟨fun h1 => ?_, fun h1 => ?_⟩
  · rw [if_pos h1] at hp
    obtain ⟨z, k1, k2⟩ := withoutUnderflow_value ⟨0x41, 0x10, 0, 0⟩
    have e : (⟨0x41, 0x10, 0, 0⟩ : IBMFloat).value = 1 := by decide +kernel
    rw [e] at k1 k2
    exact ⟨z, by rw [pow_ibm_real L x y hp, k1]; rfl, k2⟩
  · rw [if_neg h1] at hp
    refine ⟨fun g hg hm => ?_, fun g hg hm => ?_, fun k hk => ?_⟩
    · rw [hg] at hp
      have h := IBMFloat.withoutUnderflow_fin g
      rw [if_neg (not_lt.2 hm)] at h
      obtain ⟨r, k1, k2⟩ := h
      exact ⟨r, by rw [pow_ibm_real L x y hp, k1]; rfl, k2⟩
    · rw [hg] at hp
      have h := IBMFloat.withoutUnderflow_fin g
      rw [if_pos hm] at h
      rw [pow_ibm_real L x y hp, h]; rfl
    · rw [hk] at hp
      exact pow_ibm_error L x y hp

/-- With an exponent or a base that is an int of at most 53 bits or a finite float: an integral power of a number other
than zero is a float, the exact power if that is a double and otherwise one of the two doubles around it; only a power
beyond `2^1023` may give `OverflowError`. -/
theorem C105_float (L : Libm) (hL : AccuratePow L) (x : IBMFloat) (v : PyNum) (q : ℚ) (n : Int) (hv : OperandValue v q) :
    (x.value ≠ 0 → q = n →
      (∃ f, x.pow L v = .ok (.num (.float f)) ∧ f.isFinite = true ∧ NextTo IsDouble (x.value ^ n) f.val) ∨
      ((2 : ℚ) ^ (1023 : Int) ≤ |x.value ^ n| ∧ x.pow L v = .error .overflowError)) ∧
    (q ≠ 0 → x.value = n →
      (∃ f, x.rpow L v = .ok (.num (.float f)) ∧ f.isFinite = true ∧ NextTo IsDouble (q ^ n) f.val) ∨
      ((2 : ℚ) ^ (1023 : Int) ≤ |q ^ n| ∧ x.rpow L v = .error .overflowError)) := by
  obtain ⟨f, h1, h2, rfl⟩ := operand_float hv
  obtain ⟨t1, t2⟩ := toFloat_finite x
  have ep : x.pow L v = (do
      match ← floatPow L x.toFloat f with
      | .complex re im => return .complex re im
      | .real p => return .num (.float p)) := by
    unfold IBMFloat.pow
    rw [h1]
    change (floatPow L x.toFloat f >>= _) = _
    cases floatPow L x.toFloat f with
    | error k => rfl
    | ok p =>
      cases v with
      | ibm y => exact hv.elim
      | int m => cases p with
        | complex re im => change (if _ then _ else _) = _; split <;> rfl
        | real p => rfl
      | float m => cases p with
        | complex re im => change (if _ then _ else _) = _; split <;> rfl
        | real p => rfl
  have er : x.rpow L v = (do
      match ← floatPow L f x.toFloat with
      | .complex re im => return .complex re im
      | .real p => return .num (.float p)) := by
    unfold IBMFloat.rpow; rw [h1]; rfl
  refine ⟨fun hx hq => ?_, fun hq hx => ?_⟩
  · rcases floatPow_accurate hL t1 (by rwa [t2]) h2 hq with ⟨g, k1, k2, k3⟩ | ⟨k1, k2⟩
    · exact Or.inl ⟨g, by rw [ep, k1]; rfl, k2, by rwa [t2] at k3⟩
    · exact Or.inr ⟨by rwa [t2] at k1, by rw [ep, k2]; rfl⟩
  · rcases floatPow_accurate hL h2 hq t1 (by rw [t2, hx]) with ⟨g, k1, k2, k3⟩ | ⟨k1, k2⟩
    · exact Or.inl ⟨g, by rw [er, k1]; rfl, k2, k3⟩
    · exact Or.inr ⟨k1, by rw [er, k2]; rfl⟩

/-- A power of a negative number whose exponent is not an integer, given the complex power the platform computes: that
complex number if its imaginary part is not zero, an `IBMFloat` zero if both parts are zero, and `TypeError` if the
imaginary part has vanished and the real part has not. -/
theorem C105_complex (L : Libm) (x y : IBMFloat) (hx : x.value < 0) (hy : ∀ n : Int, y.value ≠ n) (re im : PyFloat)
    (hz : L.zpow x.value y.value = .ok (re, im)) :
    (¬(im.isFinite = true ∧ im.val = 0) → x.pow L (.ibm y) = .ok (.complex re im)) ∧
    (im.isFinite = true ∧ im.val = 0 → re.isFinite = true ∧ re.val = 0 →
      x.pow L (.ibm y) = .ok (.num (.ibm IBMFloat.zero))) ∧
    (im.isFinite = true ∧ im.val = 0 → ¬(re.isFinite = true ∧ re.val = 0) →
      x.pow L (.ibm y) = .error .typeError) := by
  have hp : floatPow L (.fin x.value) (.fin y.value) = .ok (.complex re im) := by
    have h0 : y.value ≠ 0 := by simpa using hy 0
    unfold floatPow
    simp [PyFloat.isFinite, PyFloat.val, h0, hx.ne, hx, (hy _).symm, hz]
  have heq : ∀ f : PyFloat, f.eq (.fin 0) = decide (f.isFinite = true ∧ f.val = 0) := by
    intro f; cases f <;> simp [PyFloat.eq, PyFloat.isFinite, PyFloat.val]; rfl
  have hf : floatOfNum (.ibm y) = .ok (.fin y.value) := congrArg Except.ok (IBMFloat.toFloat_eq y)
  have e : x.pow L (.ibm y) = if !im.eq (.fin 0) then .ok (.complex re im)
      else if re.eq (.fin 0) then .ok (.num (.ibm IBMFloat.zero)) else .error .typeError := by
    unfold IBMFloat.pow
    rw [hf, IBMFloat.toFloat_eq]
    show (floatPow L (.fin x.value) (.fin y.value) >>= _) = _
    rw [hp]; rfl
  rw [e, heq, heq]
  refine ⟨fun h => by simp [h], fun h1 h2 => by simp [h1, h2], fun h1 h2 => ?_⟩
  rw [decide_eq_true h1, decide_eq_false h2]; rfl

/-- Whenever an `IBMFloat` is raised to an `IBMFloat` and no exception is raised, the result is an `IBMFloat` or a complex
number; with any other exponent or base it is a float or a complex number, never an `IBMFloat`. -/
theorem C105_kind (L : Libm) (x : IBMFloat) (v : PyNum) (r : Power) :
    (x.pow L v = .ok r → ((∃ re im, r = .complex re im) ∨ ∃ w, r = .num w ∧
      ((∃ y, v = .ibm y) → ∃ z, w = .ibm z) ∧ ((∀ y, v ≠ .ibm y) → ∃ f, w = .float f))) ∧
    (x.rpow L v = .ok r → ((∃ re im, r = .complex re im) ∨ ∃ f, r = .num (.float f))) := by
  constructor
  · intro h
    unfold IBMFloat.pow at h
    cases hf : floatOfNum v with
    | error k => rw [hf] at h; cases h
    | ok f =>
      rw [hf] at h
      change (floatPow L x.toFloat f >>= _) = _ at h
      cases hp : floatPow L x.toFloat f with
      | error k => rw [hp] at h; cases h
      | ok p =>
        rw [hp] at h
        cases p with
        | complex re im =>
          change (if _ then _ else _) = _ at h
          split at h
          · cases h; exact Or.inl ⟨_, _, rfl⟩
          · cases v with
            | ibm y =>
              change (if _ then _ else _) = _ at h
              split at h
              · cases h
                exact Or.inr ⟨_, rfl, fun _ => ⟨_, rfl⟩, fun h => absurd rfl (h y)⟩
              · cases h
            | int n => cases h; exact Or.inl ⟨_, _, rfl⟩
            | float g => cases h; exact Or.inl ⟨_, _, rfl⟩
        | real p =>
          change (IBMFloat.wrap v p >>= _) = _ at h
          cases v with
          | ibm y =>
            unfold IBMFloat.wrap at h
            cases hw : IBMFloat.fromFloatWithoutUnderflow p with
            | error k => simp only [hw] at h; cases h
            | ok z =>
              simp only [hw] at h
              cases h
              exact Or.inr ⟨_, rfl, fun _ => ⟨_, rfl⟩, fun h => absurd rfl (h y)⟩
          | int n => cases h; exact Or.inr ⟨_, rfl, (fun ⟨_, h⟩ => by cases h), fun _ => ⟨_, rfl⟩⟩
          | float g => cases h; exact Or.inr ⟨_, rfl, (fun ⟨_, h⟩ => by cases h), fun _ => ⟨_, rfl⟩⟩
  · intro h
    unfold IBMFloat.rpow at h
    cases hf : floatOfNum v with
    | error k => rw [hf] at h; cases h
    | ok f =>
      rw [hf] at h
      change (floatPow L f x.toFloat >>= _) = _ at h
      cases hp : floatPow L f x.toFloat with
      | error k => rw [hp] at h; cases h
      | ok p =>
        rw [hp] at h
        cases p with
        | complex re im => cases h; exact Or.inl ⟨_, _, rfl⟩
        | real p => cases h; exact Or.inr ⟨_, rfl⟩

/-- `AccuratePow` can be met: by a library that rounds to nearest. -/
def roundingLibm : Libm where
  cpow a b := if (2 : ℚ) ^ (1023 : Int) ≤ a ^ ⌊b⌋ then .error .overflowError else .ok (.fin (round64 (a ^ ⌊b⌋)))
  zpow _ _ := .ok (.fin (1 / 2 ^ 1074), .fin 0)

example : AccuratePow roundingLibm := by
  intro a n ha _ _
  unfold roundingLibm
  simp only [Int.floor_intCast]
  split
  · rename_i h; exact Or.inr ⟨h, rfl⟩
  · refine Or.inl ⟨_, rfl, fun w hw => ?_⟩
    have h := (nearestDouble_round64 (a ^ n)).nearest w hw
    constructor <;> intro hl <;> by_contra hc <;> rw [not_le] at hc
    · rw [abs_of_nonpos (by linarith), abs_of_nonpos (by linarith)] at h; linarith
    · rw [abs_of_nonneg (by linarith), abs_of_nonneg (by linarith)] at h; linarith

-- (-2) ** 3 = -8, 2 ** -1 = 0.5, 3 ** 20 = 3486784401, which needs 32 bits, is cut off; (-1/16) ** 0.5 meets the
-- hypotheses of the last case of `C105_complex`.
example : (⟨0xc1, 0x20, 0, 0⟩ : IBMFloat).pow roundingLibm (.ibm ⟨0x41, 0x30, 0, 0⟩) =
    .ok (.num (.ibm ⟨0xc1, 0x80, 0, 0⟩)) := by decide +kernel
example : (⟨0x41, 0x20, 0, 0⟩ : IBMFloat).pow roundingLibm (.ibm ⟨0xc1, 0x10, 0, 0⟩) =
    .ok (.num (.ibm ⟨0x40, 0x80, 0, 0⟩)) := by decide +kernel
example : (⟨0x41, 0x30, 0, 0⟩ : IBMFloat).pow roundingLibm (.ibm ⟨0x42, 0x14, 0, 0⟩) =
    .ok (.num (.ibm ⟨0x48, 0xcf, 0xd4, 0x1b⟩)) := by decide +kernel
example : (⟨0xc0, 0x10, 0, 0⟩ : IBMFloat).pow roundingLibm (.ibm ⟨0x40, 0x80, 0, 0⟩) = .error .typeError := by
  decide +kernel
example : (⟨0xc1, 0x20, 0, 0⟩ : IBMFloat).rpow roundingLibm (.int 10) = .ok (.num (.float (.fin (round64 (1 / 100))))) := by
  decide +kernel
example : (⟨0xc1, 0x20, 0, 0⟩ : IBMFloat).pow roundingLibm (.int 5) = .ok (.num (.float (.fin (-32)))) := by
  decide +kernel

end Segpy.Props
