import Verif.Lemmas.IbmArith

/-! # Properties of arithmetic between IBM floats and other numbers: C76, C77 -/

namespace Segpy.Props

open Segpy.Spec

/-! ## C76 arithmetic between an `IBMFloat` and an int or float -/

private theorem pyfloat_add_comm (f g : PyFloat) : f.add g = g.add f := by
  cases f <;> cases g <;>
    simp only [PyFloat.add, PyFloat.val, PyFloat.signbit, add_comm, Bool.and_comm] <;>
    rename_i a b <;> cases a <;> cases b <;> rfl

private theorem pyfloat_mul_comm (f g : PyFloat) : f.mul g = g.mul f := by
  cases f <;> cases g <;>
    simp [PyFloat.mul, PyFloat.val, PyFloat.signbit, PyFloat.isFinite, mul_comm, Bool.xor_comm] <;>
    (split <;> split <;> simp_all)

/-- The sum with a finite float or an int of at most 53 bits, in either order: the float nearest to the exact sum. -/
theorem C76_add (x : IBMFloat) (v : PyNum) (q : ℚ) (h : OperandValue v q) :
    GivesFloat (x.value + q) (x.addNum v) ∧ GivesFloat (q + x.value) (x.raddNum v) ∧ x.raddNum v = x.addNum v := by
  obtain ⟨f, h1, h2, rfl⟩ := operand_float h
  obtain ⟨t1, t2⟩ := toFloat_finite x
  have e1 : x.addNum v = .ok (.float (x.toFloat.add f)) := by
    unfold IBMFloat.addNum; rw [h1]; exact wrap_operand h _
  have e2 : x.raddNum v = .ok (.float (f.add x.toFloat)) := by
    unfold IBMFloat.raddNum; rw [h1]; rfl
  have r := add_rounded t1 h2
  rw [t2] at r
  refine ⟨⟨_, e1, r⟩, ⟨_, e2, ?_⟩, by rw [e1, e2, pyfloat_add_comm]⟩
  rw [pyfloat_add_comm, add_comm]; exact r

/-- For any int or float, also of values not covered above, sums and products do not depend on the order. -/
theorem C76_comm (x : IBMFloat) (v : PyNum) (h : ∀ y, v ≠ .ibm y) :
    x.raddNum v = x.addNum v ∧ x.rmulNum v = x.mulNum v := by
  have hw : ∀ p, IBMFloat.wrap v p = .ok (.float p) := by
    intro p
    cases v with
    | ibm y => exact absurd rfl (h y)
    | int n => rfl
    | float g => rfl
  unfold IBMFloat.raddNum IBMFloat.addNum IBMFloat.rmulNum IBMFloat.mulNum
  cases hf : floatOfNum v with
  | error k => exact ⟨rfl, rfl⟩
  | ok f =>
    constructor
    · show Except.ok (PyNum.float _) = IBMFloat.wrap v _
      rw [hw, pyfloat_add_comm]
    · show _ = IBMFloat.wrap v _
      rw [hw, pyfloat_mul_comm]
      cases v with
      | ibm y => exact absurd rfl (h y)
      | int n => rfl
      | float g => rfl

/-- The two differences. -/
theorem C76_sub (x : IBMFloat) (v : PyNum) (q : ℚ) (h : OperandValue v q) :
    GivesFloat (x.value - q) (x.subNum v) ∧ GivesFloat (q - x.value) (x.rsubNum v) := by
  obtain ⟨f, h1, h2, rfl⟩ := operand_float h
  obtain ⟨t1, t2⟩ := toFloat_finite x
  have e1 : x.subNum v = .ok (.float (x.toFloat.sub f)) := by
    unfold IBMFloat.subNum; rw [h1]; exact wrap_operand h _
  have e2 : x.rsubNum v = .ok (.float (f.sub x.toFloat)) := by
    unfold IBMFloat.rsubNum; rw [h1]; rfl
  have r := sub_rounded t1 h2
  have r' := sub_rounded h2 t1
  rw [t2] at r r'
  exact ⟨⟨_, e1, r⟩, ⟨_, e2, r'⟩⟩

/-- The product, in either order. -/
theorem C76_mul (x : IBMFloat) (v : PyNum) (q : ℚ) (h : OperandValue v q) :
    GivesFloat (x.value * q) (x.mulNum v) ∧ GivesFloat (q * x.value) (x.rmulNum v) ∧ x.rmulNum v = x.mulNum v := by
  obtain ⟨f, h1, h2, rfl⟩ := operand_float h
  obtain ⟨t1, t2⟩ := toFloat_finite x
  have e1 : x.mulNum v = .ok (.float (x.toFloat.mul f)) := by
    unfold IBMFloat.mulNum; rw [h1]; exact wrap_operand h _
  have e2 : x.rmulNum v = .ok (.float (f.mul x.toFloat)) := by
    unfold IBMFloat.rmulNum; rw [h1]
    cases v with
    | ibm y => exact h.elim
    | int n => rfl
    | float g => rfl
  have r := mul_rounded t1 h2
  rw [t2] at r
  refine ⟨⟨_, e1, r⟩, ⟨_, e2, ?_⟩, by rw [e1, e2, pyfloat_mul_comm]⟩
  rw [pyfloat_mul_comm, mul_comm]; exact r

/-- The quotient by a finite float or an int of at most 53 bits. -/
theorem C76_truediv (x : IBMFloat) (v : PyNum) (q : ℚ) (h : OperandValue v q) :
    (q ≠ 0 → GivesFloat (x.value / q) (x.truedivNum v)) ∧ (q = 0 → x.truedivNum v = .error .zeroDivisionError) := by
  obtain ⟨f, h1, h2, rfl⟩ := operand_float h
  obtain ⟨t1, t2⟩ := toFloat_finite x
  constructor
  · intro h0
    obtain ⟨r, hr, hr2⟩ := div_rounded t1 h2 h0
    rw [t2] at hr2
    refine ⟨r, ?_, hr2⟩
    unfold IBMFloat.truedivNum
    rw [h1]
    show (do let q ← x.toFloat.div f; IBMFloat.wrap v q) = _
    rw [hr]
    exact wrap_operand h _
  · intro h0
    unfold IBMFloat.truedivNum
    rw [h1]
    show (do let q ← x.toFloat.div f; IBMFloat.wrap v q) = _
    rw [div_by_zero h2 h0]
    rfl

/-- The quotient of an int of at most 53 bits by an `IBMFloat`.  The claim for floats is false, see below. -/
theorem C76_rtruediv_partial (x : IBMFloat) (n : Int) (hn : |n| ≤ 2 ^ 53) :
    (x.value ≠ 0 → GivesFloat (n / x.value) (x.rtruedivNum (.int n))) ∧
    (x.value = 0 → x.rtruedivNum (.int n) = .error .zeroDivisionError) := by
  obtain ⟨t1, t2⟩ := toFloat_finite x
  have h1 : floatOfNum (.int n) = .ok (.fin n) := ofInt_53 hn
  constructor
  · intro h0
    obtain ⟨r, hr, hr2⟩ := div_rounded (f := .fin n) rfl t1 (by rw [t2]; exact h0)
    rw [t2] at hr2
    refine ⟨r, ?_, hr2⟩
    unfold IBMFloat.rtruedivNum
    rw [h1]
    show (do let q ← (PyFloat.fin n).div x.toFloat; pure (PyNum.float q)) = _
    rw [hr]
    rfl
  · intro h0
    unfold IBMFloat.rtruedivNum
    rw [h1]
    show (do let q ← (PyFloat.fin n).div x.toFloat; pure (PyNum.float q)) = _
    rw [div_by_zero t1 (by rw [t2]; exact h0)]
    rfl

/-- The quotient of a finite float by an `IBMFloat` is an `IBMFloat`, with the loss of precision and the exceptions of
one. -/
theorem C76_float_by_ibm (x : IBMFloat) (f : PyFloat) (hf : f.isFinite = true) :
    (x.value ≠ 0 → GivesIbm (f.val / x.value) (x.rtruedivNum (.float f))) ∧
    (x.value = 0 → x.rtruedivNum (.float f) = .error .zeroDivisionError) := by
  obtain ⟨t1, t2⟩ := toFloat_finite x
  constructor
  · intro h0
    obtain ⟨r, hr, hr2⟩ := div_rounded hf t1 (by rw [t2]; exact h0)
    rw [t2] at hr2
    have : x.rtruedivNum (.float f) = (do return PyNum.ibm (← IBMFloat.fromFloatWithoutUnderflow r)) := by
      unfold IBMFloat.rtruedivNum
      show (do let q ← f.div x.toFloat; return PyNum.ibm (← IBMFloat.fromFloatWithoutUnderflow q)) = _
      rw [hr]
      rfl
    rw [this]
    exact givesIbm_of hr2
  · intro h0
    unfold IBMFloat.rtruedivNum
    show (do let q ← f.div x.toFloat; return PyNum.ibm (← IBMFloat.fromFloatWithoutUnderflow q)) = _
    rw [div_by_zero t1 (by rw [t2]; exact h0)]
    rfl

/-- So `1.0 / x` and `1 / x` differ: the one is an `IBMFloat`, the other the float nearest to the quotient; and a float
can be too large to be divided by an `IBMFloat` greater than one. -/
theorem C76_rtruediv_fails :
    (∃ (x y : IBMFloat) (g : PyFloat), x.rtruedivNum (.float (.fin 1)) = .ok (.ibm y) ∧
      x.rtruedivNum (.int 1) = .ok (.float g) ∧ y.value ≠ g.val) ∧
    (∃ (x : IBMFloat) (f : PyFloat), 1 < x.value ∧ x.rtruedivNum (.float f) = .error .overflowError) :=
  ⟨⟨⟨0x41, 0x30, 0, 0⟩, ⟨0x40, 0x55, 0x55, 0x55⟩, .fin (round64 (1 / 3)), by decide +kernel, by decide +kernel,
    by decide +kernel⟩,
   ⟨⟨0x41, 0x30, 0, 0⟩, .fin (10 ^ 80), by decide +kernel, by decide +kernel⟩⟩

/-- Ints of any size: they are first converted to the nearest float, or `OverflowError` is raised. -/
theorem C76_int (x : IBMFloat) (n : Int) :
    (∃ f, f.isFinite = true ∧ IsRounded n f ∧ x.addNum (.int n) = x.addNum (.float f) ∧
      x.raddNum (.int n) = x.raddNum (.float f) ∧ x.subNum (.int n) = x.subNum (.float f) ∧
      x.rsubNum (.int n) = x.rsubNum (.float f) ∧ x.mulNum (.int n) = x.mulNum (.float f) ∧
      x.rmulNum (.int n) = x.rmulNum (.float f) ∧ x.truedivNum (.int n) = x.truedivNum (.float f) ∧
      x.floordivNum (.int n) = x.floordivNum (.float f) ∧ x.rfloordivNum (.int n) = x.rfloordivNum (.float f) ∧
      x.modNum (.int n) = x.modNum (.float f) ∧ x.rmodNum (.int n) = x.rmodNum (.float f)) ∨
    ((∃ r, NearestDouble n r ∧ (2 : ℚ) ^ (1024 : Int) ≤ |r|) ∧ x.addNum (.int n) = .error .overflowError ∧
      x.raddNum (.int n) = .error .overflowError ∧ x.subNum (.int n) = .error .overflowError ∧
      x.rsubNum (.int n) = .error .overflowError ∧ x.mulNum (.int n) = .error .overflowError ∧
      x.rmulNum (.int n) = .error .overflowError ∧ x.truedivNum (.int n) = .error .overflowError ∧
      x.rtruedivNum (.int n) = .error .overflowError ∧ x.floordivNum (.int n) = .error .overflowError ∧
      x.rfloordivNum (.int n) = .error .overflowError ∧ x.modNum (.int n) = .error .overflowError ∧
      x.rmodNum (.int n) = .error .overflowError) := by
  have hr := isRounded_ofRat (n : ℚ)
  rcases hr.1 with ⟨neg, h1, h2⟩ | ⟨h1, h2, h3⟩
  · right
    have hf : floatOfNum (.int n) = .error .overflowError := by
      show PyFloat.ofInt n = _
      unfold PyFloat.ofInt
      rw [h1]
    refine ⟨h2, ?_⟩
    unfold IBMFloat.addNum IBMFloat.raddNum IBMFloat.subNum IBMFloat.rsubNum IBMFloat.mulNum IBMFloat.rmulNum
      IBMFloat.truedivNum IBMFloat.rtruedivNum IBMFloat.floordivNum IBMFloat.rfloordivNum IBMFloat.modNum IBMFloat.rmodNum
    rw [hf]
    exact ⟨rfl, rfl, rfl, rfl, rfl, rfl, rfl, rfl, rfl, rfl, rfl, rfl⟩
  · left
    have hf : floatOfNum (.int n) = .ok (PyFloat.ofRat n) := by
      show PyFloat.ofInt n = _
      unfold PyFloat.ofInt
      cases h : PyFloat.ofRat (n : ℚ) with
      | inf s => rw [h] at h1; cases h1
      | fin q => rfl
      | negZero => rfl
      | nan => rfl
    refine ⟨PyFloat.ofRat n, h1, hr, ?_⟩
    unfold IBMFloat.addNum IBMFloat.raddNum IBMFloat.subNum IBMFloat.rsubNum IBMFloat.mulNum IBMFloat.rmulNum
      IBMFloat.truedivNum IBMFloat.floordivNum IBMFloat.rfloordivNum IBMFloat.modNum IBMFloat.rmodNum
    rw [hf]
    exact ⟨rfl, rfl, rfl, rfl, rfl, rfl, rfl, rfl, rfl, rfl, rfl⟩

/-- Operands that are not finite: as for floats, except that they cannot be divided by an `IBMFloat`. -/
theorem C76_special (x : IBMFloat) (s : Bool) :
    (x.addNum (.float .nan) = .ok (.float .nan) ∧ x.subNum (.float .nan) = .ok (.float .nan) ∧
      x.rsubNum (.float .nan) = .ok (.float .nan) ∧ x.mulNum (.float .nan) = .ok (.float .nan) ∧
      x.truedivNum (.float .nan) = .ok (.float .nan) ∧
      (x.value ≠ 0 → x.rtruedivNum (.float .nan) = .error .valueError)) ∧
    (x.addNum (.float (.inf s)) = .ok (.float (.inf s)) ∧ x.subNum (.float (.inf s)) = .ok (.float (.inf !s)) ∧
      x.rsubNum (.float (.inf s)) = .ok (.float (.inf s)) ∧
      x.mulNum (.float (.inf s)) = .ok (.float (if x.value = 0 then .nan else .inf (decide (x.value < 0) != s))) ∧
      (∃ z, x.truedivNum (.float (.inf s)) = .ok (.float z) ∧ z.isFinite = true ∧ z.val = 0) ∧
      (x.value ≠ 0 → x.rtruedivNum (.float (.inf s)) = .error .valueError)) := by
  have hx := IBMFloat.toFloat_eq x
  have hd : ∀ f : PyFloat, f = .nan ∨ f = .inf s → x.value ≠ 0 → ∃ g, f.div (.fin x.value) = .ok g ∧
      IBMFloat.fromFloatWithoutUnderflow g = .error .valueError := by
    intro f hf h0
    have hc : ¬ ((PyFloat.fin x.value).isFinite && decide ((PyFloat.fin x.value).val = 0)) = true := by
      simp [PyFloat.val, h0]
    rcases hf with rfl | rfl <;>
    · unfold PyFloat.div
      dsimp only
      rw [if_neg hc]
      exact ⟨_, rfl, rfl⟩
  refine ⟨⟨?_, ?_, ?_, ?_, ?_, ?_⟩, ⟨?_, ?_, ?_, ?_, ?_, ?_⟩⟩
  · unfold IBMFloat.addNum; rw [hx]; rfl
  · unfold IBMFloat.subNum; rw [hx]; rfl
  · unfold IBMFloat.rsubNum; rw [hx]; rfl
  · unfold IBMFloat.mulNum; rw [hx]; rfl
  · unfold IBMFloat.truedivNum; rw [hx]; rfl
  · intro h0
    obtain ⟨g, h1, h2⟩ := hd .nan (Or.inl rfl) h0
    unfold IBMFloat.rtruedivNum
    rw [hx]
    show (do let q ← PyFloat.nan.div (.fin x.value); return PyNum.ibm (← IBMFloat.fromFloatWithoutUnderflow q)) = _
    rw [h1]
    show (do return PyNum.ibm (← IBMFloat.fromFloatWithoutUnderflow g)) = _
    rw [h2]; rfl
  · unfold IBMFloat.addNum; rw [hx]; rfl
  · unfold IBMFloat.subNum; rw [hx]; rfl
  · unfold IBMFloat.rsubNum; rw [hx]
    show Except.ok (PyNum.float ((PyFloat.inf s).add (PyFloat.neg (.fin x.value)))) = _
    rw [IBMFloat.neg_fin]
    split <;> rfl
  · unfold IBMFloat.mulNum; rw [hx]; rfl
  · refine ⟨PyFloat.zero ((PyFloat.fin x.value).signbit != s), ?_, ?_, val_zero _⟩
    · unfold IBMFloat.truedivNum; rw [hx]; rfl
    · cases ((PyFloat.fin x.value).signbit != s) <;> rfl
  · intro h0
    obtain ⟨g, h1, h2⟩ := hd (.inf s) (Or.inr rfl) h0
    unfold IBMFloat.rtruedivNum
    rw [hx]
    show (do let q ← (PyFloat.inf s).div (.fin x.value); return PyNum.ibm (← IBMFloat.fromFloatWithoutUnderflow q)) = _
    rw [h1]
    show (do return PyNum.ibm (← IBMFloat.fromFloatWithoutUnderflow g)) = _
    rw [h2]; rfl

/-- `sum` of `IBMFloat`s is a float, if there are any: each sample is added to the total with one rounding. -/
theorem C76_sum (samples : List IBMFloat) :
    IBMFloat.sum [] = .ok (.int 0) ∧
    (samples ≠ [] → ∃ g, IBMFloat.sum samples = .ok (.float g)) ∧
    (∀ x, ∃ g, IBMFloat.sum [x] = .ok (.float g) ∧ g.isFinite = true ∧ g.val = x.value) ∧
    (∀ x t, IBMFloat.sum samples = .ok (.float t) → t.isFinite = true →
      ∃ g, IBMFloat.sum (samples ++ [x]) = .ok (.float g) ∧ IsRounded (t.val + x.value) g) := by
  have hall : ∀ (l : List IBMFloat) (f : PyFloat), ∃ g, l.foldlM IBMFloat.sumStep (.float f) = .ok (.float g) := by
    intro l
    induction l with
    | nil => intro f; exact ⟨f, rfl⟩
    | cons a l ih =>
      intro f
      obtain ⟨g, hg⟩ := ih (f.add a.toFloat)
      exact ⟨g, by rw [List.foldlM_cons, sumStep_float]; exact hg⟩
  refine ⟨rfl, ?_, ?_, ?_⟩
  · intro hne
    obtain ⟨a, l, rfl⟩ := List.exists_cons_of_ne_nil hne
    obtain ⟨g, hg⟩ := hall l ((PyFloat.fin 0).add a.toFloat)
    refine ⟨g, ?_⟩
    unfold IBMFloat.sum
    rw [List.foldlM_cons, sumStep_start, sumStep_float]
    exact hg
  · intro x
    obtain ⟨t1, t2⟩ := toFloat_finite x
    have hr := add_rounded (f := .fin 0) rfl t1
    rw [t2, show (PyFloat.fin 0).val = 0 from rfl, zero_add] at hr
    have hb : |x.value| < (2 : ℚ) ^ (1024 : Int) := lt_of_le_of_lt (IBMFloat.abs_value_le_max x) IBMFloat.ibmMax_lt
    obtain ⟨e1, e2⟩ := isRounded_exact hr (value_isDouble x) hb
    refine ⟨_, ?_, e1, e2⟩
    unfold IBMFloat.sum
    rw [List.foldlM_cons, sumStep_start, sumStep_float]
    rfl
  · intro x t ht htf
    obtain ⟨t1, t2⟩ := toFloat_finite x
    have hr := add_rounded htf t1
    rw [t2] at hr
    refine ⟨_, ?_, hr⟩
    unfold IBMFloat.sum at ht ⊢
    rw [List.foldlM_append, ht]
    show (do let r ← IBMFloat.sumStep (.float t) x; pure r) = _
    rw [sumStep_float]

/-- The sum is exact if the exponents of the samples do not differ by much: with `d` hexadecimal digits between the
least and the greatest exponent there may be `2 ^ 29 / 16 ^ d` samples. -/
theorem C76_sum_exact (samples : List IBMFloat) (hne : samples ≠ []) (E : Int) (d : Nat)
    (hE : ∀ x ∈ samples, E ≤ ((x.a.toNat % 128 : Nat) : Int) - 64 ∧ ((x.a.toNat % 128 : Nat) : Int) - 64 ≤ E + d)
    (hN : samples.length * 16 ^ d ≤ 2 ^ 29) :
    ∃ g, IBMFloat.sum samples = .ok (.float g) ∧ g.isFinite = true ∧ g.val = (samples.map IBMFloat.value).sum := by
  obtain ⟨a, l, rfl⟩ := List.exists_cons_of_ne_nil hne
  have hd : d ≤ 7 := by
    by_contra hc
    have h8 : 16 ^ 8 ≤ 16 ^ d := Nat.pow_le_pow_right (by norm_num) (by omega)
    have : 1 * 16 ^ d ≤ (a :: l).length * 16 ^ d := Nat.mul_le_mul_right _ (by simp)
    have h9 : (16 : ℕ) ^ 8 ≤ 2 ^ 29 := by rw [one_mul] at this; exact h8.trans (this.trans hN)
    norm_num at h9
  have ha := hE a List.mem_cons_self
  have hr := IBMFloat.exp16_range a
  rw [← IBMFloat.exp16_eq] at ha
  obtain ⟨g, g1, g2, g3⟩ := sum_exact_aux (u := 4 * E - 24) (B := 2 ^ 24 * 16 ^ d) (by omega) (by omega) (a :: l)
    (.fin 0) 0 rfl (by simp [PyFloat.val]) (by
      rw [abs_zero, zero_add]
      have : (((a :: l).length * 16 ^ d : Nat) : Int) ≤ ((2 ^ 29 : Nat) : Int) := by exact_mod_cast hN
      push_cast at this ⊢
      nlinarith) (by
      intro x hx
      have := hE x hx
      rw [← IBMFloat.exp16_eq] at this
      exact value_multiple x E d this.1 this.2) (by positivity)
  refine ⟨g, ?_, g2, by rw [g3]; simp [PyFloat.val]⟩
  unfold IBMFloat.sum
  rw [List.foldlM_cons, sumStep_start] at *
  exact g1

/-! ## C77 comparison with ints -/

/-- Comparisons with an int are right if the float nearest to the int is not, without being equal to it, the value of the
`IBMFloat`; for ints too large for a float they raise `OverflowError`. -/
theorem C77_compare_partial (x : IBMFloat) (n : Int) (h : NearestDouble n x.value → x.value = n) :
    (x.ltNum (.int n) = .ok (decide (x.value < n)) ∧ x.leNum (.int n) = .ok (decide (x.value ≤ n)) ∧
      x.gtNum (.int n) = .ok (decide (x.value > n)) ∧ x.geNum (.int n) = .ok (decide (x.value ≥ n))) ∨
    ((∃ r, NearestDouble n r ∧ (2 : ℚ) ^ (1024 : Int) ≤ |r|) ∧ x.ltNum (.int n) = .error .overflowError ∧
      x.leNum (.int n) = .error .overflowError ∧ x.gtNum (.int n) = .error .overflowError ∧
      x.geNum (.int n) = .error .overflowError) := by
  have hx := IBMFloat.toFloat_eq x
  unfold IBMFloat.ltNum IBMFloat.leNum IBMFloat.gtNum IBMFloat.geNum
  by_cases hb : (2 : ℚ) ^ (1024 : Int) ≤ |round64 n|
  · right
    have hf : floatOfNum (.int n) = .error .overflowError := by
      show PyFloat.ofInt n = _
      unfold PyFloat.ofInt PyFloat.ofRat
      dsimp only
      rw [if_pos hb]
    rw [hf]
    exact ⟨⟨_, nearestDouble_round64 n, hb⟩, rfl, rfl, rfl, rfl⟩
  · left
    have hf : ∃ f, floatOfNum (.int n) = .ok f ∧ (f = .fin (round64 n) ∨ (f = .negZero ∧ round64 n = 0)) := by
      by_cases h0 : round64 n = 0 ∧ (n : ℚ) < 0
      · refine ⟨.negZero, ?_, Or.inr ⟨rfl, h0.1⟩⟩
        show PyFloat.ofInt n = _
        unfold PyFloat.ofInt PyFloat.ofRat
        dsimp only
        rw [if_neg hb, if_pos h0]
      · refine ⟨.fin (round64 n), ?_, Or.inl rfl⟩
        show PyFloat.ofInt n = _
        unfold PyFloat.ofInt PyFloat.ofRat
        dsimp only
        rw [if_neg hb, if_neg h0]
    obtain ⟨f, hf, hval⟩ := hf
    have hlt : ∀ g : PyFloat, (g = .fin (round64 n) ∨ (g = .negZero ∧ round64 n = 0)) →
        (PyFloat.fin x.value).lt g = decide (x.value < round64 n) ∧ g.lt (.fin x.value) = decide (round64 n < x.value) ∧
        (PyFloat.fin x.value).le g = decide (x.value ≤ round64 n) ∧ g.le (.fin x.value) = decide (round64 n ≤ x.value) := by
      have aux : ∀ a b : ℚ, (decide (a < b) || decide (a = b)) = decide (a ≤ b) := by
        intro a b
        rw [← Bool.decide_or]
        exact decide_eq_decide.mpr le_iff_lt_or_eq.symm
      rintro g (rfl | ⟨rfl, h0⟩)
      · exact ⟨rfl, rfl, aux _ _, aux _ _⟩
      · rw [h0]
        exact ⟨rfl, rfl, aux _ _, aux _ _⟩
    obtain ⟨l1, l2, l3, l4⟩ := hlt f hval
    rw [hf, hx]
    show Except.ok _ = _ ∧ Except.ok _ = _ ∧ Except.ok _ = _ ∧ Except.ok _ = _
    rw [l1, l2, l3, l4]
    -- the rounded int lies on the same side
    have hne : x.value = round64 n → x.value = n := fun he => h (by rw [he]; exact nearestDouble_round64 n)
    have hv : roundTo 53 (-1074) x.value = x.value := round64_value x
    have m1 : x.value ≤ n → x.value ≤ round64 n := by
      intro hle
      have := roundTo_mono (p := 53) (by norm_num) (-1074) hle
      rw [hv] at this
      exact this
    have m2 : (n : ℚ) ≤ x.value → round64 n ≤ x.value := by
      intro hle
      have := roundTo_mono (p := 53) (by norm_num) (-1074) hle
      rw [hv] at this
      exact this
    have k1 : x.value < round64 n ↔ x.value < n := by
      constructor
      · intro hlt
        by_contra hc
        exact absurd (m2 (not_lt.mp hc)) (not_le.mpr hlt)
      · intro hlt
        rcases lt_or_eq_of_le (m1 hlt.le) with h1 | h1
        · exact h1
        · exact absurd (hne h1) hlt.ne
    have k2 : round64 n < x.value ↔ (n : ℚ) < x.value := by
      constructor
      · intro hlt
        by_contra hc
        exact absurd (m1 (not_lt.mp hc)) (not_le.mpr hlt)
      · intro hlt
        rcases lt_or_eq_of_le (m2 hlt.le) with h1 | h1
        · exact h1
        · exact absurd (hne h1.symm) hlt.ne'
    have k3 : x.value ≤ round64 n ↔ x.value ≤ n := by rw [← not_lt, k2, not_lt]
    have k4 : round64 n ≤ x.value ↔ (n : ℚ) ≤ x.value := by rw [← not_lt, k1, not_lt]
    refine ⟨?_, ?_, ?_, ?_⟩ <;> congr 1 <;> apply decide_eq_decide.mpr <;> assumption

/-- Ints of at most 53 bits are doubles, so that for them the condition holds. -/
theorem C77_small_ints (x : IBMFloat) (n : Int) (hn : |n| ≤ 2 ^ 53) (h : NearestDouble n x.value) : x.value = n := by
  have hd : IsDouble (n : ℚ) := by
    have := representable_of_le (p := 53) (by norm_num) (emin := -1074) (m := n) (u := 0) hn (by norm_num)
    rwa [zpow_zero, mul_one] at this
  have := h.nearest n hd
  rw [sub_self, abs_zero] at this
  exact sub_eq_zero.mp (abs_eq_zero.mp (le_antisymm this (abs_nonneg _)))

/-- For other ints they can be wrong: none of `x < n`, `x == n` and `x > n` holds, but both `x <= n` and `x >= n`.
For large ints they raise, although `x == n` does not. -/
theorem C77_compare_fails :
    (∃ (x : IBMFloat) (n : Int), x.value < n ∧ x.ltNum (.int n) = .ok false ∧ x.eqRational n = false ∧
      x.gtNum (.int n) = .ok false ∧ x.leNum (.int n) = .ok true ∧ x.geNum (.int n) = .ok true) ∧
    (∃ (x : IBMFloat) (n : Int), x.ltNum (.int n) = .error .overflowError ∧ x.eqRational n = false) :=
  ⟨⟨⟨0x50, 0x10, 0, 0⟩, 2 ^ 60 + 1, by decide +kernel, by decide +kernel, by decide +kernel, by decide +kernel,
    by decide +kernel, by decide +kernel⟩,
   ⟨⟨0x50, 0x10, 0, 0⟩, 2 ^ 1024, by decide +kernel, by decide +kernel⟩⟩

/-! ## Examples -/

-- 2.5 and the operands 0.1, -3 and 2 ** 53
example : (⟨0x41, 0x28, 0, 0⟩ : IBMFloat).value = 5 / 2 ∧ OperandValue (.float (.fin (round64 (1 / 10)))) (round64 (1 / 10)) ∧
    OperandValue (.int (-3)) (-3) ∧ OperandValue (.int (2 ^ 53)) (2 ^ 53) :=
  ⟨by decide +kernel, ⟨rfl, rfl⟩, ⟨by norm_num, by norm_num⟩, ⟨by norm_num, by norm_num⟩⟩

example : (⟨0x41, 0x28, 0, 0⟩ : IBMFloat).addNum (.int (-3)) = .ok (.float (.fin (-1 / 2))) ∧
    (⟨0x41, 0x28, 0, 0⟩ : IBMFloat).rsubNum (.int (-3)) = .ok (.float (.fin (-11 / 2))) ∧
    (⟨0x41, 0x28, 0, 0⟩ : IBMFloat).truedivNum (.float (.fin (1 / 4))) = .ok (.float (.fin 10)) := by decide +kernel

-- three samples with the same exponent
example : IBMFloat.sum [⟨0x41, 0x28, 0, 0⟩, ⟨0xc1, 0x10, 0, 0⟩, ⟨0x41, 0, 0, 1⟩] = .ok (.float (.fin (3 / 2 + 1 / 2 ^ 20))) ∧
    ∀ x ∈ ([⟨0x41, 0x28, 0, 0⟩, ⟨0xc1, 0x10, 0, 0⟩, ⟨0x41, 0, 0, 1⟩] : List IBMFloat),
      1 ≤ ((x.a.toNat % 128 : Nat) : Int) - 64 ∧ ((x.a.toNat % 128 : Nat) : Int) - 64 ≤ 1 + (0 : Nat) := by
  decide +kernel

-- the comparison is right for this int of more than 53 bits
example : (⟨0x41, 0x28, 0, 0⟩ : IBMFloat).ltNum (.int (2 ^ 60 + 1)) = .ok true := by decide +kernel

end Segpy.Props
