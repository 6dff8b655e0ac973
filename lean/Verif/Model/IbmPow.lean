import Verif.Model.IbmArith

/-!
# Model of `segpy/ibm_float.py`: powers

`__pow__` and `__rpow__` hand the work to Python's `pow` on floats, which rests on the C library.  The cases that CPython
decides itself are modelled; the two functions it calls for the others are parameters.
-/

namespace Segpy

/-- The parts of the C library and of CPython's complex arithmetic on which `pow` of two floats rests.  `cpow a b` is C's
`pow`, called for a finite `a > 0` other than 1 and a finite `b ≠ 0`, together with CPython's treatment of its `errno`.
`zpow a b` is the real and imaginary part of the complex power, called for a finite `a < 0` and a finite `b` that is not
an integer. -/
structure Libm where
  cpow : ℚ → ℚ → Res PyFloat
  zpow : ℚ → ℚ → Res (PyFloat × PyFloat)

/-- What `pow` of two floats returns. -/
inductive FloatPower where
  | real (f : PyFloat)
  | complex (re im : PyFloat)
  deriving DecidableEq

/-- CPython's `DOUBLE_IS_ODD_INTEGER`, for a finite number. -/
def isOddInteger (q : ℚ) : Bool := decide ((⌊q⌋ : ℚ) = q ∧ ⌊q⌋ % 2 = 1)

/-- `pow(v, w)` on floats (CPython's `float_pow`), as called at ibm_float.py:452 and 463. -/
def floatPow (L : Libm) (v w : PyFloat) : Res FloatPower :=
  if w.isFinite && decide (w.val = 0) then .ok (.real (.fin 1))
  else match v, w with
    | .nan, _ => .ok (.real .nan)
    | v, .nan => .ok (.real (if v.isFinite && decide (v.val = 1) then .fin 1 else .nan))
    | v, .inf neg =>
      if v.isFinite && decide (|v.val| = 1) then .ok (.real (.fin 1))
      else if (!neg) == (!v.isFinite || decide (1 < |v.val|)) then .ok (.real (.inf false))
      else .ok (.real (.fin 0))
    | .inf neg, w =>
      if 0 < w.val then .ok (.real (.inf (neg && isOddInteger w.val)))
      else .ok (.real (PyFloat.zero (neg && isOddInteger w.val)))
    | v, w =>
      if v.val = 0 then
        if w.val < 0 then .error .zeroDivisionError
        else .ok (.real (if isOddInteger w.val then v else .fin 0))
      else if v.val < 0 ∧ (⌊w.val⌋ : ℚ) ≠ w.val then do
        let p ← L.zpow v.val w.val
        return .complex p.1 p.2
      else
        let negate := decide (v.val < 0) && isOddInteger w.val
        if |v.val| = 1 then .ok (.real (.fin (if negate then -1 else 1)))
        else do
          let p ← L.cpow |v.val| w.val
          return .real (if negate then p.neg else p)

/-- What the power operator returns when one operand is an `IBMFloat`: a number, or a complex number. -/
inductive Power where
  | num (n : PyNum)
  | complex (re im : PyFloat)
  deriving DecidableEq

namespace IBMFloat

/-- `x ** exponent`, ibm_float.py:449-458.  A complex number reaches `from_float_without_underflow` (lines 169-190) if its
imaginary part is zero: `ieee2ibm` (lines 71-75) returns zero if it equals zero, and otherwise hands it to `isnan`, which
takes real numbers only. -/
def pow (L : Libm) (x : IBMFloat) (exponent : PyNum) : Res Power := do
  match ← floatPow L x.toFloat (← floatOfNum exponent) with
  | .complex re im =>
    if !im.eq (.fin 0) then return .complex re im
    else match exponent with
      | .ibm _ => if re.eq (.fin 0) then return .num (.ibm zero) else .error .typeError
      | _ => return .complex re im
  | .real p => return .num (← wrap exponent p)

/-- `base ** x` for a base that is not an `IBMFloat`, ibm_float.py:460-467; both branches return the result as it is. -/
def rpow (L : Libm) (x : IBMFloat) (base : PyNum) : Res Power := do
  match ← floatPow L (← floatOfNum base) x.toFloat with
  | .complex re im => return .complex re im
  | .real p => return .num (.float p)

end IBMFloat

end Segpy
