import Verif.Model.Transform

/-!
# Model of `segpy/ibm_float.py`: arithmetic between an `IBMFloat` and another number, remainders, rounding

The other operand is an `int`, a `float` or an `IBMFloat`.  Python tries the method of the left operand first; those of
`int` and `float` know nothing of `IBMFloat`, so that `v + x` calls `x.__radd__(v)`.  `__pow__` and `__rpow__` are in
`Model/IbmPow.lean`.
-/

namespace Segpy

namespace PyFloat

/-- C's `fmod` on finite numbers, which is exact: the remainder of the division rounded towards zero. -/
def fmodRat (a b : ℚ) : ℚ := a - b * (if a / b < 0 then ⌈a / b⌉ else ⌊a / b⌋)

/-- `x % y` on floats (CPython's `float_rem`): `fmod`, to which `y` is added if it has the wrong sign. -/
def mod (x y : PyFloat) : Res PyFloat :=
  if y.isFinite && y.val = 0 then .error .zeroDivisionError
  else match x, y with
    | nan, _ => .ok nan
    | _, nan => .ok nan
    | inf _, _ => .ok nan
    | x, inf b => .ok (if x.val = 0 then zero b else if b != x.signbit then inf b else x)
    | x, y =>
      let m := fmodRat x.val y.val
      .ok (if m = 0 then zero y.signbit
        else if decide (y.val < 0) != decide (m < 0) then (fin m).add (fin y.val)
        else fin m)

/-- `math.floor(x)` for a float. -/
def floor : PyFloat → Res Int
  | nan => .error .valueError
  | inf _ => .error .overflowError
  | x => .ok ⌊x.val⌋

/-- `round(x, ndigits)` for a finite float (CPython's `float.__round__`): the decimal number nearest to the exact value,
ties to even, as a float. -/
def roundDigits (x : PyFloat) (ndigits : Int) : PyFloat :=
  if x.val = 0 then x
  else if ndigits > 323 then x
  else if ndigits < -308 then zero x.signbit
  else
    let r := (roundHalfEven (x.val * (10 : ℚ) ^ ndigits) : ℚ) / (10 : ℚ) ^ ndigits
    if r = 0 then zero x.signbit else ofRat r

end PyFloat

namespace IBMFloat

/-- `IBMFloat.from_float_without_underflow(p) if isinstance(v, IBMFloat) else p`, as at ibm_float.py:441, 473, 482, 494
and 505. -/
def wrap (v : PyNum) (p : PyFloat) : Res PyNum :=
  match v with
  | .ibm _ => do return .ibm (← fromFloatWithoutUnderflow p)
  | _ => .ok (.float p)

/-- `x + rhs`, ibm_float.py:490-494. -/
def addNum (x : IBMFloat) (rhs : PyNum) : Res PyNum := do
  let p := x.toFloat.add (← floatOfNum rhs)
  wrap rhs p

/-- `lhs + x`, ibm_float.py:496-499. -/
def raddNum (x : IBMFloat) (lhs : PyNum) : Res PyNum := do return .float ((← floatOfNum lhs).add x.toFloat)

/-- `x - rhs`, ibm_float.py:501-505. -/
def subNum (x : IBMFloat) (rhs : PyNum) : Res PyNum := do
  let p := x.toFloat.sub (← floatOfNum rhs)
  wrap rhs p

/-- `lhs - x`, ibm_float.py:507-510. -/
def rsubNum (x : IBMFloat) (lhs : PyNum) : Res PyNum := do return .float ((← floatOfNum lhs).sub x.toFloat)

/-- `x * rhs`, ibm_float.py:478-482. -/
def mulNum (x : IBMFloat) (rhs : PyNum) : Res PyNum := do
  let p := x.toFloat.mul (← floatOfNum rhs)
  wrap rhs p

/-- `lhs * x`, ibm_float.py:484-488. -/
def rmulNum (x : IBMFloat) (lhs : PyNum) : Res PyNum := do
  let p := (← floatOfNum lhs).mul x.toFloat
  match lhs with
  | .ibm _ => return .ibm (← fromFloat p)
  | _ => return .float p

/-- `x / rhs`, ibm_float.py:437-441. -/
def truedivNum (x : IBMFloat) (rhs : PyNum) : Res PyNum := do
  let q ← x.toFloat.div (← floatOfNum rhs)
  wrap rhs q

/-- `lhs / x`, ibm_float.py:443-447: here the result is an `IBMFloat` if the other operand is a float. -/
def rtruedivNum (x : IBMFloat) (lhs : PyNum) : Res PyNum := do
  let q ← (← floatOfNum lhs).div x.toFloat
  match lhs with
  | .float _ => return .ibm (← fromFloatWithoutUnderflow q)
  | _ => return .float q

/-- `x // rhs`, ibm_float.py:431-432. -/
def floordivNum (x : IBMFloat) (rhs : PyNum) : Res Int := do (← x.toFloat.div (← floatOfNum rhs)).floor

/-- `lhs // x`, ibm_float.py:434-435. -/
def rfloordivNum (x : IBMFloat) (lhs : PyNum) : Res Int := do (← (← floatOfNum lhs).div x.toFloat).floor

/-- `x % rhs`, ibm_float.py:470-473. -/
def modNum (x : IBMFloat) (rhs : PyNum) : Res PyNum := do
  let p ← x.toFloat.mod (← floatOfNum rhs)
  wrap rhs p

/-- `lhs % x`, ibm_float.py:475-477. -/
def rmodNum (x : IBMFloat) (lhs : PyNum) : Res PyNum := do return .float (← (← floatOfNum lhs).mod x.toFloat)

/-- `x < rhs`, ibm_float.py:512-515. -/
def ltNum (x : IBMFloat) (rhs : PyNum) : Res Bool := do return x.toFloat.lt (← floatOfNum rhs)

/-- `x <= rhs`, ibm_float.py:517-520. -/
def leNum (x : IBMFloat) (rhs : PyNum) : Res Bool := do return x.toFloat.le (← floatOfNum rhs)

/-- `x > rhs`, ibm_float.py:522-525. -/
def gtNum (x : IBMFloat) (rhs : PyNum) : Res Bool := do return (← floatOfNum rhs).lt x.toFloat

/-- `x >= rhs`, ibm_float.py:527-530. -/
def geNum (x : IBMFloat) (rhs : PyNum) : Res Bool := do return (← floatOfNum rhs).le x.toFloat

/-- `round(x, ndigits)`, ibm_float.py:540-543; `none` is `None`, for which `round` of a float is an int.  That int, if it
is not too large for a float, is converted by `ieee2ibm` as the float it equals. -/
def round (x : IBMFloat) (ndigits : Option Int) : Res IBMFloat :=
  match ndigits with
  | none => do fromFloatWithoutUnderflow (← PyFloat.ofInt (roundHalfEven x.toFloat.val))
  | some n => fromFloatWithoutUnderflow (x.toFloat.roundDigits n)

/-- One addition of `sum`: `total + x`, which calls `x.__radd__` unless the total is an `IBMFloat`. -/
def sumStep (total : PyNum) (x : IBMFloat) : Res PyNum :=
  match total with
  | .ibm t => t.addNum (.ibm x)
  | v => x.raddNum v

/-- `sum(samples)` for `IBMFloat`s, which starts from the int 0. -/
def sum (samples : List IBMFloat) : Res PyNum := samples.foldlM sumStep (.int 0)

end IBMFloat

end Segpy
