import Verif.Py.Float
import Mathlib.Data.Nat.Bitwise

/-!
# Model of `segpy/ibm_float.py`
-/

namespace Segpy

/-- `MAX_IBM_FLOAT = 7.2370051459731155e+75`, ibm_float.py:14 (and its negation, line 11): the decimal
literal rounded to a double as Python's parser does. -/
def MAX_IBM_FLOAT : ℚ := round64 (72370051459731155 * 10 ^ 59)

/-- `MIN_IBM_FLOAT = -7.2370051459731155e+75`, ibm_float.py:11. -/
def MIN_IBM_FLOAT : ℚ := -MAX_IBM_FLOAT

/-- `_L24`/`_F24`, ibm_float.py:19-20. -/
def L24 : Nat := 2 ^ 24

/-- `EXPONENT_BIAS`, ibm_float.py:25. -/
def EXPONENT_BIAS : Int := 64

/-- `IBMFloat`: an object holding exactly four bytes, ibm_float.py:136-148. -/
structure IBMFloat where
  a : UInt8
  b : UInt8
  c : UInt8
  d : UInt8
  deriving DecidableEq, Repr

namespace IBMFloat

/-- `IBMFloat(b)` / `IBMFloat.from_bytes(b)`, ibm_float.py:140-148, 196-198. -/
def fromBytes : Bytes → Res IBMFloat
  | [a, b, c, d] => .ok ⟨a, b, c, d⟩
  | _ => .error .valueError

/-- `bytes(x)`, ibm_float.py:227-228. -/
def toBytes (x : IBMFloat) : Bytes := [x.a, x.b, x.c, x.d]

/-- `IBM_FLOAT_ZERO`, ibm_float.py:7, 549. -/
def zero : IBMFloat := ⟨0, 0, 0, 0⟩

/-- `bytes((a, b, c, d))` wrapped in an `IBMFloat`: `ValueError` unless every item is in `range(256)`.
Used at ibm_float.py:133 and 418. -/
def ofNats (a b c d : Nat) : Res IBMFloat :=
  if a < 256 ∧ b < 256 ∧ c < 256 ∧ d < 256 then
    .ok ⟨UInt8.ofNat a, UInt8.ofNat b, UInt8.ofNat c, UInt8.ofNat d⟩
  else .error .valueError

/-- `signbit`, ibm_float.py:219-222. -/
def signbit (x : IBMFloat) : Bool := decide (x.a.toNat &&& 0x80 ≠ 0)

/-- `exp16`, ibm_float.py:360-365. -/
def exp16 (x : IBMFloat) : Int := ((x.a.toNat &&& 0x7f : Nat) : Int) - EXPONENT_BIAS

/-- `int_mantissa`, ibm_float.py:367-370. -/
def intMantissa (x : IBMFloat) : Nat :=
  (x.b.toNat <<< 16) ||| (x.c.toNat <<< 8) ||| x.d.toNat

/-- `is_zero`, ibm_float.py:242-243. -/
def isZero (x : IBMFloat) : Bool := x.intMantissa == 0

/-- `is_subnormal`, ibm_float.py:245-250. -/
def isSubnormal (x : IBMFloat) : Bool :=
  if x.isZero then !(x.a == 0 && x.b == 0 && x.c == 0 && x.d == 0)
  else decide (x.b.toNat < 16)

/-- `zero_subnormal`, ibm_float.py:252-253. -/
def zeroSubnormal (x : IBMFloat) : IBMFloat := if x.isSubnormal then zero else x

/-- The Python value of `pow(16, k)` used as a float operand: an int for `k ≥ 0`, converted to double by
the multiplication, a float for `k < 0`; ibm_float.py:49.  Exactness of C's `pow` on powers of two is
assumed up to the rounding to double performed here. -/
def pow16 (k : Int) : PyFloat := PyFloat.ofRat ((16 : ℚ) ^ k)

/-- `ibm2ieee`, ibm_float.py:31-50, with every double operation rounded. -/
def ibm2ieee (x : IBMFloat) : PyFloat :=
  if x.b = 0 ∧ x.c = 0 ∧ x.d = 0 then .fin 0
  else
    let sign : PyFloat := if x.a.toNat &&& 0x80 ≠ 0 then .fin (-1) else .fin 1
    let exponent_16_biased : Int := (x.a.toNat &&& 0x7f : Nat)
    let mantissa : PyFloat :=
      PyFloat.ofRat ((((x.b.toNat <<< 16) ||| (x.c.toNat <<< 8) ||| x.d.toNat : Nat) : ℚ) / (L24 : ℚ))
    (sign.mul mantissa).mul (pow16 (exponent_16_biased - EXPONENT_BIAS))

/-- `float(x)`, ibm_float.py:224-225. -/
def toFloat (x : IBMFloat) : PyFloat := x.ibm2ieee

/-- The part of `ieee2ibm` after the range checks, ibm_float.py:96-133, for a finite non-zero `q`.
`frexp` returns `(q / 2^e, e)` exactly; the product `m * _L24` only changes the exponent of the double
`m` and so is exact. -/
def ieee2ibmCore (q : ℚ) : Res IBMFloat :=
  let e := frexpExp q
  let m := q / (2 : ℚ) ^ e
  let mantissa : Nat := (if m * (L24 : ℚ) < 0 then ⌈m * (L24 : ℚ)⌉ else ⌊m * (L24 : ℚ)⌋).natAbs
  let sign : Nat := if q < 0 then 0x80 else 0x00
  let remainder := e.fmod 4
  let mantissa := if remainder ≠ 0 then mantissa >>> (4 - remainder).toNat else mantissa
  let exponent := if remainder ≠ 0 then e + (4 - remainder) else e
  let exponent_16 := exponent.fdiv 4
  let biased := exponent_16 + EXPONENT_BIAS
  let finish (biased : Int) (mantissa : Nat) : Res IBMFloat :=
    ofNats (sign ||| biased.toNat) ((mantissa >>> 16) &&& 0xff) ((mantissa >>> 8) &&& 0xff)
      (mantissa &&& 0xff)
  if biased < 0 then
    let shift_16 := 0 - biased
    let mantissa := mantissa >>> (4 * shift_16).toNat
    if mantissa = 0 then .error .floatingPointError
    else finish (biased + shift_16) mantissa
  else finish biased mantissa

/-- `ieee2ibm`, ibm_float.py:56-133. -/
def ieee2ibm : PyFloat → Res IBMFloat
  | .negZero => .ok zero
  | .nan => .error .valueError
  | .inf _ => .error .valueError
  | .fin q =>
    if q = 0 then .ok zero
    else if q < MIN_IBM_FLOAT then .error .overflowError
    else if q > MAX_IBM_FLOAT then .error .overflowError
    else ieee2ibmCore q

/-- `IBMFloat.from_float(f)` for a float `f`, ibm_float.py:150-167. -/
def fromFloat (f : PyFloat) : Res IBMFloat := ieee2ibm f

/-- `IBMFloat.from_float_without_underflow(f)`, ibm_float.py:169-190. -/
def fromFloatWithoutUnderflow (f : PyFloat) : Res IBMFloat :=
  match ieee2ibm f with
  | .error .floatingPointError => .ok zero
  | r => r

/-- `ldexp`, ibm_float.py:200-217, for a float fraction; `2**exponent` is an int or an exact float, and
the product is rounded. -/
def ldexp (fraction : PyFloat) (exponent : Int) : Res IBMFloat :=
  if !((PyFloat.fin (-1)).le fraction && fraction.le (.fin 1)) then .error .valueError
  else if !(-256 ≤ exponent && exponent < 256) then .error .valueError
  else fromFloat (fraction.mul (PyFloat.ofRat ((2 : ℚ) ^ exponent)))

/-- `frexp`, ibm_float.py:255-265 (`sign * int_mantissa` is an int, divided by a float). -/
def frexp (x : IBMFloat) : PyFloat × Int :=
  let sign : Int := if x.signbit then -1 else 1
  let n : Int := sign * x.intMantissa
  let mantissa := if n = 0 then PyFloat.fin 0 else PyFloat.ofRat ((n : ℚ) / (L24 : ℚ))
  (mantissa, x.exp16 * 4)

/-- `as_integer_ratio`, ibm_float.py:267-279. -/
def asIntegerRatio (x : IBMFloat) : Int × Int :=
  let sign : Int := if x.signbit then -1 else 1
  let e16 := x.exp16
  let numerator : Nat := if e16 ≥ 0 then x.intMantissa * 16 ^ x.exp16.toNat else x.intMantissa
  let denominator : Nat := if e16 ≥ 0 then L24 else L24 * 16 ^ x.exp16.natAbs
  let divisor := Nat.gcd numerator denominator
  ((sign * numerator).fdiv divisor, (denominator : Int).fdiv divisor)

/-- `__neg__`, ibm_float.py:284-292. -/
def neg (x : IBMFloat) : IBMFloat :=
  if x.isZero then zero else ⟨x.a ^^^ 0b10000000, x.b, x.c, x.d⟩

/-- `__abs__`, ibm_float.py:294-302. -/
def abs (x : IBMFloat) : IBMFloat :=
  if x.isZero then zero else ⟨x.a &&& 0b01111111, x.b, x.c, x.d⟩

/-- The `while` loop of `normalize`, ibm_float.py:401-407.  `none` is the `FloatingPointError`.  Python's
loop is unbounded; the structural argument `fuel` bounds it by the number of available exponents, and
running out of fuel is impossible from a legal exponent (`Lemmas.IbmFloat`). -/
def normalizeLoop : Nat → Int → Nat → Option (Int × Nat)
  | 0, _, _ => none
  | fuel + 1, exponent_16, mantissa =>
    if mantissa < 1 <<< 20 then
      let new_exponent_16 := exponent_16 - 1
      if !(-64 ≤ new_exponent_16 && new_exponent_16 < 64) then none
      else normalizeLoop fuel new_exponent_16 (mantissa <<< 4)
    else some (exponent_16, mantissa)

/-- `normalize`, ibm_float.py:386-418. -/
def normalize (x : IBMFloat) : Res IBMFloat :=
  if x.isZero then .ok zero
  else
    match normalizeLoop 129 x.exp16 x.intMantissa with
    | none => .error .floatingPointError
    | some (exponent_16, mantissa) =>
      let exponent_16_biased := exponent_16 + EXPONENT_BIAS
      let sign : Nat := x.signbit.toNat <<< 7
      ofNats (sign ||| exponent_16_biased.toNat) ((mantissa >>> 16) &&& 0xff)
        ((mantissa >>> 8) &&& 0xff) (mantissa &&& 0xff)

/-- `try_normalize`, ibm_float.py:420-429. -/
def tryNormalize (x : IBMFloat) : Res IBMFloat :=
  match x.normalize with
  | .error .floatingPointError => .ok x
  | r => r

/-- `__eq__` between two IBMFloats, ibm_float.py:304-358.  (`lhs is rhs` implies `lhs._data == rhs._data`
and gives the same answer, so object identity need not be modelled.) -/
def eqIbm (lhs rhs : IBMFloat) : Res Bool :=
  if lhs = rhs then .ok true
  else if lhs.signbit ≠ rhs.signbit then .ok false
  else do
    let nlhs ← lhs.tryNormalize
    let nrhs ← rhs.tryNormalize
    if !(nlhs.isSubnormal || nrhs.isSubnormal) then return decide (nlhs = nrhs)
    let lhs_exp16 := nlhs.exp16
    let rhs_exp16 := nrhs.exp16
    let lhs_mantissa :=
      if lhs_exp16 < rhs_exp16 then nlhs.intMantissa >>> (4 * (rhs_exp16 - lhs_exp16)).toNat
      else nlhs.intMantissa
    let lhs_exp16' := if lhs_exp16 < rhs_exp16 then rhs_exp16 else lhs_exp16
    let rhs_mantissa :=
      if lhs_exp16' > rhs_exp16 then nrhs.intMantissa >>> (4 * (lhs_exp16' - rhs_exp16)).toNat
      else nrhs.intMantissa
    let rhs_exp16' := if lhs_exp16' > rhs_exp16 then lhs_exp16' else rhs_exp16
    if lhs_exp16' ≠ rhs_exp16' then .error .assertionError
    else return decide (lhs_mantissa = rhs_mantissa)

/-- `float.as_integer_ratio()` of a finite float: numerator and denominator in lowest terms (a Python
built-in; `Rat` stores exactly that). -/
def ratIntegerRatio (q : ℚ) : Int × Int := (q.num, q.den)

/-- `__eq__` against a float, ibm_float.py:310-315. -/
def eqFloat (lhs : IBMFloat) (rhs : PyFloat) : Bool :=
  match rhs with
  | .nan => PyFloat.eq (.fin 0) rhs
  | .inf _ => PyFloat.eq (.fin 0) rhs
  | _ =>
    let l := lhs.asIntegerRatio
    let r := ratIntegerRatio rhs.val
    decide (l.1 = r.1) && decide (l.2 = r.2)

/-- `__eq__` against a `Rational` (an `int` or `Fraction`), ibm_float.py:317-319. -/
def eqRational (lhs : IBMFloat) (rhs : ℚ) : Bool :=
  let l := lhs.asIntegerRatio
  decide (l.1 = rhs.num) && decide (l.2 = (rhs.den : Int))

/-- `__trunc__` / `__int__`, ibm_float.py:372-384, 545-546.  For a negative exponent
`pow(16, exponent_16)` is a float, the product is a float and `int` truncates it; for a non-negative
exponent everything is exact integer arithmetic.  `x & ~y` is `Nat.ldiff x y`. -/
def trunc (x : IBMFloat) : Int :=
  let sign : Int := if x.signbit then -1 else 1
  let exponent_16 := x.exp16
  let mantissa := x.intMantissa
  let num_nybbles_to_preserve := min exponent_16 (24 / 4)
  let num_bits_to_clear := 24 - num_nybbles_to_preserve * 4
  let clear_mask : Nat := 2 ^ num_bits_to_clear.toNat - 1
  let preserve_mask : Nat := Nat.ldiff (2 ^ 24 - 1) clear_mask
  let truncated_mantissa : Nat := mantissa &&& preserve_mask
  let product : Int :=
    if 0 ≤ exponent_16 then (truncated_mantissa : Int) * 16 ^ exponent_16.toNat
    else ((PyFloat.ofRat truncated_mantissa).mul (pow16 exponent_16)).val.floor
  let magnitude : Int := product >>> 24
  sign * magnitude

/-- `__ceil__`, ibm_float.py:532-534. -/
def ceil (x : IBMFloat) : Int :=
  let t := x.trunc
  if x.signbit then t else t + 1

/-- `__floor__`, ibm_float.py:536-538. -/
def floor (x : IBMFloat) : Int :=
  let t := x.trunc
  if x.signbit then t - 1 else t

/-- `__mul__` of two IBMFloats, ibm_float.py:478-482. -/
def mul (x y : IBMFloat) : Res IBMFloat :=
  fromFloatWithoutUnderflow (x.toFloat.mul y.toFloat)

/-- `__add__` of two IBMFloats, ibm_float.py:490-494. -/
def add (x y : IBMFloat) : Res IBMFloat :=
  fromFloatWithoutUnderflow (x.toFloat.add y.toFloat)

/-- `__sub__` of two IBMFloats, ibm_float.py:501-505. -/
def sub (x y : IBMFloat) : Res IBMFloat :=
  fromFloatWithoutUnderflow (x.toFloat.sub y.toFloat)

/-- `__truediv__` of two IBMFloats, ibm_float.py:437-441. -/
def truediv (x y : IBMFloat) : Res IBMFloat := do
  let q ← x.toFloat.div y.toFloat
  fromFloatWithoutUnderflow q

/-- `__lt__`, ibm_float.py:512-515. -/
def lt (x y : IBMFloat) : Bool := x.toFloat.lt y.toFloat

/-- `__le__`, ibm_float.py:517-520. -/
def le (x y : IBMFloat) : Bool := x.toFloat.le y.toFloat

/-- `__gt__`, ibm_float.py:522-525. -/
def gt (x y : IBMFloat) : Bool := y.toFloat.lt x.toFloat

/-- `__ge__`, ibm_float.py:527-530. -/
def ge (x y : IBMFloat) : Bool := y.toFloat.le x.toFloat

/-- `__lt__` against a float, ibm_float.py:512-515 (`float(rhs)` of a float is itself). -/
def ltFloat (x : IBMFloat) (f : PyFloat) : Bool := x.toFloat.lt f

/-- `__le__` against a float, ibm_float.py:517-520. -/
def leFloat (x : IBMFloat) (f : PyFloat) : Bool := x.toFloat.le f

/-- `__gt__` against a float, ibm_float.py:522-525. -/
def gtFloat (x : IBMFloat) (f : PyFloat) : Bool := f.lt x.toFloat

/-- `__ge__` against a float, ibm_float.py:527-530. -/
def geFloat (x : IBMFloat) (f : PyFloat) : Bool := f.le x.toFloat

/-- `__floordiv__` of two IBMFloats, ibm_float.py:431-432: the floor of the double quotient. -/
def floordiv (x y : IBMFloat) : Res Int := do
  let q ← x.toFloat.div y.toFloat
  return ⌊q.val⌋

/-- `__bool__`, ibm_float.py:239-240. -/
def toBool (x : IBMFloat) : Bool := !x.isZero

end IBMFloat

end Segpy
