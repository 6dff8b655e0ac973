import Verif.Py.Basic
import Mathlib.Data.Rat.Floor
import Mathlib.Algebra.Order.Field.Power
import Mathlib.Tactic.Linarith
import Mathlib.Tactic.NormNum
import Mathlib.Tactic.Positivity
import Mathlib.Tactic.FieldSimp
import Mathlib.Tactic.Ring

/-!
# Python floats (IEEE-754 binary64) and binary32 rounding

A finite non-zero float is represented by its exact rational value, `+0.0` by `fin 0`, `-0.0` by
`negZero`.  NaN payloads are not modelled.  Every arithmetic operation computes the exact rational
result and rounds it to nearest, ties to even, as IEEE-754 prescribes and CPython relies on.
-/

namespace Segpy

/-- A Python `float`. -/
inductive PyFloat where
  | fin (q : ℚ)
  | negZero
  | inf (neg : Bool)
  | nan
  deriving DecidableEq

/-- The exponent returned by `math.frexp` for a non-zero number `q`: the `e` with
`2^(e-1) ≤ |q| < 2^e`. -/
def frexpExp (q : ℚ) : Int :=
  let k : Int := (Nat.log2 q.num.natAbs : Int) - (Nat.log2 q.den : Int)
  if (2 : ℚ) ^ k ≤ |q| then k + 1 else k

/-- Round a rational to an integer, to nearest, ties to even. -/
def roundHalfEven (x : ℚ) : Int :=
  let f := x.floor
  let r := x - f
  if r < 1 / 2 then f
  else if 1 / 2 < r then f + 1
  else if f % 2 = 0 then f else f + 1

/-- Round to a binary format with `p` bits of precision and least quantum `2^emin`, ignoring
overflow. -/
def roundTo (p : Nat) (emin : Int) (q : ℚ) : ℚ :=
  if q = 0 then 0
  else
    let u := max (frexpExp q - p) emin
    (roundHalfEven (q / (2 : ℚ) ^ u) : ℚ) * (2 : ℚ) ^ u

/-- Rounding to binary64, ignoring overflow. -/
abbrev round64 (q : ℚ) : ℚ := roundTo 53 (-1074) q

namespace PyFloat

/-- The float nearest to a non-zero exact result (overflow to infinity, underflow to signed zero). -/
def ofRat (q : ℚ) : PyFloat :=
  let r := round64 q
  if (2 : ℚ) ^ (1024 : Int) ≤ |r| then inf (q < 0)
  else if r = 0 ∧ q < 0 then negZero
  else fin r

/-- The sign bit. -/
def signbit : PyFloat → Bool
  | fin q => decide (q < 0)
  | negZero => true
  | inf n => n
  | nan => false

/-- The value of a finite float (0 for the others; only used on finite floats). -/
def val : PyFloat → ℚ
  | fin q => q
  | _ => 0

/-- Is the float finite? -/
def isFinite : PyFloat → Bool
  | fin _ => true
  | negZero => true
  | _ => false

/-- A zero with the given sign bit. -/
def zero (neg : Bool) : PyFloat := if neg then negZero else fin 0

/-- `-x`. -/
def neg : PyFloat → PyFloat
  | fin q => if q = 0 then negZero else fin (-q)
  | negZero => fin 0
  | inf n => inf (!n)
  | nan => nan

/-- `x * y` on floats. -/
def mul : PyFloat → PyFloat → PyFloat
  | nan, _ => nan
  | _, nan => nan
  | inf a, y => if y.isFinite && y.val = 0 then nan else inf (a != y.signbit)
  | x, inf b => if x.val = 0 then nan else inf (x.signbit != b)
  | x, y =>
    let r := x.val * y.val
    if r = 0 then zero (x.signbit != y.signbit) else ofRat r

/-- `x + y` on floats. -/
def add : PyFloat → PyFloat → PyFloat
  | nan, _ => nan
  | _, nan => nan
  | inf a, inf b => if a = b then inf a else nan
  | inf a, _ => inf a
  | _, inf b => inf b
  | x, y =>
    let r := x.val + y.val
    if r = 0 then zero (x.signbit && y.signbit) else ofRat r

/-- `x - y` on floats. -/
def sub (x y : PyFloat) : PyFloat := add x (neg y)

/-- `x / y` on floats; division by zero raises in Python. -/
def div : PyFloat → PyFloat → Res PyFloat
  | x, y =>
    if y.isFinite && y.val = 0 then .error .zeroDivisionError
    else match x, y with
      | nan, _ => .ok nan
      | _, nan => .ok nan
      | inf _, inf _ => .ok nan
      | inf a, y => .ok (inf (a != y.signbit))
      | x, inf b => .ok (zero (x.signbit != b))
      | x, y =>
        let r := x.val / y.val
        .ok (if r = 0 then zero (x.signbit != y.signbit) else ofRat r)

/-- `x < y` on floats. -/
def lt : PyFloat → PyFloat → Bool
  | nan, _ => false
  | _, nan => false
  | inf a, inf b => a && !b
  | inf a, _ => a
  | _, inf b => !b
  | x, y => decide (x.val < y.val)

/-- `x == y` on floats. -/
def eq : PyFloat → PyFloat → Bool
  | nan, _ => false
  | _, nan => false
  | inf a, inf b => a == b
  | inf _, _ => false
  | _, inf _ => false
  | x, y => decide (x.val = y.val)

/-- `x <= y` on floats. -/
def le (x y : PyFloat) : Bool := lt x y || eq x y

/-- `float(n)` for a Python int. -/
def ofInt (n : Int) : Res PyFloat :=
  match ofRat n with
  | inf _ => .error .overflowError
  | f => .ok f

/-- Is the object a genuine binary64 value (finite floats carry a representable rational)? -/
def IsF64 : PyFloat → Prop
  | fin q => round64 q = q ∧ |q| < (2 : ℚ) ^ (1024 : Int)
  | _ => True

end PyFloat

end Segpy
