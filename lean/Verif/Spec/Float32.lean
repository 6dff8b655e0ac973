import Mathlib.Algebra.Order.Field.Power
import Mathlib.Data.Rat.Floor

/-! # Specification: floating point formats -/

namespace Segpy.Spec

/-- A number a binary format with `p` significant bits and least quantum `2^emin` can represent (ignoring the upper end
of its range). -/
def Representable (p : Nat) (emin : Int) (q : ℚ) : Prop :=
  ∃ m u : Int, q = m * (2 : ℚ) ^ u ∧ |m| < 2 ^ p ∧ emin ≤ u

/-- A finite IEEE-754 binary32 value. -/
def IsFloat32 (q : ℚ) : Prop := Representable 24 (-149) q ∧ |q| < (2 : ℚ) ^ (128 : Int)

/-- The finite number denoted by 32 bits of IEEE-754 binary32: `±1.f · 2^(e-127)`, or `±0.f · 2^-126` when the exponent
field is zero. -/
def float32Value (bits : Nat) : ℚ :=
  let fraction : ℚ := (bits % 2 ^ 23 : Nat) / 2 ^ 23
  let exponent : Nat := bits / 2 ^ 23 % 2 ^ 8
  (if bits < 2 ^ 31 then 1 else -1) *
    (if exponent = 0 then fraction * (2 : ℚ) ^ (-126 : Int) else (1 + fraction) * (2 : ℚ) ^ ((exponent : Int) - 127))

end Segpy.Spec
