import Verif.Py.Float

/-!
# IEEE-754 binary32 as stored by `struct` and `array` (code `'f'`)

Conversions between Python floats and the 32 bits of a C `float`.  There is one NaN; it is stored as `0x7fc00000`.
-/

namespace Segpy

/-- Rounding to binary32, ignoring overflow. -/
abbrev round32 (q : ℚ) : ℚ := roundTo 24 (-149) q

/-- The bits, without the sign, of a number that binary32 can represent.  With quantum `2^u` the stored integer is
`(u + 149) * 2^23` plus the significand: for a normal number the significand's top bit adds one to the exponent. -/
def magnitude32 (r : ℚ) : Nat :=
  if r = 0 then 0
  else
    let u := max (frexpExp r - 24) (-149)
    (u + 149).toNat * 2 ^ 23 + (⌊|r| / (2 : ℚ) ^ u⌋).toNat

/-- `PyFloat_Pack4`: the bits of the nearest binary32 number; `OverflowError` when a finite float is too large. -/
def float32Bits : PyFloat → Res Nat
  | .nan => .ok 0x7fc00000
  | .inf neg => .ok ((if neg then 2 ^ 31 else 0) + 0x7f800000)
  | .negZero => .ok (2 ^ 31)
  | .fin q =>
    let r := round32 q
    if (2 : ℚ) ^ (128 : Int) ≤ |r| then .error .overflowError
    else .ok ((if q < 0 then 2 ^ 31 else 0) + magnitude32 r)

/-- `PyFloat_Unpack4`: the float with the given bits (every binary32 number is a binary64 number). -/
def float32OfBits (bits : Nat) : PyFloat :=
  let neg : Bool := decide (bits / 2 ^ 31 % 2 = 1)
  let exponent : Nat := bits / 2 ^ 23 % 256
  let fraction : Nat := bits % 2 ^ 23
  if exponent = 255 then
    if fraction = 0 then .inf neg else .nan
  else
    let value : ℚ := if exponent = 0 then (fraction : ℚ) * (2 : ℚ) ^ (-149 : Int)
      else ((2 ^ 23 + fraction : Nat) : ℚ) * (2 : ℚ) ^ ((exponent : Int) - 150)
    if value = 0 then PyFloat.zero neg else .fin (if neg then -value else value)

end Segpy
