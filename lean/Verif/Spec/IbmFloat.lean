import Mathlib.Data.Rat.Floor
import Verif.Model.IbmFloat

/-!
# Specification: the number denoted by four bytes of IBM single-precision hexadecimal floating point

`(-1)^sign · 0.mantissa · 16^(characteristic - 64)` with a sign bit, a 7-bit characteristic and a
24-bit mantissa.  Written with plain arithmetic; from the model only the four-byte object type
`IBMFloat` is used.
-/

namespace Segpy.Spec

/-- The 24-bit mantissa as a natural number. -/
def ibmMantissa (b c d : UInt8) : Nat := b.toNat * 65536 + c.toNat * 256 + d.toNat

/-- The exact rational value of an IBM float. -/
def ibmValue (a b c d : UInt8) : ℚ :=
  (if a.toNat < 128 then 1 else -1) * ((ibmMantissa b c d : ℚ) / 2 ^ 24)
    * (16 : ℚ) ^ (((a.toNat % 128 : Nat) : Int) - 64)

/-- A number is IBM-representable when some four bytes denote it. -/
def IbmRepresentable (q : ℚ) : Prop := ∃ a b c d, ibmValue a b c d = q

/-- The largest IBM magnitude, `0.FFFFFF · 16^63`. -/
def ibmMax : ℚ := (2 ^ 24 - 1) / 2 ^ 24 * 16 ^ 63

/-- The smallest positive IBM magnitude, `0.000001 · 16^-64`. -/
def ibmTiny : ℚ := 1 / 2 ^ 24 / 16 ^ 64

/-- The smallest positive magnitude of a normalised IBM float, `0.1 · 16^-64`. -/
def ibmMinNormal : ℚ := 1 / 16 ^ 65

/-- A normalised pattern: leading hexadecimal digit of the mantissa non-zero, or all four bytes zero. -/
def IbmNormalised (a b c d : UInt8) : Prop :=
  16 ≤ b.toNat ∨ (a = 0 ∧ b = 0 ∧ c = 0 ∧ d = 0)

instance (a b c d : UInt8) : Decidable (IbmNormalised a b c d) := by
  unfold IbmNormalised; infer_instance

/-- `r` is `v` truncated toward zero to IBM precision: the representable number of greatest magnitude
not exceeding `|v|`, with the sign of `v`. -/
structure IsTruncation (v r : ℚ) : Prop where
  representable : IbmRepresentable r
  le : |r| ≤ |v|
  same_sign : 0 ≤ r * v
  greatest : ∀ w, IbmRepresentable w → |w| ≤ |v| → |w| ≤ |r|

/-- The exact value of an `IBMFloat` object: that of its four bytes. -/
def _root_.Segpy.IBMFloat.value (x : IBMFloat) : ℚ := ibmValue x.a x.b x.c x.d

/-- The object's bytes are a normalised pattern. -/
def _root_.Segpy.IBMFloat.Normalised (x : IBMFloat) : Prop := IbmNormalised x.a x.b x.c x.d

end Segpy.Spec
