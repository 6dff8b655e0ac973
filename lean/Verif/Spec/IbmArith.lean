import Verif.Spec.IbmFloat
import Verif.Spec.Float32
import Verif.Model.Samples

/-! # Specification: correctly rounded results of arithmetic -/

namespace Segpy.Spec

/-- A number a double can represent, ignoring the upper end of the range. -/
abbrev IsDouble (q : ℚ) : Prop := Representable 53 (-1074) q

/-- `r` is `q` rounded to a double: no double is nearer, and if another is as near, `r` is the one whose last bit is
zero, so that one bit fewer would do. -/
structure NearestDouble (q r : ℚ) : Prop where
  double : IsDouble r
  nearest : ∀ w, IsDouble w → |r - q| ≤ |w - q|
  even : ∀ w, IsDouble w → w ≠ r → |w - q| = |r - q| → Representable 52 (-1073) r

/-- The float that IEEE-754 prescribes for an operation with the exact result `q`: rounded, and infinite if that is too
large; the sign is kept even if the result is rounded to zero. -/
def IsRounded (q : ℚ) (f : PyFloat) : Prop :=
  ((∃ neg, f = .inf neg ∧ (∃ r, NearestDouble q r ∧ (2 : ℚ) ^ (1024 : Int) ≤ |r|)) ∨
    (f.isFinite = true ∧ NearestDouble q f.val ∧ |f.val| < (2 : ℚ) ^ (1024 : Int))) ∧
  (q ≠ 0 → (f.signbit = true ↔ q < 0))

/-- An operand that is not an `IBMFloat`, and its value: a finite float, or an int of at most 53 bits. -/
def OperandValue : PyNum → ℚ → Prop
  | .float f, q => f.isFinite = true ∧ f.val = q
  | .int n, q => |n| ≤ 2 ^ 53 ∧ q = n
  | .ibm _, _ => False

/-- The result of an operation is the float prescribed for the exact result `q`. -/
def GivesFloat (q : ℚ) (r : Res PyNum) : Prop := ∃ g, r = .ok (.float g) ∧ IsRounded q g

/-- The result of an operation is an `IBMFloat`: the float prescribed for the exact result `q`, truncated to IBM
precision, or `OverflowError` or `ValueError` if that is too large or infinite. -/
def GivesIbm (q : ℚ) (r : Res PyNum) : Prop :=
  ∃ g, IsRounded q g ∧
    ((g.isFinite = true ∧ |g.val| ≤ ibmMax ∧ ∃ y, r = .ok (.ibm y) ∧ IsTruncation g.val y.value) ∨
     (g.isFinite = true ∧ ibmMax < |g.val| ∧ r = .error .overflowError) ∨
     (g.isFinite = false ∧ r = .error .valueError))

/-- The integer nearest to a number, the even one of two that are as near. -/
structure NearestInt (q : ℚ) (n : Int) : Prop where
  nearest : ∀ m : Int, |(n : ℚ) - q| ≤ |(m : ℚ) - q|
  even : ∀ m : Int, m ≠ n → |(m : ℚ) - q| = |(n : ℚ) - q| → n % 2 = 0

/-- The remainder of floored division. -/
def remainder (a b : ℚ) : ℚ := a - b * ⌊a / b⌋

end Segpy.Spec
