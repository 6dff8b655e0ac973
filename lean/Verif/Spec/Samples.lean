import Verif.Spec.Float32
import Verif.Spec.IbmFloat
import Verif.Model.Samples

/-! # Specification: how samples are stored

From the model only the types of samples and of stored formats are used. -/

namespace Segpy.Spec

/-- Size in bytes of an integer type. -/
def intSize : IntType → Nat
  | .int32 | .nnint32 => 4
  | .int16 | .nnint16 => 2
  | .int8 | .nnint8 => 1

/-- Least storable value of an integer type: two's complement, or unsigned for the non-negative types. -/
def intLo : IntType → Int
  | .int32 => -2147483648
  | .int16 => -32768
  | .int8 => -128
  | .nnint32 | .nnint16 | .nnint8 => 0

/-- Greatest storable value of an integer type. -/
def intHi : IntType → Int
  | .int32 => 2147483647
  | .nnint32 => 4294967295
  | .int16 => 32767
  | .nnint16 => 65535
  | .int8 => 127
  | .nnint8 => 255

/-- The significand of a binary32 number is even, in its normal form. -/
def EvenSignificand32 (r : ℚ) : Prop :=
  ∃ m u : Int, r = (2 * m : Int) * (2 : ℚ) ^ u ∧ |2 * m| < 2 ^ 24 ∧ -149 ≤ u ∧ (u = -149 ∨ 2 ^ 23 ≤ |2 * m|)

/-- `r` is `q` rounded to binary32, to nearest, ties to even. -/
structure IsRounding32 (q r : ℚ) : Prop where
  float32 : IsFloat32 r
  nearest : ∀ w, IsFloat32 w → |r - q| ≤ |w - q|
  ties_to_even : ∀ w, IsFloat32 w → w ≠ r → |w - q| = |r - q| → EvenSignificand32 r

/-- What a Python float becomes when it is stored as binary32 and read again. -/
def StoredAs32 : PyFloat → PyFloat → Prop
  | .nan, g => g = .nan
  | .inf s, g => g = .inf s
  | .negZero, g => g = .negZero
  | .fin q, g => ∃ r, IsRounding32 q r ∧
      (r ≠ 0 → g = .fin r) ∧ (r = 0 → g = if q < 0 then .negZero else .fin 0)

/-- A Python float that can be stored as binary32 without overflow: below halfway from the largest binary32 number to
`2^128`. -/
def Fits32 : PyFloat → Prop
  | .fin q => |q| < (2 : ℚ) ^ (128 : Int) - 2 ^ (103 : Int)
  | _ => True

/-- What a number becomes when it is stored as an IBM float and read again. -/
def StoredAsIbm : PyNum → IBMFloat → Prop
  | .ibm y, x => x = y
  | .float (.fin q), x => IsTruncation q x.value
  | .float .negZero, x => x.value = 0
  | .float _, _ => False
  | .int n, x => IsTruncation (round64 n) x.value

/-- What a sample becomes when it is stored in a file of the given sample format and read again. -/
def StoredAs : SegYType → PyNum → PyNum → Prop
  | .int _, v, w => w = v
  | .float32, v, w => ∃ f g, v = .float f ∧ w = .float g ∧ StoredAs32 f g
  | .ibm, v, w => ∃ x, w = .ibm x ∧ StoredAsIbm v x

/-- The numbers that can be stored as IBM floats. -/
def FitsIbm : PyNum → Prop
  | .ibm _ => True
  | .float (.fin q) => q = 0 ∨ (ibmTiny ≤ |q| ∧ |q| ≤ ibmMax)
  | .float .negZero => True
  | .float _ => False
  | .int n => |(n : ℚ)| ≤ ibmMax

/-- The Python float that a number is converted to: the nearest. -/
def FloatOf : PyNum → PyFloat → Prop
  | .int n, f => |round64 n| < (2 : ℚ) ^ (1024 : Int) ∧ f = .fin (round64 n)
  | .float g, f => f = g
  | .ibm x, f => f = .fin x.value

/-- The codes of the sample formats. -/
def formatCode : SegYType → Option Int
  | .ibm => some 1
  | .int .int32 => some 2
  | .int .int16 => some 3
  | .float32 => some 5
  | .int .int8 => some 8
  | _ => none

end Segpy.Spec
