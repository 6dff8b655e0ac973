import Verif.Py.Text
import Verif.Py.Float

/-!
# Model of `segpy/encoding.py`
-/

namespace Segpy

/-- `is_supported_encoding`, encoding.py:32-33. -/
def isSupportedEncoding : Encoding → Bool
  | .ascii => true
  | .ebcdic => true
  | .other => false

/-- `COMMON_CHARS`, encoding.py:36. -/
def COMMON_CHARS : PyStr := "ABCDEFGHIJKLMNOPQRSTUVWXYZabcdefghijklmnopqrstuvwxyz0123456789:_- ".toList

/-- `COMMON_EBCDIC_CHARS` and `COMMON_ASCII_CHARS`, encoding.py:37-38. -/
def commonChars (enc : Encoding) : List UInt8 :=
  match encode enc COMMON_CHARS with
  | .ok bs => bs
  | .error _ => []

/-- `n / d` for Python ints with `d > 0`: the correctly rounded quotient. -/
def intTrueDiv (n d : Nat) : PyFloat := PyFloat.ofRat ((n : ℚ) / (d : ℚ))

/-- The counting loop of `guess_encoding`, encoding.py:57-64: (ebcdic, ascii, null, count). -/
def guessCounts : Bytes → Nat × Nat × Nat × Nat → Nat × Nat × Nat × Nat
  | [], acc => acc
  | b :: bs, (e, a, z, n) =>
    guessCounts bs (e + (if b ∈ commonChars .ebcdic then 1 else 0), a + (if b ∈ commonChars .ascii then 1 else 0),
      z + (if b = 0 then 1 else 0), n + 1)

/-- `guess_encoding(bs, threshold)`, encoding.py:41-81.  `none` is `None`. -/
def guessEncoding (bs : Bytes) (threshold : PyFloat) : Option Encoding :=
  match guessCounts bs (0, 0, 0, 0) with
  | (ebcdic_count, ascii_count, null_count, count) =>
    if count = 0 then none
    else
      let ebcdic_freq := intTrueDiv ebcdic_count count
      let ascii_freq := intTrueDiv ascii_count count
      let null_freq := intTrueDiv null_count count
      if null_freq.eq (.fin 1) then some .ascii
      else if ebcdic_freq.lt threshold && threshold.le ascii_freq then some .ascii
      else if threshold.le ebcdic_freq && ascii_freq.lt threshold then some .ebcdic
      else none

end Segpy
