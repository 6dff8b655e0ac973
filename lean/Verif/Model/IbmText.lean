import Verif.Model.IbmFloat

/-!
# Model of `repr(x)` and `str(x)` for an `IBMFloat`

`segpy/ibm_float.py:230-237`.  Text is a list of characters.  What Python's `repr` of a float gives (which is also its
`str`) is a parameter.
-/

namespace Segpy.IBMFloat

/-- `'0x{:02x}'.format(b)`, ibm_float.py:233: the hexadecimal digits, in lower case, filled up to two with zeros. -/
def hexLiteral (b : UInt8) : List Char :=
  let ds := Nat.toDigits 16 b.toNat
  ['0', 'x'] ++ List.replicate (2 - ds.length) '0' ++ ds

/-- `repr(x)`, ibm_float.py:230-234; `floatRepr` is `repr` of a float. -/
def reprText (floatRepr : PyFloat → List Char) (x : IBMFloat) : List Char :=
  "IBMFloat".toList ++ "(bytes([".toList ++ List.intercalate ", ".toList (x.toBytes.map hexLiteral) ++ "])) ≈ ".toList
    ++ floatRepr x.toFloat

/-- `str(x)`, ibm_float.py:236-237; `floatRepr` is `str` of a float. -/
def strText (floatRepr : PyFloat → List Char) (x : IBMFloat) : List Char := floatRepr x.toFloat

end Segpy.IBMFloat
