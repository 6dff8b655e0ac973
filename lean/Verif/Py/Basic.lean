/-!
# Python basics: exceptions as values, byte strings

Every modelled function that can raise returns `Res α = Except Err α`.  An `Err` is the class of the
raised exception; messages are not modelled.
-/

namespace Segpy

/-- Exception classes that can escape the modelled functions.  `unicodeError` covers both
`UnicodeEncodeError` and `UnicodeDecodeError` (in Python these are subclasses of `ValueError`;
`Err.isValueError` records that, for `except ValueError` clauses).  `nonTermination` is not an exception: it
marks that a modelled loop used up its bound on the number of iterations. -/
inductive Err where
  | valueError
  | typeError
  | keyError
  | indexError
  | eofError
  | overflowError
  | floatingPointError
  | runtimeError
  | zeroDivisionError
  | structError
  | unicodeError
  | assertionError
  | attributeError
  | fileNotFoundError
  | osError
  | unsupportedEncodingError
  | segyRevisionError
  | nonTermination
  deriving DecidableEq, Repr

/-- Is the exception caught by `except ValueError`? -/
def Err.isValueError : Err → Bool
  | .valueError => true
  | .unicodeError => true
  | _ => false

/-- Result of a Python computation: a value or a raised exception. -/
abbrev Res (α : Type) := Except Err α

deriving instance DecidableEq for Except

/-- Python `bytes`. -/
abbrev Bytes := List UInt8

/-- Python `str`: a sequence of code points (lone surrogates, which Lean's `Char` excludes, are not
modelled). -/
abbrev PyStr := List Char

/-- Did the computation raise? -/
def Res.raised {α : Type} : Res α → Bool
  | .error _ => true
  | .ok _ => false

end Segpy
