import Verif.Py.Basic
import Verif.Py.Cp037

/-!
# Python text: codecs, `splitlines`, `strip`, `ljust`, substring test

Standard library behaviour used by segpy.  Strings are lists of code points.
-/

namespace Segpy

/-- A value of an `encoding` argument: the two encodings of segpy/encoding.py:8-9, or some other object
(another codec name or `None`). -/
inductive Encoding where
  | ascii
  | ebcdic
  | other
  deriving DecidableEq, Repr

/-- Decode one byte.  The ASCII codec rejects bytes from 128 on; cp037 is total.  For `.other` the codec is not
modelled and decoding is taken to fail (`None` gives `TypeError`). -/
def decodeByte : Encoding → UInt8 → Res Char
  | .ascii, b => if b.toNat < 128 then .ok (Char.ofNat b.toNat) else .error .unicodeError
  | .ebcdic, b => .ok (Char.ofNat (cp037DecodeTable.getD b.toNat 0))
  | .other, _ => .error .typeError

/-- Encode one character. -/
def encodeChar : Encoding → Char → Res UInt8
  | .ascii, c => if c.toNat < 128 then .ok (UInt8.ofNat c.toNat) else .error .unicodeError
  | .ebcdic, c => if c.toNat < 256 then .ok (UInt8.ofNat (cp037EncodeTable.getD c.toNat 0)) else .error .unicodeError
  | .other, _ => .error .typeError

/-- `bs.decode(encoding)` (strict error handling). -/
def decode (enc : Encoding) (bs : Bytes) : Res PyStr := bs.mapM (decodeByte enc)

/-- `s.encode(encoding)` (strict error handling). -/
def encode (enc : Encoding) (s : PyStr) : Res Bytes := s.mapM (encodeChar enc)

/-- `s.ljust(width, fill)`, for `str` and for `bytes`. -/
def ljust {α : Type} (s : List α) (width : Nat) (fill : α) : List α := s ++ List.replicate (width - s.length) fill

/-- Characters at which `str.splitlines` breaks a line. -/
def isLineBreak (c : Char) : Bool :=
  c.toNat ∈ [0x0A, 0x0B, 0x0C, 0x0D, 0x1C, 0x1D, 0x1E, 0x85, 0x2028, 0x2029]

/-- The loop of `splitlines(keepends=False)`.  `cur` is the current line so far (reversed);
`\r\n` is one break. -/
def splitlinesLoop : PyStr → PyStr → List PyStr
  | cur, [] => if cur.isEmpty then [] else [cur.reverse]
  | cur, '\r' :: '\n' :: rest => cur.reverse :: splitlinesLoop [] rest
  | cur, c :: rest => if isLineBreak c then cur.reverse :: splitlinesLoop [] rest else splitlinesLoop (c :: cur) rest

/-- `s.splitlines()`. -/
def splitlines (s : PyStr) : List PyStr := splitlinesLoop [] s

/-- `c.isspace()`: the white space stripped by `str.strip()` and matched by `\s`. -/
def isSpace (c : Char) : Bool :=
  let n := c.toNat
  (0x09 ≤ n ∧ n ≤ 0x0D) ∨ (0x1C ≤ n ∧ n ≤ 0x20) ∨ n = 0x85 ∨ n = 0xA0 ∨ n = 0x1680 ∨ (0x2000 ≤ n ∧ n ≤ 0x200A) ∨
    n = 0x2028 ∨ n = 0x2029 ∨ n = 0x202F ∨ n = 0x205F ∨ n = 0x3000

/-- `s.strip()`. -/
def strip (s : PyStr) : PyStr := ((s.dropWhile isSpace).reverse.dropWhile isSpace).reverse

/-- `sub in s`. -/
def isSubstring (sub : PyStr) : PyStr → Bool
  | [] => sub.isEmpty
  | c :: cs => sub.isPrefixOf (c :: cs) || isSubstring sub cs

end Segpy
