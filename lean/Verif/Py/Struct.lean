import Verif.Py.Basic

/-!
# The part of Python's `struct` module used for headers

Only formats that begin with an explicit byte order (`'>'` or `'<'`, hence standard sizes and no alignment)
and then use the codes `x b B h H i I` without repeat counts.  Those are the formats `compile_struct`
produces for integer fields.  A `Struct` made from any other format is reported as `struct.error`.
-/

namespace Segpy

/-- Byte order: `'>'` is big, `'<'` is little. -/
inductive Endian where
  | big
  | little
  deriving DecidableEq, Repr

/-- The `endian` argument as passed around by the code. -/
def Endian.char : Endian → Char
  | .big => '>'
  | .little => '<'

/-- A `struct` integer code: its standard size in bytes and its signedness. -/
structure IntCode where
  size : Nat
  signed : Bool
  deriving DecidableEq, Repr

/-- The smallest value of a `struct` integer code. -/
def IntCode.lo (c : IntCode) : Int := if c.signed then -(2 ^ (8 * c.size - 1)) else 0

/-- The greatest value of a `struct` integer code. -/
def IntCode.hi (c : IntCode) : Int := if c.signed then 2 ^ (8 * c.size - 1) - 1 else 2 ^ (8 * c.size) - 1

/-- The table of `struct` codes (Python documentation, "Format Characters", standard sizes). -/
def structCode : Char → Option IntCode
  | 'b' => some ⟨1, true⟩
  | 'B' => some ⟨1, false⟩
  | 'h' => some ⟨2, true⟩
  | 'H' => some ⟨2, false⟩
  | 'i' => some ⟨4, true⟩
  | 'I' => some ⟨4, false⟩
  | _ => none

/-- One element of a parsed format. -/
inductive FmtItem where
  | pad
  | int (c : IntCode)
  deriving DecidableEq, Repr

/-- Bytes occupied by a format element. -/
def FmtItem.size : FmtItem → Nat
  | pad => 1
  | int c => c.size

/-- Parsing the codes of a format string. -/
def parseItems : PyStr → Res (List FmtItem)
  | [] => .ok []
  | c :: cs =>
    if c = 'x' then do return .pad :: (← parseItems cs)
    else match structCode c with
      | some code => do return .int code :: (← parseItems cs)
      | none => .error .structError

/-- A compiled `struct.Struct`. -/
structure Struct where
  endian : Endian
  items : List FmtItem
  deriving DecidableEq, Repr

/-- `struct.Struct(format)`. -/
def Struct.parse : PyStr → Res Struct
  | '>' :: cs => do return ⟨.big, ← parseItems cs⟩
  | '<' :: cs => do return ⟨.little, ← parseItems cs⟩
  | _ => .error .structError

/-- `Struct.size`. -/
def Struct.size (s : Struct) : Nat := (s.items.map FmtItem.size).sum

/-- The `n` low-order base-256 digits of `v`, least significant first. -/
def leBytes : Nat → Nat → Bytes
  | 0, _ => []
  | n + 1, v => UInt8.ofNat (v % 256) :: leBytes n (v / 256)

/-- The number with the given base-256 digits, least significant first. -/
def leNat : Bytes → Nat
  | [] => 0
  | b :: bs => b.toNat + 256 * leNat bs

/-- Puts the bytes of a little-endian encoding in the wanted order, or back. -/
def Endian.order (e : Endian) (bs : Bytes) : Bytes :=
  match e with
  | .big => bs.reverse
  | .little => bs

/-- An integer as `n` bytes, two's complement. -/
def encodeInt (e : Endian) (n : Nat) (v : Int) : Bytes :=
  e.order (leBytes n (v % 256 ^ n).toNat)

/-- The integer stored in bytes. -/
def decodeInt (e : Endian) (signed : Bool) (bs : Bytes) : Int :=
  let n := leNat (e.order bs)
  if signed ∧ 2 ^ (8 * bs.length - 1) ≤ n then (n : Int) - 2 ^ (8 * bs.length) else n

/-- `struct.pack` on the elements of the format and the values: the number of values must be right, each in
the range of its code; pad bytes are written as zeros. -/
def packItems (e : Endian) : List FmtItem → List Int → Res Bytes
  | [], [] => .ok []
  | [], _ :: _ => .error .structError
  | .pad :: is, vs => do return 0 :: (← packItems e is vs)
  | .int _ :: _, [] => .error .structError
  | .int c :: is, v :: vs =>
    if c.lo ≤ v ∧ v ≤ c.hi then do return encodeInt e c.size v ++ (← packItems e is vs)
    else .error .structError

/-- `Struct.pack(*values)`. -/
def Struct.pack (s : Struct) (values : List Int) : Res Bytes := packItems s.endian s.items values

/-- The values in a buffer of the right length; pad bytes are skipped. -/
def unpackItems (e : Endian) : List FmtItem → Bytes → List Int
  | [], _ => []
  | .pad :: is, bs => unpackItems e is (bs.drop 1)
  | .int c :: is, bs => decodeInt e c.signed (bs.take c.size) :: unpackItems e is (bs.drop c.size)

/-- `Struct.unpack(buffer)`: the buffer must have exactly the size of the format. -/
def Struct.unpack (s : Struct) (buffer : Bytes) : Res (List Int) :=
  if buffer.length = s.size then .ok (unpackItems s.endian s.items buffer) else .error .structError

end Segpy
