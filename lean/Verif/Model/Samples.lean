import Verif.Py.Float32
import Verif.Py.File
import Verif.Model.IbmFloat
import Verif.Model.Header

/-!
# Model of the sample functions of `segpy/toolkit.py` and of `segpy/ibm_float_packer.py`

Only the pure Python IBM packer is modelled (`Packer`, ibm_float_packer.py:48-57), not the optional C++ extension.
-/

namespace Segpy

/-- `SegYType`, datatypes.py:28-36. -/
inductive SegYType where
  | int (t : IntType)
  | float32
  | ibm
  deriving DecidableEq, Repr

/-- `CTYPE_TO_SIZE[SEG_Y_TYPE_TO_CTYPE[seg_y_type]]`, datatypes.py:52-60, 76-84. -/
def SegYType.size : SegYType → Nat
  | .int t => t.size
  | .float32 => 4
  | .ibm => 4

/-- `DATA_SAMPLE_FORMAT_TO_SEG_Y_TYPE[dsf]`, datatypes.py:39-44. -/
def dataSampleFormatToSegYType (dsf : Int) : Res SegYType :=
  if dsf = 1 then .ok .ibm
  else if dsf = 2 then .ok (.int .int32)
  else if dsf = 3 then .ok (.int .int16)
  else if dsf = 5 then .ok .float32
  else if dsf = 8 then .ok (.int .int8)
  else .error .keyError

/-- `bytes_per_sample`, toolkit.py:65-85, of a header with the given `data_sample_format`. -/
def bytesPerSample (dsf : Int) : Res Nat :=
  match dataSampleFormatToSegYType dsf with
  | .ok t => .ok t.size
  | .error _ => .error .valueError

/-- A sample: a Python int, a Python float or an `IBMFloat`. -/
inductive PyNum where
  | int (n : Int)
  | float (f : PyFloat)
  | ibm (x : IBMFloat)
  deriving DecidableEq

/-- `struct` packing of one item of an integer code (x must be an int in range; floats and `IBMFloat`s, which have no
`__index__`, are refused). -/
def packInt (e : Endian) (t : IntType) : PyNum → Res Bytes
  | .int n =>
    match structCode t.ctype with
    | some c => if c.lo ≤ n ∧ n ≤ c.hi then .ok (encodeInt e c.size n) else .error .structError
    | none => .error .structError
  | _ => .error .structError

/-- `struct` packing of one item of code `'f'`: the number is converted to a C double first, failure of which is a
`struct.error`. -/
def packFloat32 (e : Endian) (v : PyNum) : Res Bytes :=
  let f : Res PyFloat := match v with
    | .int n => match PyFloat.ofInt n with
      | .ok f => .ok f
      | .error _ => .error .structError
    | .float f => .ok f
    | .ibm x => .ok x.toFloat
  do
    let bits ← float32Bits (← f)
    return e.order (leBytes 4 bits)

/-- `pack_values(values, ctype, endian)`, toolkit.py:845-858. -/
def packValues (values : List PyNum) (t : SegYType) (e : Endian) : Res Bytes := do
  let items ← values.mapM (match t with
    | .int t => packInt e t
    | .float32 => packFloat32 e
    | .ibm => fun _ => .error .structError)
  return items.flatten

/-- `IBMFloat.from_real(value)`, ibm_float.py:192-194 and 150-167.  An int is compared exactly with the limits and then
converted to a double by `frexp`. -/
def ibmFromReal : PyNum → Res IBMFloat
  | .ibm x => .ok x
  | .float f => IBMFloat.fromFloat f
  | .int n =>
    if n = 0 then .ok IBMFloat.zero
    else if (n : ℚ) < MIN_IBM_FLOAT then .error .overflowError
    else if (n : ℚ) > MAX_IBM_FLOAT then .error .overflowError
    else IBMFloat.ieee2ibmCore (round64 n)

/-- `pack_ibm_floats(values)`, ibm_float_packer.py:95-104 and 51-53. -/
def packIbmFloats (values : List PyNum) : Res Bytes := do
  let items ← values.mapM fun v => do return (← ibmFromReal v).toBytes
  return items.flatten

/-- The first `n` items of `size` bytes of a buffer. -/
def itemsOf (size : Nat) : Nat → Bytes → List Bytes
  | 0, _ => []
  | n + 1, buf => buf.take size :: itemsOf size n (buf.drop size)

/-- `unpack_ibm_floats(data, num_items)`, ibm_float_packer.py:81-92 and 55-57. -/
def unpackIbmFloats (data : Bytes) (num_items : Int) : Res (List PyNum) := do
  let xs ← (itemsOf 4 num_items.toNat data).mapM IBMFloat.fromBytes
  return xs.map .ibm

/-- The number stored in an item of an `array` on a machine of the given byte order. -/
def arrayItem (native : Endian) (t : SegYType) (item : Bytes) : PyNum :=
  match t with
  | .int t => .int (decodeInt native ((structCode t.ctype).elim false IntCode.signed) item)
  | .float32 => .float (float32OfBits (leNat (native.order item)))
  | .ibm => .int 0

/-- `unpack_values(buf, ctype, endian)`, toolkit.py:499-517, on a machine of byte order `native`
(`NATIVE_ENDIANNESS`): an `array` made from the buffer, byte-swapped in place if the orders differ.  C `int`, `short`
and `float` have their usual sizes. -/
def unpackValues (native : Endian) (buf : Bytes) (t : SegYType) (e : Endian) : Res (List PyNum) :=
  if buf.length % t.size ≠ 0 then .error .valueError
  else
    let a := itemsOf t.size (buf.length / t.size) buf
    let a := if e ≠ native then a.map List.reverse else a
    .ok (a.map (arrayItem native t))

/-- `read_binary_values(fh, pos, seg_y_type, num_items, endian)`, toolkit.py:461-496. -/
def readBinaryValues (native : Endian) (pos : Int) (t : SegYType) (num_items : Int) (e : Endian) :
    FileM (List PyNum) := do
  let item_size := t.size
  let block_size := (item_size : Int) * num_items
  FileM.seek pos
  let buf ← FileM.read block_size
  if (buf.length : Int) < block_size then FileM.raise .eofError
  else
    let values ← FileM.lift (if t = .ibm then unpackIbmFloats buf num_items else unpackValues native buf t e)
    if (values.length : Int) ≠ num_items then FileM.raise .assertionError else return values

/-- The bytes written by `write_binary_values(fh, values, seg_y_type, endian)`, toolkit.py:836-840. -/
def sampleBytes (values : List PyNum) (t : SegYType) (e : Endian) : Res Bytes :=
  if t = .ibm then packIbmFloats values else packValues values t e

/-- `write_binary_values`, toolkit.py:823-842, and `write_trace_samples`, 807-820. -/
def writeTraceSamples (values : List PyNum) (t : SegYType) (e : Endian) : FileM Unit := do
  let buf ← FileM.lift (sampleBytes values t e)
  FileM.write buf

end Segpy
