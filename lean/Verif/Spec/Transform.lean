import Verif.Spec.Copy
import Verif.Model.Transform

/-! # Specification: a file made from another by changing headers or samples

From the model only the methods of the reader are used. -/

namespace Segpy.Spec

/-- The reader `r'` of the file `s'` says the same as the reader `r` of the file `s`, except that the values of the
fields of the binary header are changed by `bin`, those of the trace headers by `hdr`, and samples are related by
`smp`. -/
structure Transformed (T B : Format) (native : Endian) (bin hdr : String → Int → Int) (smp : PyNum → PyNum → Prop)
    (r : Reader) (s : FileH) (r' : Reader) (s' : FileH) : Prop where
  textual : r'.textual_reel_header = r.textual_reel_header
  binary_format : r'.binary_reel_header.format = B ∧ r.binary_reel_header.format = B
  binary : ∀ f ∈ B.fields, ∃ v, r.binary_reel_header.get f.name = .ok v ∧
    r'.binary_reel_header.get f.name = .ok (bin f.name v)
  extended : r'.extended_textual_headers = r.extended_textual_headers
  num_traces : r'.numTraces = r.numTraces
  trace_indexes : r'.traceIndexes = r.traceIndexes
  num_trace_samples : ∀ i : Int, r'.numTraceSamples i = r.numTraceSamples i
  /-- the header of any trace there is has the changed fields; there are no other traces -/
  trace_header : ∀ (i : Int) (pos pos' : Nat),
    (∃ hd hd', (r.traceHeader i none { s with pos := pos }).1 = .ok hd ∧
      (r'.traceHeader i none { s' with pos := pos' }).1 = .ok hd' ∧ hd.format = T ∧ hd'.format = T ∧
      ∀ f ∈ T.fields, ∃ v, hd.get f.name = .ok v ∧ hd'.get f.name = .ok (hdr f.name v)) ∨
    ((r.traceHeader i none { s with pos := pos }).1 = .error .valueError ∧
      (r'.traceHeader i none { s' with pos := pos' }).1 = .error .valueError)
  /-- in any range of samples of any trace each is changed as it should be, or there is no such range in both files -/
  trace_samples : ∀ (i : Int) (start stop : Option Int) (pos pos' : Nat),
    (∃ vs ws, (r.traceSamples native i start stop { s with pos := pos }).1 = .ok vs ∧
      (r'.traceSamples native i start stop { s' with pos := pos' }).1 = .ok ws ∧ List.Forall₂ smp vs ws) ∨
    ((r.traceSamples native i start stop { s with pos := pos }).1 = .error .valueError ∧
      (r'.traceSamples native i start stop { s' with pos := pos' }).1 = .error .valueError)
  dimensionality : r'.dimensionality = r.dimensionality
  /-- traces are found by the same numbers -/
  trace_index3 : r.dimensionality = .ok 3 → ∀ k, r'.traceIndex3 k = r.traceIndex3 k
  trace_index2 : r.dimensionality = .ok 2 → ∀ k, r'.traceIndex2 k = r.traceIndex2 k

/-- The integer part of a number: rounded towards zero. -/
def integerPart (q : ℚ) : Int := if 0 ≤ q then ⌊q⌋ else ⌈q⌉

/-- The number of a range nearest to a number. -/
def nearestIn (low high n : Int) : Int := max low (min high n)

/-- The code of one of the formats that files have. -/
def codeOf (t : SegYType) : Int := (formatCode t).getD 0

/-- An IBM float and what it should be after conversion to another sample format: the integer part, or the nearest
storable integer if that is out of range; the nearest binary32 number; the same number. -/
def ConvertedTo : SegYType → PyNum → PyNum → Prop
  | .int t, v, w => ∃ x, v = .ibm x ∧ w = .int (nearestIn (intLo t) (intHi t) (integerPart x.value))
  | .float32, v, w => ∃ x g, v = .ibm x ∧ w = .float g ∧ StoredAs32 (.fin x.value) g
  | .ibm, v, w => ∃ x y, v = .ibm x ∧ w = .ibm y ∧ y.value = x.value

/-- A float brought within limits; NaN becomes the upper limit. -/
def limited (limit : ℚ) : PyFloat → PyFloat
  | .fin q => .fin (max (-limit) (min limit q))
  | .negZero => .negZero
  | .inf neg => .fin (if neg then -limit else limit)
  | .nan => .fin limit

/-- The limit to which samples are brought in files of binary32 numbers, `3.402823e38`. -/
def float32Limit : ℚ := round64 (3402823 * 10 ^ 32)

/-- A sample and what it should be after scaling by a float: the float product, of which in files of integers the
integer part is taken, within the limits of the sample format and as stored there. -/
def ScaledBy (t : SegYType) (k : PyFloat) (v w : PyNum) : Prop :=
  match t with
  | .int t => ∃ n, v = .int n ∧ ((PyFloat.fin n).mul k).isFinite = true ∧
      w = .int (nearestIn (intLo t) (intHi t) (integerPart ((PyFloat.fin n).mul k).val))
  | .float32 => ∃ f g, v = .float f ∧ w = .float g ∧ StoredAs32 (limited float32Limit (f.mul k)) g
  | .ibm => ∃ x y, v = .ibm x ∧ w = .ibm y ∧
      IsTruncation (limited ibmMax ((PyFloat.fin x.value).mul k)).val y.value

/-- A sample that can be scaled: in files of integers the product must be finite, in files of IBM floats zero or not
less than the least IBM float. -/
def ScalableBy (t : SegYType) (k : PyFloat) (v : PyNum) : Prop :=
  match t with
  | .int _ => ∀ n, v = .int n → ((PyFloat.fin n).mul k).isFinite = true
  | .float32 => True
  | .ibm => ∀ x q, v = .ibm x → (PyFloat.fin x.value).mul k = .fin q → q = 0 ∨ ibmTiny ≤ |q|

/-- Two samples are the same number. -/
def SameNumber : PyNum → PyNum → Prop
  | .ibm x, w => ∃ y, w = .ibm y ∧ y.value = x.value
  | v, w => w = v

/-- A coordinate that can be scaled: the integer part of the float product is a four byte integer. -/
def CoordinateScales (k : PyFloat) (v : Int) : Prop :=
  ((PyFloat.fin v).mul k).isFinite = true ∧ -2147483648 ≤ integerPart ((PyFloat.fin v).mul k).val ∧
    integerPart ((PyFloat.fin v).mul k).val ≤ 2147483647

/-- What scaling source coordinates does to the fields of a trace header. -/
def scaledCoordinates (k : PyFloat) (name : String) (v : Int) : Int :=
  if name = "source_x" ∨ name = "source_y" then integerPart ((PyFloat.fin v).mul k).val else v

end Segpy.Spec
