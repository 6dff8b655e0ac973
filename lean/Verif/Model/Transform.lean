import Verif.Model.Copy
import Verif.Model.Formats

/-!
# Model of the transforming datasets: `segpy/dataset.py` (`DelegatingDataset`) and the examples built on it

`DelegatingDataset` (dataset.py:100-149) forwards every member to its source, so that a subclass is the source with the
members it overrides replaced.  The command lines of the examples (their `main`), which parse arguments and turn
exceptions into exit codes, are in `Model/Scripts.lean`.
-/

namespace Segpy

/-- `int(f)` for a float. -/
def intOfFloat : PyFloat → Res Int
  | .nan => .error .valueError
  | .inf _ => .error .overflowError
  | .negZero => .ok 0
  | .fin q => .ok (if q < 0 then ⌈q⌉ else ⌊q⌋)

/-- `int(v)` for a sample. -/
def intOfNum : PyNum → Res Int
  | .int n => .ok n
  | .float f => intOfFloat f
  | .ibm x => .ok x.trunc

/-- `float(v)` for a sample. -/
def floatOfNum : PyNum → Res PyFloat
  | .int n => PyFloat.ofInt n
  | .float f => .ok f
  | .ibm x => .ok x.toFloat

/-- `SEG_Y_TYPE_TO_DATA_SAMPLE_FORMAT[seg_y_type]`, datatypes.py:47. -/
def segYTypeToDataSampleFormat : SegYType → Res Int
  | .ibm => .ok 1
  | .int .int32 => .ok 2
  | .int .int16 => .ok 3
  | .float32 => .ok 5
  | .int .int8 => .ok 8
  | _ => .error .keyError

/-- `max(low, min(high, n))` for ints, as at examples/convert_sample_type.py:42 and examples/scale_samples.py:42. -/
def clipInt (low high n : Int) : Int :=
  let m := if n < high then n else high
  if m > low then m else low

/-- `max(low, min(high, f))` for floats, as at examples/scale_samples.py:42: `min` and `max` return their first argument
unless the second compares as less or greater. -/
def clipFloat (low high f : PyFloat) : PyFloat :=
  let m := if f.lt high then f else high
  if low.lt m then m else low

/-- `LIMITS[...].max` of the two floating point types, datatypes.py:110, 115. -/
def limitFloat : SegYType → ℚ
  | .float32 => round64 (3402823 * 10 ^ 32)
  | _ => MAX_IBM_FLOAT

/-- `self._transform(sample)` of a `ConvertingDataset`, examples/convert_sample_type.py:38-44, for one of the types that
`SEG_Y_TYPE_TO_DATA_SAMPLE_FORMAT` has. -/
def convertSample (t : SegYType) (v : PyNum) : Res PyNum :=
  match t with
  | .int t => do return .int (clipInt t.limitMin t.limitMax (← intOfNum v))
  | _ => do return .float (← floatOfNum v)

/-- `ConvertingDataset(source_dataset, data_sample_format)`, examples/convert_sample_type.py:26-52. -/
def Dataset.convert (d : Dataset) (t : SegYType) : Res Dataset := do
  let dsf ← segYTypeToDataSampleFormat t
  let binary ← d.binary_reel_header.copy [("data_sample_format", dsf)]
  return { d with
    binary_reel_header := binary
    trace_samples := fun i => do (← d.trace_samples i).mapM (convertSample t) }

/-- `transform(data_sample_format, in_filename, out_filename)`, examples/convert_sample_type.py:55-64, for two different
files, of which the first has the contents of `s`; returns what is raised or reported and the second file.  `native` is
the byte order of the machine. -/
def convertFile (native : Endian) (t : SegYType) (s : FileH) : Res (List ℚ) × FileH :=
  let out : FileH := { data := [], pos := 0 }
  match createReader none fmtBinaryReelHeader fmtTraceHeaderRev1 .big none s with
  | (.error err, _) => (.error err, out)
  | (.ok (r, _), _) =>
    match r.dataSampleFormat with
    | .error err => (.error err, out)
    | .ok sample_type =>
      if sample_type ≠ .ibm then (.error .runtimeError, out)
      else match (r.asDataset native s).convert t with
        | .error err => (.error err, out)
        | .ok d => writeSegy d none fmtTraceHeaderRev1 .big out

/-- `sample * self._scale_factor` for a float factor, examples/scale_samples.py:36; for an `IBMFloat` this is
`IBMFloat.__mul__`, ibm_float.py:478-482, which returns a float. -/
def scaleNum (v : PyNum) (k : PyFloat) : Res PyFloat := do return (← floatOfNum v).mul k

/-- `ScaledSamplesDataset._transform(sample)`, examples/scale_samples.py:34-43. -/
def scaleSample (t : SegYType) (k : PyFloat) (v : PyNum) : Res PyNum := do
  let scaled_sample ← scaleNum v k
  match t with
  | .int t => return .int (clipInt t.limitMin t.limitMax (← intOfFloat scaled_sample))
  | t => return .float (clipFloat (.fin (-limitFloat t)) (.fin (limitFloat t)) scaled_sample)

/-- `ScaledSamplesDataset(source_dataset, scale_factor)`, examples/scale_samples.py:26-46. -/
def Dataset.scaleSamples (d : Dataset) (k : PyFloat) : Res Dataset := do
  let t ← d.dataSampleFormat
  return { d with trace_samples := fun i => do (← d.trace_samples i).mapM (scaleSample t k) }

/-- `transform(scale_factor, in_filename, out_filename)`, examples/scale_samples.py:49-55, for two different files. -/
def scaleSamplesFile (native : Endian) (k : PyFloat) (s : FileH) : Res (List ℚ) × FileH :=
  let out : FileH := { data := [], pos := 0 }
  match createReader none fmtBinaryReelHeader fmtTraceHeaderRev1 .big none s with
  | (.error err, _) => (.error err, out)
  | (.ok (r, _), _) =>
    match (r.asDataset native s).scaleSamples k with
    | .error err => (.error err, out)
    | .ok d => writeSegy d none fmtTraceHeaderRev1 .big out

/-- `header.name *= scale_factor` for a float factor, as at examples/scale_source_coords.py:50-51: the product is a
float, which the type of the field turns into an int (`int.__new__`, field_types.py:10). -/
def Header.scaleField (h : Header) (name : String) (k : PyFloat) : Res Header := do
  let v ← h.get name
  let f ← PyFloat.ofInt v
  h.set name (← intOfFloat (f.mul k))

/-- `ScaledCoordinatesDataset(source_dataset, scale_factor)`, examples/scale_source_coords.py:36-54. -/
def Dataset.scaleCoordinates (d : Dataset) (k : PyFloat) : Dataset :=
  { d with trace_header := fun i => do
      let header ← d.trace_header i
      let header ← header.scaleField "source_x" k
      header.scaleField "source_y" k }

/-- `transform(scale_factor, in_filename, out_filename)`, examples/scale_source_coords.py:57-63, for two different
files; the progress reports that it prints are left out. -/
def scaleCoordinatesFile (native : Endian) (k : PyFloat) (s : FileH) : Res (List ℚ) × FileH :=
  let out : FileH := { data := [], pos := 0 }
  match createReader none fmtBinaryReelHeader fmtTraceHeaderRev1 .big none s with
  | (.error err, _) => (.error err, out)
  | (.ok (r, _), _) => writeSegy ((r.asDataset native s).scaleCoordinates k) none fmtTraceHeaderRev1 .big out

end Segpy
