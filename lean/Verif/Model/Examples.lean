import Verif.Model.Numpy
import Verif.Model.Formats

/-!
# Model of `examples/timeslice.py` and `examples/trace_positions.py`

The file has been opened by the script and is positioned at its start; `create_reader` is without a cache (that a cache
makes no difference is C52).  Of an exception, `main` prints the traceback and exits with a code; here it is raised.
-/

namespace Segpy

/-- `array[i, j] = value` for indexes that are not negative. -/
def assignElement (array : List (List Scalar)) (i j : Int) (value : Scalar) : Res (List (List Scalar)) :=
  match array[i.toNat]? with
  | none => .error .indexError
  | some row =>
    if j.toNat < row.length then .ok (array.set i.toNat (row.set j.toNat value)) else .error .indexError

/-- One round of the loop of `extract_timeslice`, examples/timeslice.py:77-89.  An index that is not negative raises
`IndexError` beyond the end of the trace. -/
def timesliceRound (r : Reader) (native : Endian) (slice_index : Int) (dtype : DType) (null : Scalar)
    (timeslice : List (List Scalar)) (inline_xline : Int × Int) : FileM (List (List Scalar)) := do
  let trace_index ← FileM.lift (r.traceIndex3 inline_xline)
  let samples ← r.traceSamples native trace_index none none
  let sample ← FileM.lift (match samples[slice_index.toNat]? with
    | some v => dtype.cast v
    | none => .ok null)
  let (inline_numbers, _) ← FileM.lift r.inlineNumbers
  let i_index ← FileM.lift (inline_numbers.index inline_xline.1)
  let (xline_numbers, _) ← FileM.lift r.xlineNumbers
  let x_index ← FileM.lift (xline_numbers.index inline_xline.2)
  FileM.lift (assignElement timeslice i_index x_index sample)

/-- `extract_timeslice(segy_filename, out_filename, slice_index, None, null)`, examples/timeslice.py:42-91: the array
that is saved.  The null value is given as an element of the array.  The message of the `DimensionalityError` names a
field that `format` is not given, so that `KeyError` is raised (66); formatting the message of the `ValueError` fails,
but with a `ValueError` again (73). -/
def extractTimeslice (native : Endian) (slice_index : Int) (null : Scalar) : FileM (List (List Scalar)) := do
  let (reader, _) ← createReader none fmtBinaryReelHeader fmtTraceHeaderRev1 .big none
  let dtype ← FileM.lift (do makeDtype (← reader.dataSampleFormat))
  let dimensionality ← FileM.lift reader.dimensionality
  if dimensionality ≠ 3 then FileM.raise .keyError
  else
    let (inline_numbers, _) ← FileM.lift reader.inlineNumbers
    let (xline_numbers, _) ← FileM.lift reader.xlineNumbers
    let (t_size, _) ← FileM.lift reader.maxNumTraceSamples
    if ¬ (0 ≤ slice_index ∧ slice_index < t_size) then FileM.raise .valueError
    else
      let keys ← FileM.lift reader.inlineXlineNumbers
      keys.foldlM (timesliceRound reader native slice_index dtype null)
        (List.replicate inline_numbers.len (List.replicate xline_numbers.len null))

/-- One round of the loop of `extract_trace_positions`, examples/trace_positions.py:40-44: what is printed. -/
def tracePosition (r : Reader) (trace_index : Int) : FileM (Int × Int × Int) := do
  let trace_header ← r.traceHeader trace_index none
  let cdp_x ← FileM.lift (trace_header.get "cdp_x")
  let cdp_y ← FileM.lift (trace_header.get "cdp_y")
  return (trace_index, cdp_x, cdp_y)

/-- `extract_trace_positions(segy_filename)`, examples/trace_positions.py:30-44: the lines printed. -/
def tracePositions : FileM (List (Int × Int × Int)) := do
  let (reader, _) ← createReader none fmtBinaryReelHeader fmtTraceHeaderRev1 .big none
  let trace_indexes ← FileM.lift reader.traceIndexes
  trace_indexes.mapM (tracePosition reader)

end Segpy
