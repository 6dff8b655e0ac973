import Verif.Py.Slice
import Verif.Model.Reader

/-!
# Model of `segpy-ext/segpy_numpy`: extracting arrays from readers, and array datasets

Of numpy only this is modelled: two-dimensional arrays, masked or not, as lists of rows; conversion of Python numbers
to the five element types of `dtypes.py`; assignment to an element and, with broadcasting, to a row; `fromiter`.

What the methods of a reader remember (`inline_numbers`, `max_num_trace_samples`, ...) does not change their answers
(`C46_history`), so the reader is not threaded through the functions.
-/

namespace Segpy

/-! ## util.py -/

/-- `is_range_superset_of_range(superset_range, subset_range)`, segpy_numpy/util.py:4-14.  Indexing an empty range raises
`IndexError`; the `assert` is in force. -/
def isRangeSupersetOfRange (superset_range subset_range : PyRange) : Res Bool :=
  if ¬ superset_range.contains subset_range.start then .ok false
  else if subset_range.step.fmod superset_range.step ≠ 0 then .ok false
  else do
    let last_sub ← subset_range.get (-1)
    let last_super ← superset_range.get (-1)
    if last_sub > last_super then return false
    else if ¬ subset_range.toList.all (fun x => decide (x ∈ superset_range.toList)) then .error .assertionError
    else return true

/-- `is_superset(superset, subset)`, segpy_numpy/util.py:17-27.  Python's own `set`, which the functions below never
pass, is not among the iterables modelled. -/
def isSuperset (superset subset : PyIter) : Res Bool :=
  match superset, subset with
  | .range r, .range s => isRangeSupersetOfRange r s
  | .range r, s => .ok (s.toList.all r.contains)
  | r, s => .ok (s.toList.all fun x => decide (x ∈ r.toList))

/-- `superset[subset]` for a slice, segpy_numpy/util.py:47 with sorted_frozen_set.py:31-33.  A `ReversedSequenceView`
compares the slice with an integer (reversed_sequence_view.py:38); a generator cannot be subscripted. -/
def PyIter.slice : PyIter → PySlice → Res PyIter
  | .range r, s => do return .range (← r.slice s)
  | .sfs x, s => do return .sfs (SortedFrozenSet.ofList (← pySliceList x.items s))
  | .list l, s => do return .list (← pySliceList l s)
  | .gen _, _ => .error .typeError
  | .rev _, _ => .error .typeError

/-- The argument that selects numbers: `None`, a slice, or an iterable of integers. -/
inductive Selection where
  | all
  | slice (s : PySlice)
  | items (it : PyIter)

/-- `ensure_superset(superset, subset)`, segpy_numpy/util.py:30-55. -/
def ensureSuperset (superset : PyIter) : Selection → Res PyIter
  | .all => .ok superset
  | .slice s => superset.slice s
  | .items it => do
    let subset ← makeSortedDistinctSequence it (some .ascending)
    if ¬ (← isSuperset superset subset) then .error .valueError
    else return subset

/-! ## dtypes.py -/

/-- The element types of `NUMPY_DTYPES`, segpy_numpy/dtypes.py:5-9. -/
inductive DType where
  | f4
  | i4
  | i2
  | i1
  deriving DecidableEq

/-- `make_dtype(data_sample_format)`, segpy_numpy/dtypes.py:12-30: the non-negative types are not in the table. -/
def makeDtype : SegYType → Res DType
  | .ibm => .ok .f4
  | .int .int32 => .ok .i4
  | .int .int16 => .ok .i2
  | .float32 => .ok .f4
  | .int .int8 => .ok .i1
  | .int _ => .error .valueError

/-- An element of an array. -/
inductive Scalar where
  | int (n : Int)
  | float (f : PyFloat)
  deriving DecidableEq

/-- A C double converted to a C float; too large a number becomes infinite. -/
def toFloat32 (f : PyFloat) : PyFloat :=
  match float32Bits f with
  | .ok bits => float32OfBits bits
  | .error _ => .inf f.signbit

/-- Conversion of an integer to an element type of `size` bytes. -/
def intScalar (size : Nat) (n : Int) : Res Scalar :=
  if -(2 : Int) ^ (8 * size - 1) ≤ n ∧ n < (2 : Int) ^ (8 * size - 1) then .ok (.int n) else .error .overflowError

/-- The element made of a Python number (`IBMFloat`s by way of `__float__`).  Floats stored in arrays of integers, which
do not occur here, are refused instead of truncated. -/
def DType.cast : DType → PyNum → Res Scalar
  | .f4, .float f => .ok (.float (toFloat32 f))
  | .f4, .ibm x => .ok (.float (toFloat32 x.toFloat))
  | .f4, .int n => do return .float (toFloat32 (← PyFloat.ofInt n))
  | .i4, .int n => intScalar 4 n
  | .i2, .int n => intScalar 2 n
  | .i1, .int n => intScalar 1 n
  | _, _ => .error .typeError

/-! ## extract.py -/

/-- The rows of a two-dimensional array; `none` is a masked element. -/
abbrev Rows := List (List (Option Scalar))

/-- A row of `_make_array(shape, dtype, null)`, extract.py:427-433: masked, or filled with the null value, which is given
here as an element of the array. -/
def blankRow (width : Nat) (null : Option Scalar) : List (Option Scalar) := List.replicate width null

/-- `array[index, :] = values`: the lengths must agree unless a single value is repeated. -/
def assignRow (row : List (Option Scalar)) (values : List Scalar) : Res (List (Option Scalar)) :=
  if values.length = row.length then .ok (values.map some)
  else match values with
    | [v] => .ok (row.map fun _ => some v)
    | _ => .error .valueError

/-- One round of the loops of `_populate_inline_array_over_sample_range` and `_populate_xline_array_over_sample_range`,
extract.py:258-267 and 347-356.  Each round assigns to one row of its own. -/
def rowOverSampleRange (r : Reader) (native : Endian) (inline_xline_number : Int × Int) (sample_numbers : PyRange)
    (dtype : DType) (null : Option Scalar) : FileM (List (Option Scalar)) := do
  let row := blankRow sample_numbers.len null
  if ← FileM.lift (r.hasTraceIndex3 inline_xline_number) then
    let trace_index ← FileM.lift (r.traceIndex3 inline_xline_number)
    let num_trace_samples ← FileM.lift (r.numTraceSamples trace_index)
    let trace_sample_stop := min sample_numbers.stop num_trace_samples
    let trace_samples ← r.traceSamples native trace_index none none
    let source ← FileM.lift (pySliceList trace_samples
      ⟨some sample_numbers.start, some trace_sample_stop, some sample_numbers.step⟩)
    FileM.lift (do assignRow row (← source.mapM dtype.cast))
  else return row

/-- One round of the loops of `_populate_inline_array_numbered_samples` and `_populate_xline_array_numbered_samples`,
extract.py:245-255 and 334-344. -/
def rowNumberedSamples (r : Reader) (native : Endian) (inline_xline_number : Int × Int) (sample_numbers : PyIter)
    (dtype : DType) (null : Option Scalar) : FileM (List (Option Scalar)) := do
  let row := blankRow sample_numbers.len null
  if ← FileM.lift (r.hasTraceIndex3 inline_xline_number) then
    let trace_index ← FileM.lift (r.traceIndex3 inline_xline_number)
    let num_trace_samples ← FileM.lift (r.numTraceSamples trace_index)
    let trace_sample_start ← FileM.lift (sample_numbers.get 0)
    let last ← FileM.lift (sample_numbers.get (-1))
    let trace_sample_stop := min (last + 1) num_trace_samples
    let trace_samples ← r.traceSamples native trace_index (some trace_sample_start) (some trace_sample_stop)
    FileM.lift (sample_numbers.toList.mapM fun sample_number => do
      let v ← pyGet trace_samples (sample_number - trace_sample_start)
      return some (← dtype.cast v))
  else return row

/-- The choice between the two ways to fill the array, extract.py:237-240 and 326-329. -/
def sectionRow (r : Reader) (native : Endian) (inline_xline_number : Int × Int) (sample_numbers : PyIter)
    (dtype : DType) (null : Option Scalar) : FileM (List (Option Scalar)) :=
  match sample_numbers with
  | .range s => rowOverSampleRange r native inline_xline_number s dtype null
  | _ => rowNumberedSamples r native inline_xline_number sample_numbers dtype null

/-- `extract_inline_3d(reader_3d, inline_number, xline_numbers, sample_numbers, null)`, extract.py:181-242. -/
def extractInline3d (r : Reader) (native : Endian) (inline_number : Int) (xline_numbers sample_numbers : Selection)
    (null : Option Scalar) : FileM Rows := do
  let (inlines, _) ← FileM.lift r.inlineNumbers
  if ¬ (← FileM.lift (inlines.contains inline_number)) then FileM.raise .valueError
  else
    let (xlines, _) ← FileM.lift r.xlineNumbers
    let xline_numbers ← FileM.lift (ensureSuperset xlines xline_numbers)
    let (m, _) ← FileM.lift r.maxNumTraceSamples
    let sample_numbers ← FileM.lift (ensureSuperset (.range (PyRange.make1 0 m)) sample_numbers)
    let dtype ← FileM.lift (do makeDtype (← r.dataSampleFormat))
    xline_numbers.toList.mapM fun xline_number =>
      sectionRow r native (inline_number, xline_number) sample_numbers dtype null

/-- `extract_xline_3d(reader_3d, xline_number, inline_numbers, sample_numbers, null)`, extract.py:270-331. -/
def extractXline3d (r : Reader) (native : Endian) (xline_number : Int) (inline_numbers sample_numbers : Selection)
    (null : Option Scalar) : FileM Rows := do
  let (xlines, _) ← FileM.lift r.xlineNumbers
  if ¬ (← FileM.lift (xlines.contains xline_number)) then FileM.raise .valueError
  else
    let (inlines, _) ← FileM.lift r.inlineNumbers
    let inline_numbers ← FileM.lift (ensureSuperset inlines inline_numbers)
    let (m, _) ← FileM.lift r.maxNumTraceSamples
    let sample_numbers ← FileM.lift (ensureSuperset (.range (PyRange.make1 0 m)) sample_numbers)
    let dtype ← FileM.lift (do makeDtype (← r.dataSampleFormat))
    inline_numbers.toList.mapM fun inline_number =>
      sectionRow r native (inline_number, xline_number) sample_numbers dtype null

/-- One round of the inner loop of `extract_timeslice_3d`, extract.py:419-423. -/
def timesliceCell (r : Reader) (native : Endian) (inline_xline_number : Int × Int) (sample_number : Int) (dtype : DType)
    (null : Option Scalar) : FileM (Option Scalar) := do
  if ← FileM.lift (r.hasTraceIndex3 inline_xline_number) then
    let trace_index ← FileM.lift (r.traceIndex3 inline_xline_number)
    let trace_samples ← r.traceSamples native trace_index (some sample_number) (some (sample_number + 1))
    FileM.lift (do return some (← dtype.cast (← pyGet trace_samples 0)))
  else return null

/-- `extract_timeslice_3d(reader_3d, sample_number, inline_numbers, xline_numbers, null)`, extract.py:359-424. -/
def extractTimeslice3d (r : Reader) (native : Endian) (sample_number : Int) (inline_numbers xline_numbers : Selection)
    (null : Option Scalar) : FileM Rows := do
  let (inlines, _) ← FileM.lift r.inlineNumbers
  let inline_numbers ← FileM.lift (ensureSuperset inlines inline_numbers)
  let (xlines, _) ← FileM.lift r.xlineNumbers
  let xline_numbers ← FileM.lift (ensureSuperset xlines xline_numbers)
  let dtype ← FileM.lift (do makeDtype (← r.dataSampleFormat))
  inline_numbers.toList.mapM fun inline_number =>
    xline_numbers.toList.mapM fun xline_number =>
      timesliceCell r native (inline_number, xline_number) sample_number dtype null

/-- An argument naming a field: a string, an object with a `name`, or anything else. -/
inductive FieldArg where
  | str (name : String)
  | named (name : String)
  | other

/-- `_extract_field_name(field)`, extract.py:436-448. -/
def extractFieldName : FieldArg → Res String
  | .str name => .ok name
  | .named name => .ok name
  | .other => .error .typeError

/-- `namedtuple(typename, field_names)`: duplicates and names beginning with an underscore are refused.  Field names of
header formats are identifiers; that they might be keywords is not modelled. -/
def namedtupleFields (field_names : List String) : Res Unit :=
  if ¬ field_names.Nodup ∨ field_names.any (·.startsWith "_") then .error .valueError else .ok ()

/-- The element type of the array of a field, extract.py:47 and 122. -/
def fieldDtype (F : Format) (field_name : String) : Res DType := do
  makeDtype (.int (← F.getField field_name).value_type.segy)

/-- One column: `np.fromiter((getattr(trace_header, field_name) for ...), dtype=..., count=...)`, extract.py:45-50. -/
def headerColumn (F : Format) (trace_headers : List Header) (field_name : String) : Res (List Scalar) := do
  let dtype ← fieldDtype F field_name
  trace_headers.mapM fun h => do dtype.cast (.int (← h.get field_name))

/-- `extract_trace_headers(reader, fields, trace_indexes)`, extract.py:13-52: the columns in the order of the fields. -/
def extractTraceHeaders (r : Reader) (fields : List FieldArg) (trace_indexes : Option (List Int)) :
    FileM (List (String × List Scalar)) := do
  let trace_indexes ← FileM.lift (match trace_indexes with
    | none => r.traceIndexes
    | some l => .ok l)
  let field_names ← FileM.lift (fields.mapM extractFieldName)
  let F ← FileM.lift (r.trace_header_packer.format.subFormat "SubFormat" field_names)
  let packer ← FileM.lift (makeHeaderPacker F r.endian)
  FileM.lift (namedtupleFields field_names)
  let trace_headers ← trace_indexes.mapM fun i => r.traceHeader i (some packer)
  FileM.lift (field_names.mapM fun name => do return (name, ← headerColumn F trace_headers name))

/-- One round of the inner loop of `extract_trace_header_field_3d`, extract.py:130-137: the elements at one place of all
arrays. -/
def headerCells (r : Reader) (packer : HeaderPacker) (fields : List (String × DType)) (inline_xline_number : Int × Int)
    (null : Option Scalar) : FileM (List (Option Scalar)) := do
  if ← FileM.lift (r.hasTraceIndex3 inline_xline_number) then
    let trace_index ← FileM.lift (r.traceIndex3 inline_xline_number)
    let trace_header ← r.traceHeader trace_index (some packer)
    FileM.lift (fields.mapM fun x => do return some (← x.2.cast (.int (← trace_header.get x.1))))
  else return fields.map fun _ => null

/-- `extract_trace_header_field_3d(reader_3d, fields, inline_numbers, xline_numbers, null)`, extract.py:55-139.  Instead
of one array for each field, a list of the elements of all fields at each place is returned. -/
def extractTraceHeaderField3d (r : Reader) (fields : List FieldArg) (inline_numbers xline_numbers : Selection)
    (null : Option Scalar) : FileM (List String × List (List (List (Option Scalar)))) := do
  let field_names ← FileM.lift (fields.mapM extractFieldName)
  let (inlines, _) ← FileM.lift r.inlineNumbers
  let inline_numbers ← FileM.lift (ensureSuperset inlines inline_numbers)
  let (xlines, _) ← FileM.lift r.xlineNumbers
  let xline_numbers ← FileM.lift (ensureSuperset xlines xline_numbers)
  let F ← FileM.lift (r.trace_header_packer.format.subFormat "SubFormat" field_names)
  let packer ← FileM.lift (makeHeaderPacker F r.endian)
  FileM.lift (namedtupleFields field_names)
  let columns ← FileM.lift (field_names.mapM fun name => do return (name, ← fieldDtype F name))
  let cells ← inline_numbers.toList.mapM fun inline_number =>
    xline_numbers.toList.mapM fun xline_number =>
      headerCells r packer columns (inline_number, xline_number) null
  return (field_names, cells)

/-- An argument for `trace_index`: an integer or a pair of integers. -/
inductive TraceArg where
  | index (i : Int)
  | pair (k : Int × Int)

/-- `reader.has_trace_index(trace_index)` on any reader: a plain reader has no such method, and the others look the
argument up in their catalogs (reader.py:701-710, 818-827).  An argument that is not of the kind of the catalog's keys is
not in a `dict`; unpacking an integer raises `TypeError` in the two-dimensional catalogs (catalog.py), and comparing a
pair with an integer does in the one-dimensional ones; whichever it is, it is modelled as `TypeError`. -/
def Reader.hasTraceIndexArg (r : Reader) : TraceArg → Res Bool
  | .index i =>
    match r.kind with
    | .plain => .error .attributeError
    | .twoD _ _ => r.hasTraceIndex2 i
    | .threeD none _ _ => .ok false
    | .threeD (some _) _ _ => .error .typeError
  | .pair k =>
    match r.kind with
    | .plain => .error .attributeError
    | .twoD _ _ => .error .typeError
    | .threeD _ _ _ => r.hasTraceIndex3 k

/-- `extract_trace(reader, trace_index, sample_numbers)`, extract.py:142-178.  A pair is not a key of the catalog of
trace lengths: looking it up raises an exception, modelled as `KeyError`. -/
def extractTrace (r : Reader) (native : Endian) (trace_index : TraceArg) (sample_numbers : Selection) :
    FileM (List Scalar) := do
  if ¬ (← FileM.lift (r.hasTraceIndexArg trace_index)) then FileM.raise .valueError
  else
    let (m, _) ← FileM.lift r.maxNumTraceSamples
    let sample_numbers ← FileM.lift (ensureSuperset (.range (PyRange.make1 0 m)) sample_numbers)
    let trace_sample_start ← FileM.lift (sample_numbers.get 0)
    let last ← FileM.lift (sample_numbers.get (-1))
    match trace_index with
    | .pair _ => FileM.raise .keyError
    | .index i =>
      let n ← FileM.lift (r.numTraceSamples i)
      let trace_sample_stop := min (last + 1) n
      let trace_samples ← r.traceSamples native i (some trace_sample_start) (some trace_sample_stop)
      let dtype ← FileM.lift (do makeDtype (← r.dataSampleFormat))
      FileM.lift (sample_numbers.toList.mapM fun sample_number => do
        dtype.cast (← pyGet trace_samples (sample_number - trace_sample_start)))

/-! ## array_dataset.py -/

/-- The methods and properties `Dataset` declares abstract, dataset.py:8-82. -/
def datasetAbstract : List String :=
  ["textual_reel_header", "binary_reel_header", "extended_textual_header", "num_traces", "trace_header", "trace_samples"]

/-- What the body of `ArrayDataset3d` defines, array_dataset.py:9-106. -/
def arrayDatasetDefines : List String :=
  ["__init__", "binary_reel_header", "textual_reel_header", "extended_textual_header", "dimensionality", "samples",
   "trace_indexes", "trace_header", "trace_samples", "__repr__"]

/-- Making an instance of a subclass of `Dataset`: a class that leaves an abstract method undefined raises `TypeError`.
The first two components of the shape of the sample array are all that is kept of the arguments. -/
def makeDataset (defines : List String) (shape : Nat × Nat) : Res (Nat × Nat) :=
  if datasetAbstract.all fun name => decide (name ∈ defines) then .ok shape else .error .typeError

/-- `CompleteStrategy.trace_indexes()`, array_dataset.py:187-191. -/
def completeTraceIndexes (shape : Nat × Nat) : PyRange := PyRange.make1 0 ((shape.1 * shape.2 : Nat) : Int)

/-- `CompleteStrategy.inline_xline_index(trace_index)`, array_dataset.py:193-198. -/
def completeInlineXlineIndex (shape : Nat × Nat) (trace_index : Int) : Res (Int × Int) :=
  if shape.1 = 0 then .error .zeroDivisionError
  else
    let inline_index := trace_index.fdiv shape.1
    let xline_index := trace_index.fmod shape.1
    if ¬ ((0 ≤ inline_index ∧ inline_index < shape.1) ∧ (0 ≤ xline_index ∧ xline_index < shape.2)) then
      .error .valueError
    else .ok (inline_index, xline_index)

/-- `IncompleteStrategy.trace_indexes()`, array_dataset.py:159-171, on the first call.  The first trace of the array, if
there is one, is given to `dataset._trace_has_samples`, an attribute no class defines; the catalog of nothing is the
`None` that `CatalogBuilder.create` returns, or whatever it raises (catalog.py). -/
def incompleteTraceIndexes (shape : Nat × Nat) : Res (List Int) :=
  if shape.1 * shape.2 ≠ 0 then .error .attributeError
  else do
    match ← createCatalogInt [] with
    | none => .error .attributeError
    | some c => c.keys

end Segpy
