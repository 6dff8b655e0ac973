import Verif.Model.Numpy
import Verif.Model.Formats

/-! # The example scripts of segpy_numpy

`segpy-ext/segpy_numpy/examples/extract_inline.py` and `extract_trace_header_field.py`.  What the programs print is not
modelled, nor are files that cannot be opened; parsing the command line is left to the caller. -/

namespace Segpy

/-- `os.EX_OK` and `os.EX_SOFTWARE`, which `main` returns. -/
def EX_OK : Int := 0
def EX_SOFTWARE : Int := 70

/-- `extract_inline(segy_filename, inline_number, null)`, extract_inline.py:47-63, for an open file. -/
def extractInlineScript (native : Endian) (inline_number : Int) (null : Option Scalar) : FileM Rows := do
  let (segy_reader, _) ← createReader none fmtBinaryReelHeader fmtTraceHeaderRev1 .big none
  extractInline3d segy_reader native inline_number .all .all null

/-- `inline_array.tofile(npy_file)`, extract_inline.py:94: the elements that are saved, row by row.  `_make_array` has made
a masked array if there is no null value (extract.py:427-433), and `tofile` of a masked array raises
`NotImplementedError` in every version of numpy; here this is `none`. -/
def toFile (null : Option Scalar) (rows : Rows) : Option (List (Option Scalar)) :=
  if null.isNone then none else some rows.flatten

/-- `main(argv)` of extract_inline.py:66-107 from the call of `extract_inline` on: the exit code, and what the output file
then holds, if it has been written.  Every exception of these calls ends in the last `except`. -/
def extractInlineMain (native : Endian) (inline_number : Int) (null : Option Scalar) (segy_file : FileH) :
    Int × Option (List (Option Scalar)) :=
  match (extractInlineScript native inline_number null segy_file).1 with
  | .error _ => (EX_SOFTWARE, none)
  | .ok inline_array =>
    match toFile null inline_array with
    | none => (EX_SOFTWARE, none)
    | some saved => (EX_OK, some saved)

/-- `getattr(TraceHeaderRev1, field_name)`, extract_trace_header_field.py:61: the descriptor of a field, which has a name,
or another attribute of the class.  Attributes that every class has, such as `__doc__`, are not in the model. -/
def getHeaderField (field_name : String) : Res FieldArg :=
  if (Format.attr fmtTraceHeaderRev1 field_name).isSome then .ok (.named field_name)
  else if field_name ∈ Format.otherAttributes fmtTraceHeaderRev1 then .ok .other
  else .error .attributeError

/-- `extract_header_field(segy_filename, out_filename, field_name, null)`, extract_trace_header_field.py:48-68, for an open
file.  The null value is passed in the place of the inline numbers: `None` selects them all, and `ensure_superset` cannot
make a set of an integer, which is a `TypeError` (segpy_numpy/util.py:30-55, sorted_set.py and util.py
`make_sorted_distinct_sequence`), raised after `inline_numbers()`. -/
def extractHeaderFieldScript (field_name : String) (null : Option Int) :
    FileM (List String × List (List (List (Option Scalar)))) := do
  let header_field ← FileM.lift (getHeaderField field_name)
  let (segy_reader, _) ← createReader none fmtBinaryReelHeader fmtTraceHeaderRev1 .big none
  match null with
  | none => extractTraceHeaderField3d segy_reader [header_field] .all .all none
  | some _ => do
    let _ ← FileM.lift (extractFieldName header_field)
    let _ ← FileM.lift segy_reader.inlineNumbers
    FileM.raise .typeError

/-- `main(argv)` of extract_trace_header_field.py:75-107 from the call of `extract_header_field` on: the exit code, and what
the output file then holds.  The arrays are not used: no file is written. -/
def extractHeaderFieldMain (field_name : String) (null : Option Int) (segy_file : FileH) :
    Int × Option (List (Option Scalar)) :=
  match (extractHeaderFieldScript field_name null segy_file).1 with
  | .error _ => (EX_SOFTWARE, none)
  | .ok _ => (EX_OK, none)

end Segpy
