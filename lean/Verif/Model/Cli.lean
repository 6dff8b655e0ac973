import Verif.Model.Reader
import Verif.Model.Formats

/-!
# Model of the commands of `segpy/cli.py`

The file has been opened by the command, so that it is positioned at its start; opening is `create_reader` without a
cache (that a cache makes no difference is C52).  Docopt, logging and the terminal are not modelled: a command returns
what it prints, or raises.
-/

namespace Segpy

/-- The value of a `SegYType`, which is a `str`, datatypes.py:28-36. -/
def SegYType.value : SegYType → String
  | .int .int32 => "int32"
  | .int .nnint32 => "nnint32"
  | .int .int16 => "int16"
  | .int .nnint16 => "nnint16"
  | .int .int8 => "int8"
  | .int .nnint8 => "nnint8"
  | .float32 => "float32"
  | .ibm => "ibm"

/-- `SEG_Y_TYPE_DESCRIPTION`, datatypes.py:64-72. -/
def SegYType.description : SegYType → String
  | .ibm => "IBM 32 bit float"
  | .int .int32 => "32 bit signed integer"
  | .int .nnint32 => "32 bit non-negative integer"
  | .int .int16 => "16 bit signed integer"
  | .int .nnint16 => "16 bit non-negative integer"
  | .float32 => "IEEE float32"
  | .int .int8 => "8 bit signed integer (byte)"
  | .int .nnint8 => "8 bit unsigned integer (byte)"

/-- `data_sample_format_description`, dataset.py:93-97. -/
def Reader.dataSampleFormatDescription (r : Reader) : Res String := do return (← r.dataSampleFormat).description

/-- `json.dumps` of the dictionary with these entries, in the order in which they were put in.  A `SegYType` is written
as the string it is. -/
def dumpMetadata (num_traces dimensionality : Int) (data_sample_format : String) (max_num_trace_samples : Int) : String :=
  "{\"num_traces\": " ++ toString num_traces ++ ", \"dimensionality\": " ++ toString dimensionality ++
  ", \"data_sample_format\": \"" ++ data_sample_format ++ "\", \"max_num_trace_samples\": " ++
  toString max_num_trace_samples ++ "}"

/-- `segpy metadata <filename>`, cli.py:48-65: the line printed. -/
def metadata : FileM String := do
  let (reader, _) ← createReader none fmtBinaryReelHeader fmtTraceHeaderRev1 .big none
  let num_traces ← FileM.lift reader.numTraces
  let dimensionality ← FileM.lift reader.dimensionality
  let data_sample_format ← FileM.lift reader.dataSampleFormat
  let (max_num_trace_samples, _) ← FileM.lift reader.maxNumTraceSamples
  return dumpMetadata num_traces dimensionality data_sample_format.value max_num_trace_samples

/-- What a call of `print` in `report` prints; the labels are left out. -/
inductive Printed where
  | blank
  | filename
  | revision (n : Int)
  | numTraces (n : Int)
  | dataFormat (description : String)
  | dimensionality (n : Int)
  | numCdps (n : Int)
  | numInlines (n : Int)
  | numXlines (n : Int)
  | beginTextual
  | line (text : PyStr)
  | endTextual
  | beginExtended
  | extended (pages : List (List PyStr))
  | endExtended
  deriving DecidableEq

/-- cli.py:86-89: the number of CDPs, unless the reader has none. -/
def reportCdps (r : Reader) : Res (List Printed) :=
  match r.numCdps with
  | .ok n => .ok [.numCdps n]
  | .error .attributeError => .ok []
  | .error k => .error k

/-- cli.py:91-95: the numbers of inlines and crosslines, unless the reader has none. -/
def reportLines (r : Reader) : Res (List Printed) :=
  match r.inlineNumbers with
  | .ok (i, r) =>
    match r.xlineNumbers with
    | .ok (x, _) => .ok [.numInlines i.len, .numXlines x.len]
    | .error .attributeError => .ok [.numInlines i.len]
    | .error k => .error k
  | .error .attributeError => .ok []
  | .error k => .error k

/-- `segpy report <filename>`, cli.py:68-104, examples/report.py:19-51 and examples/custom_header.py:58-95: what is
printed.  The last of these gives a format of the binary reel header. -/
def reportWith (B : Format) : FileM (List Printed) := do
  let (reader, _) ← createReader none B fmtTraceHeaderRev1 .big none
  let num_traces ← FileM.lift reader.numTraces
  let description ← FileM.lift reader.dataSampleFormatDescription
  let dimensionality ← FileM.lift reader.dimensionality
  let cdps ← FileM.lift (reportCdps reader)
  let lines ← FileM.lift (reportLines reader)
  return [.blank, .filename, .revision reader.revision, .numTraces num_traces, .dataFormat description,
      .dimensionality dimensionality] ++ cdps ++ lines ++ [.beginTextual] ++
    reader.textual_reel_header.map (fun line => .line (line.drop 3)) ++
    [.endTextual, .blank, .beginExtended, .extended reader.extended_textual_headers, .endExtended]

/-- `segpy report <filename>`, cli.py:68-104, and examples/report.py:19-51. -/
def report : FileM (List Printed) := reportWith fmtBinaryReelHeader

end Segpy
