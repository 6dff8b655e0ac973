import Verif.Model.Scan

/-!
# Model of `segpy/writer.py`
-/

namespace Segpy

/-- What `write_segy` asks of a dataset (dataset.py:6-91): its headers, and for each of its trace indexes a header and
samples, any of which may raise.  `encoding` is `None` for a dataset without one.  A dataset is taken not to change while
it is written. -/
structure Dataset where
  textual_reel_header : List PyStr
  binary_reel_header : Header
  extended_textual_header : List (List PyStr)
  encoding : Option Encoding
  num_traces : Int
  trace_indexes : List Int
  trace_header : Int → Res Header
  trace_samples : Int → Res (List PyNum)

/-- `data_sample_format`, dataset.py:87-91. -/
def Dataset.dataSampleFormat (d : Dataset) : Res SegYType := do
  dataSampleFormatToSegYType (← d.binary_reel_header.get "data_sample_format")

/-- The loop of `write_segy`, writer.py:56-59; returns the progress reported, `trace_index / num_traces` correctly
rounded. -/
def writeTraces (d : Dataset) (p : HeaderPacker) (e : Endian) : List Int → FileM (List ℚ)
  | [] => return []
  | i :: rest => do
    let header ← FileM.lift (d.trace_header i)
    writeTraceHeader header p
    let samples ← FileM.lift (d.trace_samples i)
    let format ← FileM.lift d.dataSampleFormat
    writeTraceSamples samples format e
    if d.num_traces = 0 then FileM.raise .zeroDivisionError
    else
      let later ← writeTraces d p e rest
      return round64 ((i : ℚ) / d.num_traces) :: later

/-- `write_segy(fh, dataset, encoding, trace_header_format, endian, progress)`, writer.py:9-61; returns the progress
reported. -/
def writeSegy (d : Dataset) (encoding : Option Encoding) (T : Format) (e : Endian) : FileM (List ℚ) := do
  let enc := (encoding.or d.encoding).getD .ascii
  if !isSupportedEncoding enc then FileM.raise .unsupportedEncodingError
  else
    writeTextualReelHeader d.textual_reel_header enc
    writeBinaryReelHeader d.binary_reel_header e
    writeExtendedTextualHeaders d.extended_textual_header enc
    let trace_header_packer ← FileM.lift (makeHeaderPacker T e)
    let progress ← writeTraces d trace_header_packer e d.trace_indexes
    return progress ++ [1]

end Segpy
