import Verif.Model.Reader

/-!
# Model of `examples/timed_reader.py`

The file has been opened by the script and is positioned at its start.  The times that are measured and printed are not
modelled; of an exception, `main` prints the traceback and exits with a code; here it is raised.
-/

namespace Segpy

/-- The loop of `read_traces`, examples/timed_reader.py:32-33: each trace is read and dropped. -/
def readEach (r : Reader) (native : Endian) : List Int → FileM Unit
  | [] => return ()
  | trace_index :: rest => do
    let _ ← r.traceSamples native trace_index none none
    readEach r native rest

/-- `read_traces(in_filename)`, examples/timed_reader.py:23-35. -/
def readTraces (native : Endian) : FileM Unit := do
  let (segy_reader, _) ← createReader none fmtBinaryReelHeader fmtTraceHeaderRev1 .big none
  let trace_indexes ← FileM.lift segy_reader.traceIndexes
  readEach segy_reader native trace_indexes

end Segpy
