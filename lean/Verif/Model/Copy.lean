import Verif.Model.Writer
import Verif.Model.Reader

/-!
# Model of copying a file through a reader and the writer
-/

namespace Segpy

/-- A reader as the dataset handed to `write_segy`, as in examples/loadsave.py:36-42.  The reader has all the members
that `write_segy` asks for (reader.py:422-433, 452-515, 533-549, 569-573); they read the file `s` each time they are called, and what they
return does not depend on the position of the file (`C46_history`).  `trace_indexes()` and `num_traces()` do not fail
for a reader that has been opened (`C61_describes`). -/
def Reader.asDataset (r : Reader) (native : Endian) (s : FileH) : Dataset where
  textual_reel_header := r.textual_reel_header
  binary_reel_header := r.binary_reel_header
  extended_textual_header := r.extended_textual_headers
  encoding := some r.encoding
  num_traces := match r.numTraces with
    | .ok n => n
    | .error _ => 0
  trace_indexes := match r.traceIndexes with
    | .ok l => l
    | .error _ => []
  trace_header := fun i => (r.traceHeader i none s).1
  trace_samples := fun i => (r.traceSamples native i none none s).1

end Segpy
