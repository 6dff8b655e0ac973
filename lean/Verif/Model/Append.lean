import Verif.Model.Reader

/-! # Appending traces to a file

A program that adds traces at the end of a file which is open for reading and writing. -/

namespace Segpy

/-- For each new trace `write_trace_header(fh, header, packer)`, toolkit.py:792-804, and
`write_trace_samples(fh, samples, seg_y_type, endian)`, toolkit.py:807-842, as in `write_segy`, writer.py:66-72. -/
def writeNewTraces (p : HeaderPacker) (t : SegYType) (e : Endian) : List (Header × List PyNum) → FileM Unit
  | [] => pure ()
  | (h, vs) :: new => do
    writeTraceHeader h p
    writeTraceSamples vs t e
    writeNewTraces p t e new

/-- `fh.seek(file_length(fh))`, util.py:240-254, and then the new traces. -/
def appendTraces (p : HeaderPacker) (t : SegYType) (e : Endian) (new : List (Header × List PyNum)) : FileM Unit := do
  let n ← fileLength
  FileM.seek n
  writeNewTraces p t e new

end Segpy
