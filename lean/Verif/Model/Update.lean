import Verif.Model.Reader

/-! # Updating a file in place

A program that changes traces of a file which is open for reading and writing, with the functions that write a trace
header or samples where the file is positioned.  `starts` are the positions of the traces, which `catalog_traces` gives
(toolkit.py:310-428). -/

namespace Segpy

/-- A change: another header, or other samples, for the trace with the given number. -/
inductive Update where
  | header (i : Nat) (h : Header)
  | samples (i : Nat) (vs : List PyNum)

/-- `fh.seek(offset); write_trace_header(fh, header, packer)`, toolkit.py:792-804, or
`fh.seek(offset + TRACE_HEADER_NUM_BYTES); write_trace_samples(fh, samples, seg_y_type, endian)`, toolkit.py:807-842. -/
def applyUpdate (starts : List Nat) (p : HeaderPacker) (t : SegYType) (e : Endian) : Update → FileM Unit
  | .header i h => do
    FileM.seek (starts.getD i 0)
    writeTraceHeader h p
  | .samples i vs => do
    FileM.seek (starts.getD i 0 + TRACE_HEADER_NUM_BYTES : Nat)
    writeTraceSamples vs t e

/-- One change after the other. -/
def applyUpdates (starts : List Nat) (p : HeaderPacker) (t : SegYType) (e : Endian) : List Update → FileM Unit
  | [] => pure ()
  | u :: us => do
    applyUpdate starts p t e u
    applyUpdates starts p t e us

/-- `fh.seek(0); write_textual_reel_header(fh, lines, encoding)`, toolkit.py:643-679. -/
def replaceTextual (lines : List PyStr) (enc : Encoding) : FileM Unit := do
  FileM.seek 0
  writeTextualReelHeader lines enc

/-- `fh.seek(TEXTUAL_HEADER_NUM_BYTES); write_binary_reel_header(fh, binary_reel_header, endian)`,
toolkit.py:682-696. -/
def replaceBinary (h : Header) (e : Endian) : FileM Unit := do
  FileM.seek (TEXTUAL_HEADER_NUM_BYTES : Nat)
  writeBinaryReelHeader h e

end Segpy
