import Verif.Model.TextHeader
import Verif.Model.Samples
import Verif.Model.Packer
import Verif.Model.Formats

/-!
# Model of the header and cataloguing functions of `segpy/toolkit.py`

Reading and writing of binary reel headers and trace headers, and `catalog_traces`.  A progress callback is modelled
by the list of the arguments it is called with; it is assumed to return and not to touch the file.
-/

namespace Segpy

/-- `canonicalize_revision(revision)`, revisions.py:23-54 (`VARIANTS` and lines 34-53). -/
def canonicalizeRevision (revision : Int) : Res Int :=
  if revision = 0 then .ok 0
  else if revision = 0x0100 then .ok 0x0100
  else if revision = 1 then .ok 0x0100
  else if revision = 100 then .ok 0x0100
  else .error .segyRevisionError

/-- `extract_revision(binary_reel_header)`, toolkit.py:36-48. -/
def extractRevision (h : Header) : Res Int := do canonicalizeRevision (← h.get "format_revision_num")

/-- `bytes_per_sample(binary_reel_header)`, toolkit.py:65-85. -/
def headerBytesPerSample (h : Header) : Res Nat := do bytesPerSample (← h.get "data_sample_format")

/-- `read_binary_reel_header(fh, binary_reel_header_format, endian)`, toolkit.py:168-183; a format without
`LENGTH_IN_BYTES` raises `AttributeError`. -/
def readBinaryReelHeader (B : Format) (e : Endian) : FileM Header := do
  let header_packer ← FileM.lift (makeHeaderPacker B e)
  match B.lengthInBytes with
  | none => FileM.raise .attributeError
  | some n =>
    let buffer ← FileM.read n
    FileM.lift (header_packer.unpack buffer)

/-- `read_extended_textual_headers(fh, binary_reel_header, encoding)`, toolkit.py:272-304. -/
def readExtendedHeadersOf (h : Header) (enc : Encoding) : FileM (List (List PyStr)) := do
  let n ← FileM.lift (h.get "num_extended_textual_headers")
  readExtendedTextualHeaders n enc

/-- `read_trace_header(fh, trace_header_packer, pos)` with a position, toolkit.py:431-458. -/
def readTraceHeader (p : HeaderPacker) (pos : Int) : FileM Header := do
  FileM.seek pos
  let data ← FileM.read TRACE_HEADER_NUM_BYTES
  match p.unpack data with
  | .ok h => return h
  | .error e => FileM.raise (if e.isValueError then .eofError else e)

/-- `write_binary_reel_header(fh, binary_reel_header, endian)`, toolkit.py:682-696. -/
def writeBinaryReelHeader (h : Header) (e : Endian) : FileM Unit := do
  let header_packer ← FileM.lift (makeHeaderPacker h.format e)
  let buffer ← FileM.lift (header_packer.pack h)
  FileM.write buffer

/-- `write_trace_header(fh, trace_header, trace_header_packer)`, toolkit.py:792-804. -/
def writeTraceHeader (h : Header) (p : HeaderPacker) : FileM Unit := do
  let buf ← FileM.lift (p.pack h)
  FileM.write buf

/-- `file_length(fh)`, util.py:240-254: the position is restored. -/
def fileLength : FileM Nat := fun s => (.ok s.data.length, s)

/-- The fields of `CatalogSubFormat`, toolkit.py:370-376. -/
def catalogFieldNames : List String :=
  ["file_sequence_num", "ensemble_num", "num_samples", "inline_number", "crossline_number"]

/-- `_READ_PROPORTION * pos_begin / length`, toolkit.py:391, in double precision; `_READ_PROPORTION` is 0.75, line 307.
(Lengths beyond the range of a double, which raise `OverflowError`, are not modelled.) -/
def progressAt (pos_begin : Int) (length : Nat) : Res ℚ :=
  if length = 0 then .error .zeroDivisionError
  else .ok (round64 (round64 (3 / 4 * round64 pos_begin) / round64 length))

/-- What `catalog_traces` has collected: the entries added to its four builders and the progress reported. -/
structure Scan where
  offsets : List (Int × Int) := []
  lengths : List (Int × Int) := []
  lines : List ((Int × Int) × Int) := []
  cdps : List (Int × Int) := []
  progress : List ℚ := []
  deriving DecidableEq

/-- The body of the loop after a complete header has been read, toolkit.py:396-408: the scan with the trace added and
the next `pos_begin`. -/
def Scan.addTrace (p : HeaderPacker) (bps : Nat) (trace_number : Nat) (pos_begin : Int) (data : Bytes) (scan : Scan) :
    Res (Scan × Int) := do
  let trace_header ← p.unpack data
  let num_samples ← trace_header.get "num_samples"
  let samples_bytes := num_samples * bps
  let inline_number ← trace_header.get "inline_number"
  let crossline_number ← trace_header.get "crossline_number"
  let ensemble_num ← trace_header.get "ensemble_num"
  let pos_end := pos_begin + TRACE_HEADER_NUM_BYTES + samples_bytes
  return ({ offsets := scan.offsets ++ [((trace_number : Int), pos_begin)]
            lengths := scan.lengths ++ [((trace_number : Int), num_samples)]
            lines := scan.lines ++ [((inline_number, crossline_number), (trace_number : Int))]
            cdps := scan.cdps ++ [(ensemble_num, (trace_number : Int))]
            progress := scan.progress }, pos_end)

/-- The loop of `catalog_traces`, toolkit.py:390-408, for at most `fuel` iterations. -/
def catalogLoop (p : HeaderPacker) (bps : Nat) (length : Nat) : Nat → Nat → Int → Scan → FileM Scan
  | 0, _, _, _ => FileM.raise .nonTermination
  | fuel + 1, trace_number, pos_begin, scan => do
    let x ← FileM.lift (progressAt pos_begin length)
    let scan := { scan with progress := scan.progress ++ [x] }
    FileM.seek pos_begin
    let data ← FileM.read TRACE_HEADER_NUM_BYTES
    if data.length < TRACE_HEADER_NUM_BYTES then return scan
    else
      let (scan, pos_begin) ← FileM.lift (scan.addTrace p bps trace_number pos_begin data)
      catalogLoop p bps length fuel (trace_number + 1) pos_begin scan

/-- The four catalogs returned by `catalog_traces`, each possibly `None`, and the progress reported. -/
structure Catalogs where
  trace_offset : Option Catalog1
  trace_length : Option Catalog1
  cdp : Option Catalog1
  line : Option Catalog2
  progress : List ℚ
  deriving DecidableEq

/-- The end of `catalog_traces`, toolkit.py:410-428. -/
def Scan.create (scan : Scan) : Res Catalogs := do
  let trace_offset ← createCatalogInt scan.offsets
  let trace_length ← createCatalogInt scan.lengths
  let cdp ← createCatalogInt scan.cdps
  let line ← createCatalogPair scan.lines
  return { trace_offset, trace_length, cdp, line,
           progress := scan.progress ++ [3 / 4, 3 / 4 + 3 / 4 / 4, 3 / 4 + 3 / 4 / 2, 3 / 4 + 3 / 4 * 3 / 4, 1] }

/-- `catalog_traces(fh, bps, trace_header_format, endian, progress)`, toolkit.py:311-428, with a bound on the number of
iterations of the loop. -/
def catalogTracesFuel (fuel : Nat) (bps : Nat) (T : Format) (e : Endian) : FileM Catalogs := do
  let S ← FileM.lift (T.subFormat "CatalogSubFormat" catalogFieldNames)
  let trace_header_packer ← FileM.lift (makeHeaderPacker S e)
  let length ← fileLength
  let pos_begin ← FileM.tell
  let scan ← catalogLoop trace_header_packer bps length fuel 0 pos_begin {}
  FileM.lift scan.create

/-- `catalog_traces`, toolkit.py:311-428.  The bound is one more than the number of bytes in the file: `C43_terminates`
shows that it is enough for every format in which `num_samples` cannot be negative, and `C43_may_not_terminate` that no
bound is enough in general. -/
def catalogTraces (bps : Nat) (T : Format) (e : Endian) : FileM Catalogs := fun s =>
  catalogTracesFuel (s.data.length + 1) bps T e s

end Segpy
