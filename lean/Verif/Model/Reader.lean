import Verif.Model.Scan

/-!
# Model of `segpy/reader.py`: opening a file and reading traces

The file object is open, binary and seekable, so that the checks at reader.py:111-121 pass; `endian` is one of the two
admitted values and the progress callback is callable.  Caching is modelled in `Model/Cache.lean`; here
`cache_directory` is `None`.
-/

namespace Segpy

/-- The class of a reader with the attributes it adds to `SegYReader`: `SegYReader` itself (reader.py:291-579),
`SegYReader2D` (734-838) and `SegYReader3D` (582-731).  A `None` line catalog stands for the empty `dict` put in place of
a missing one (276); the empty `DictionaryCatalog` serves as that for the other catalogs. -/
inductive ReaderKind where
  | plain
  | twoD (cdp_catalog : Catalog1) (cdp_numbers : Option PyIter)
  | threeD (line_catalog : Option Catalog2) (inline_numbers xline_numbers : Option PyIter)
  deriving DecidableEq

/-- A reader: its instance attributes other than the file, reader.py:339-363, 637-639, 783-784. -/
structure Reader where
  endian : Endian
  encoding : Encoding
  textual_reel_header : List PyStr
  binary_reel_header : Header
  extended_textual_headers : List (List PyStr)
  trace_header_packer : HeaderPacker
  trace_offset_catalog : Catalog1
  trace_length_catalog : Catalog1
  revision : Int
  bytes_per_sample : Nat
  max_num_trace_samples : Option Int
  kind : ReaderKind
  deriving DecidableEq

/-- `catalog or {}` for a catalog with scalar keys, reader.py:275-278. -/
def catalogOrEmpty1 (c : Option Catalog1) : Res Catalog1 :=
  match c with
  | none => .ok (.dictionary [])
  | some c => do
    let n ← c.len
    return if n ≠ 0 then c else .dictionary []

/-- `catalog or {}` for the line catalog, reader.py:275-278. -/
def catalogOrEmpty2 (c : Option Catalog2) : Option Catalog2 :=
  match c with
  | none => none
  | some c => if c.len ≠ 0 then some c else none

/-- The dimensionality chosen when none is asked for, reader.py:265-271. -/
def chooseDimensionality (cdp : Option Catalog1) (line : Option Catalog2) : Int :=
  if cdp ≠ none ∧ line = none then 2
  else if line ≠ none then 3
  else 1

/-- `SegYReader.__init__` and those of the subclasses, reader.py:298-363, 590-639, 737-784. -/
def Reader.make (textual : List PyStr) (binary : Header) (extended : List (List PyStr)) (offsets lengths : Catalog1)
    (T : Format) (enc : Encoding) (e : Endian) (kind : ReaderKind) : Res Reader := do
  let packer ← makeHeaderPacker T e
  let revision ← extractRevision binary
  let bps ← headerBytesPerSample binary
  return { endian := e, encoding := enc, textual_reel_header := textual, binary_reel_header := binary,
           extended_textual_headers := extended, trace_header_packer := packer, trace_offset_catalog := offsets,
           trace_length_catalog := lengths, revision, bytes_per_sample := bps, max_num_trace_samples := none, kind }

/-- The end of `_make_reader`, reader.py:265-288. -/
def makeReaderOf (dimensionality : Option Int) (textual : List PyStr) (binary : Header) (extended : List (List PyStr))
    (catalogs : Catalogs) (T : Format) (enc : Encoding) (e : Endian) : Res Reader := do
  let dim := dimensionality.getD (chooseDimensionality catalogs.cdp catalogs.line)
  if ¬ (1 ≤ dim ∧ dim ≤ 3) then .error .assertionError
  else
    let offsets ← catalogOrEmpty1 catalogs.trace_offset
    let lengths ← catalogOrEmpty1 catalogs.trace_length
    let cdp ← catalogOrEmpty1 catalogs.cdp
    let line := catalogOrEmpty2 catalogs.line
    if dim = 1 then Reader.make textual binary extended offsets lengths T enc e .plain
    else if dim = 2 then Reader.make textual binary extended offsets lengths T enc e (.twoD cdp none)
    else Reader.make textual binary extended offsets lengths T enc e (.threeD line none none)

/-- `_make_reader(fh, encoding, binary_reel_header_format, trace_header_format, endian, progress, dimensionality)`,
reader.py:252-288; also returns the progress reported. -/
def makeReader (encoding : Option Encoding) (B T : Format) (e : Endian) (dimensionality : Option Int) :
    FileM (Reader × List ℚ) := do
  let encoding ← (match encoding with
    | some enc => pure (some enc)
    | none => guessTextualHeaderEncoding)
  let enc := encoding.getD .ascii
  let textual ← readTextualReelHeader enc
  let binary ← readBinaryReelHeader B e
  let extended ← readExtendedHeadersOf binary enc
  let bps ← FileM.lift (headerBytesPerSample binary)
  let catalogs ← catalogTraces bps T e
  let reader ← FileM.lift (makeReaderOf dimensionality textual binary extended catalogs T enc e)
  return (reader, catalogs.progress)

/-- `create_reader(fh, encoding, binary_reel_header_format, trace_header_format, endian, progress, None,
dimensionality)`, reader.py:38-159 with caching disabled; also returns the progress reported. -/
def createReader (encoding : Option Encoding) (B T : Format) (e : Endian) (dimensionality : Option Int) :
    FileM (Reader × List ℚ) := do
  let num_file_bytes ← fileLength
  if num_file_bytes < REEL_HEADER_NUM_BYTES then FileM.raise .valueError
  else if dimensionality ∉ [none, some 1, some 2, some 3] then FileM.raise .valueError
  else
    let (reader, progress) ← makeReader encoding B T e dimensionality
    return (reader, progress ++ [1])

namespace Reader

/-- `trace_indexes()`, reader.py:422-429. -/
def traceIndexes (r : Reader) : Res (List Int) := r.trace_offset_catalog.keys

/-- `num_traces()`, reader.py:431-433. -/
def numTraces (r : Reader) : Res Int := r.trace_offset_catalog.len

/-- `max_num_trace_samples()`, reader.py:435-439: the answer and the reader with the answer remembered. -/
def maxNumTraceSamples (r : Reader) : Res (Int × Reader) :=
  match r.max_num_trace_samples with
  | some n => .ok (n, r)
  | none => do
    let keys ← r.trace_length_catalog.keys
    let values ← keys.mapM r.trace_length_catalog.get
    let n := match values with
      | [] => 0
      | v :: vs => vs.foldl max v
    return (n, { r with max_num_trace_samples := some n })

/-- `num_trace_samples(trace_index)`, reader.py:441-450. -/
def numTraceSamples (r : Reader) (trace_index : Int) : Res Int := r.trace_length_catalog.get trace_index

/-- `data_sample_format`, dataset.py:87-91. -/
def dataSampleFormat (r : Reader) : Res SegYType := do
  dataSampleFormatToSegYType (← r.binary_reel_header.get "data_sample_format")

/-- The part of `trace_samples` before the file is read, reader.py:472-492: the position, type and number of samples to
be read. -/
def locateSamples (r : Reader) (trace_index : Int) (start stop : Option Int) : Res (Int × SegYType × Int) := do
  let n ← r.numTraces
  if ¬ (0 ≤ trace_index ∧ trace_index < n) then .error .valueError
  else
    let num_samples_in_trace ← r.numTraceSamples trace_index
    let start_sample := start.getD 0
    let stop_sample := stop.getD num_samples_in_trace
    if ¬ (0 ≤ stop_sample ∧ stop_sample ≤ num_samples_in_trace) then .error .valueError
    else if ¬ (0 ≤ start_sample ∧ start_sample ≤ stop_sample) then .error .valueError
    else
      let seg_y_type ← r.dataSampleFormat
      let offset ← r.trace_offset_catalog.get trace_index
      let start_pos := offset + TRACE_HEADER_NUM_BYTES + start_sample * seg_y_type.size
      let num_samples_to_read := stop_sample - start_sample
      return (start_pos, seg_y_type, num_samples_to_read)

/-- `trace_samples(trace_index, start, stop)`, reader.py:452-496. -/
def traceSamples (r : Reader) (native : Endian) (trace_index : Int) (start stop : Option Int) :
    FileM (List PyNum) := do
  let (start_pos, seg_y_type, n) ← FileM.lift (r.locateSamples trace_index start stop)
  readBinaryValues native start_pos seg_y_type n r.endian

/-- `trace_header(trace_index)`, reader.py:498-515; the optional other packer is `packer`. -/
def traceHeader (r : Reader) (trace_index : Int) (packer : Option HeaderPacker := none) : FileM Header := do
  let n ← FileM.lift r.numTraces
  if ¬ (0 ≤ trace_index ∧ trace_index < n) then FileM.raise .valueError
  else
    let header_packer := packer.getD r.trace_header_packer
    let pos ← FileM.lift (r.trace_offset_catalog.get trace_index)
    readTraceHeader header_packer pos

/-- `dimensionality`, reader.py:523-531, 648-649, 792-793. -/
def dimensionality (r : Reader) : Res Int :=
  match r.kind with
  | .plain => do return if (← r.numTraces) = 1 then 1 else 0
  | .twoD _ _ => .ok 2
  | .threeD _ _ _ => .ok 3

/-- `inline_numbers()`, reader.py:651-667; only a 3D reader has the method. -/
def inlineNumbers (r : Reader) : Res (PyIter × Reader) :=
  match r.kind with
  | .threeD line (some i) j => .ok (i, { r with kind := .threeD line (some i) j })
  | .threeD (some c) none j => .ok (c.iRange, { r with kind := .threeD (some c) (some c.iRange) j })
  | .threeD none none j => do
    let i ← makeSortedDistinctSequence (.gen []) (some .ascending)
    return (i, { r with kind := .threeD none (some i) j })
  | _ => .error .attributeError

/-- `xline_numbers()`, reader.py:673-689. -/
def xlineNumbers (r : Reader) : Res (PyIter × Reader) :=
  match r.kind with
  | .threeD line i (some j) => .ok (j, { r with kind := .threeD line i (some j) })
  | .threeD (some c) i none => .ok (c.jRange, { r with kind := .threeD (some c) i (some c.jRange) })
  | .threeD none i none => do
    let j ← makeSortedDistinctSequence (.gen []) (some .ascending)
    return (j, { r with kind := .threeD none i (some j) })
  | _ => .error .attributeError

/-- `inline_xline_numbers()`, reader.py:695-699. -/
def inlineXlineNumbers (r : Reader) : Res (List (Int × Int)) :=
  match r.kind with
  | .threeD (some c) _ _ => .ok c.keys
  | .threeD none _ _ => .ok []
  | _ => .error .attributeError

/-- `has_trace_index(inline_xline)` of a 3D reader, reader.py:701-710. -/
def hasTraceIndex3 (r : Reader) (inline_xline : Int × Int) : Res Bool :=
  match r.kind with
  | .threeD (some c) _ _ => c.contains inline_xline
  | .threeD none _ _ => .ok false
  | _ => .error .attributeError

/-- `trace_index(inline_xline)` of a 3D reader, reader.py:712-731. -/
def traceIndex3 (r : Reader) (inline_xline : Int × Int) : Res Int :=
  match r.kind with
  | .threeD (some c) _ _ => c.get inline_xline
  | .threeD none _ _ => .error .keyError
  | _ => .error .attributeError

/-- `cdp_numbers()`, reader.py:795-808; only a 2D reader has the method. -/
def cdpNumbers (r : Reader) : Res (PyIter × Reader) :=
  match r.kind with
  | .twoD c (some n) => .ok (n, { r with kind := .twoD c (some n) })
  | .twoD c none => do
    let keys ← c.keys
    let n ← makeSortedDistinctSequence (.list keys) (some .ascending)
    return (n, { r with kind := .twoD c (some n) })
  | _ => .error .attributeError

/-- `num_cdps()`, reader.py:810-816. -/
def numCdps (r : Reader) : Res Int :=
  match r.kind with
  | .twoD c _ => c.len
  | _ => .error .attributeError

/-- `has_trace_index(cdp_number)` of a 2D reader, reader.py:818-827. -/
def hasTraceIndex2 (r : Reader) (cdp_number : Int) : Res Bool :=
  match r.kind with
  | .twoD c _ => c.contains cdp_number
  | _ => .error .attributeError

/-- `trace_index(cdp_number)` of a 2D reader, reader.py:829-838. -/
def traceIndex2 (r : Reader) (cdp_number : Int) : Res Int :=
  match r.kind with
  | .twoD c _ => c.get cdp_number
  | _ => .error .attributeError

end Reader

/-! ## Histories of calls -/

/-- A call of a public method of a reader, or something else moving the shared file position. -/
inductive Call where
  | traceIndexes
  | numTraces
  | maxNumTraceSamples
  | numTraceSamples (trace_index : Int)
  | traceSamples (trace_index : Int) (start stop : Option Int)
  | traceHeader (trace_index : Int) (packer : Option HeaderPacker)
  | dimensionality
  | inlineNumbers
  | xlineNumbers
  | numInlines
  | numXlines
  | inlineXlineNumbers
  | hasTraceIndex3 (inline_xline : Int × Int)
  | traceIndex3 (inline_xline : Int × Int)
  | cdpNumbers
  | numCdps
  | hasTraceIndex2 (cdp_number : Int)
  | traceIndex2 (cdp_number : Int)
  | seekElsewhere (pos : Nat)

/-- What a call returns. -/
inductive Answer where
  | none
  | int (n : Int)
  | bool (b : Bool)
  | ints (l : List Int)
  | pairs (l : List (Int × Int))
  | seq (s : PyIter)
  | samples (l : List PyNum)
  | header (h : Header)
  deriving DecidableEq

/-- The reader after a call that may remember something. -/
def remember {α : Type} (r : Reader) (f : α → Answer) : Res (α × Reader) → Res Answer × Reader
  | .ok (a, r') => (.ok (f a), r')
  | .error e => (.error e, r)

/-- Make a call. -/
def Reader.call (native : Endian) (c : Call) (r : Reader) (s : FileH) : Res Answer × Reader × FileH :=
  let onFile {α : Type} (m : FileM α) (f : α → Answer) : Res Answer × Reader × FileH :=
    ((m s).1.map f, r, (m s).2)
  let remembering {α : Type} (x : Res (α × Reader)) (f : α → Answer) : Res Answer × Reader × FileH :=
    ((remember r f x).1, (remember r f x).2, s)
  match c with
  | .traceIndexes => (r.traceIndexes.map .ints, r, s)
  | .numTraces => (r.numTraces.map .int, r, s)
  | .maxNumTraceSamples => remembering r.maxNumTraceSamples .int
  | .numTraceSamples i => ((r.numTraceSamples i).map .int, r, s)
  | .traceSamples i start stop => onFile (r.traceSamples native i start stop) .samples
  | .traceHeader i packer => onFile (r.traceHeader i packer) .header
  | .dimensionality => (r.dimensionality.map .int, r, s)
  | .inlineNumbers => remembering r.inlineNumbers .seq
  | .xlineNumbers => remembering r.xlineNumbers .seq
  | .numInlines => remembering r.inlineNumbers fun i => .int i.len
  | .numXlines => remembering r.xlineNumbers fun i => .int i.len
  | .inlineXlineNumbers => (r.inlineXlineNumbers.map .pairs, r, s)
  | .hasTraceIndex3 k => ((r.hasTraceIndex3 k).map .bool, r, s)
  | .traceIndex3 k => ((r.traceIndex3 k).map .int, r, s)
  | .cdpNumbers => remembering r.cdpNumbers .seq
  | .numCdps => (r.numCdps.map .int, r, s)
  | .hasTraceIndex2 k => ((r.hasTraceIndex2 k).map .bool, r, s)
  | .traceIndex2 k => ((r.traceIndex2 k).map .int, r, s)
  | .seekElsewhere pos => (.ok .none, r, { s with pos := pos })

/-- Make a list of calls, one after the other, whatever they answer. -/
def Reader.calls (native : Endian) : List Call → Reader → FileH → Reader × FileH
  | [], r, s => (r, s)
  | c :: cs, r, s =>
    let q := r.call native c s
    Reader.calls native cs q.2.1 q.2.2

end Segpy
