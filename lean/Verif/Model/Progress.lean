import Verif.Model.Writer
import Verif.Model.Cache

/-!
# Progress callbacks that raise

`create_reader` and `write_segy` with a progress callback that may raise an exception, for instance because the user wants
to stop; and, when reading, may move the position of the file.  `Model/Reader.lean` and `Model/Writer.lean` have the same
functions for a callback that does neither.
-/

namespace Segpy

/-- A progress callback: what it does when it is called for the last of the given numbers, having been called for those
before.  It may raise, and before that may move the position of the file, which it does not change otherwise. -/
structure Callback where
  raises : List ℚ → Option Err
  moves : List ℚ → Nat → Nat := fun _ pos => pos

namespace Callback

/-- The call for the last of the numbers. -/
def call (cb : Callback) (reports : List ℚ) : FileM Unit := fun s =>
  (match cb.raises reports with
    | some err => .error err
    | none => .ok (), { s with pos := cb.moves reports s.pos })

end Callback

/-- The loop of `catalog_traces`, toolkit.py:390-408. -/
def catalogLoopWith (cb : Callback) (p : HeaderPacker) (bps : Nat) (length : Nat) : Nat → Nat → Int → Scan → FileM Scan
  | 0, _, _, _ => FileM.raise .nonTermination
  | fuel + 1, trace_number, pos_begin, scan => do
    let x ← FileM.lift (progressAt pos_begin length)
    let scan := { scan with progress := scan.progress ++ [x] }
    cb.call scan.progress
    FileM.seek pos_begin
    let data ← FileM.read TRACE_HEADER_NUM_BYTES
    if data.length < TRACE_HEADER_NUM_BYTES then return scan
    else
      let (scan, pos_begin) ← FileM.lift (scan.addTrace p bps trace_number pos_begin data)
      catalogLoopWith cb p bps length fuel (trace_number + 1) pos_begin scan

/-- The end of `catalog_traces`, toolkit.py:410-428. -/
def Scan.createWith (cb : Callback) (scan : Scan) : FileM Catalogs := do
  let reports := scan.progress ++ [3 / 4]
  cb.call reports
  let trace_offset ← FileM.lift (createCatalogInt scan.offsets)
  let reports := reports ++ [3 / 4 + 3 / 4 / 4]
  cb.call reports
  let trace_length ← FileM.lift (createCatalogInt scan.lengths)
  let reports := reports ++ [3 / 4 + 3 / 4 / 2]
  cb.call reports
  let cdp ← FileM.lift (createCatalogInt scan.cdps)
  let reports := reports ++ [3 / 4 + 3 / 4 * 3 / 4]
  cb.call reports
  let line ← FileM.lift (createCatalogPair scan.lines)
  let reports := reports ++ [1]
  cb.call reports
  return { trace_offset, trace_length, cdp, line, progress := reports }

/-- `catalog_traces(fh, bps, trace_header_format, endian, progress)`, toolkit.py:311-428, with the same bound on the number
of iterations as `catalogTraces`. -/
def catalogTracesWith (cb : Callback) (bps : Nat) (T : Format) (e : Endian) : FileM Catalogs := fun s =>
  (do
    let S ← FileM.lift (T.subFormat "CatalogSubFormat" catalogFieldNames)
    let trace_header_packer ← FileM.lift (makeHeaderPacker S e)
    let length ← fileLength
    let pos_begin ← FileM.tell
    let scan ← catalogLoopWith cb trace_header_packer bps length (s.data.length + 1) 0 pos_begin {}
    scan.createWith cb : FileM Catalogs) s

/-- `_make_reader(fh, encoding, binary_reel_header_format, trace_header_format, endian, progress, dimensionality)`,
reader.py:252-288. -/
def makeReaderWith (cb : Callback) (encoding : Option Encoding) (B T : Format) (e : Endian) (dimensionality : Option Int) :
    FileM (Reader × List ℚ) := do
  let encoding ← (match encoding with
    | some enc => pure (some enc)
    | none => guessTextualHeaderEncoding)
  let enc := encoding.getD .ascii
  let textual ← readTextualReelHeader enc
  let binary ← readBinaryReelHeader B e
  let extended ← readExtendedHeadersOf binary enc
  let bps ← FileM.lift (headerBytesPerSample binary)
  let catalogs ← catalogTracesWith cb bps T e
  let reader ← FileM.lift (makeReaderOf dimensionality textual binary extended catalogs T enc e)
  return (reader, catalogs.progress)

/-- `create_reader(fh, encoding, binary_reel_header_format, trace_header_format, endian, progress, None,
dimensionality)`, reader.py:38-159 with caching disabled. -/
def createReaderWith (cb : Callback) (encoding : Option Encoding) (B T : Format) (e : Endian) (dimensionality : Option Int) :
    FileM (Reader × List ℚ) := do
  let num_file_bytes ← fileLength
  if num_file_bytes < REEL_HEADER_NUM_BYTES then FileM.raise .valueError
  else if dimensionality ∉ [none, some 1, some 2, some 3] then FileM.raise .valueError
  else
    let (reader, progress) ← makeReaderWith cb encoding B T e dimensionality
    cb.call (progress ++ [1])
    return (reader, progress ++ [1])

/-- The same with a cache, reader.py:38-159; `s` is `fh` and `name` its file name.  The cache file is written before the
last call of the callback. -/
def createReaderCachedWith {Key : Type} [DecidableEq Key] (cb : Callback) (P : Platform Key) (x : Faults) (dir : CacheDir)
    (name : Option DataPath) (encoding : Option Encoding) (B T : Format) (e : Endian) (dimensionality : Option Int)
    (s : FileH) (w : World Key) : Res OpenResult × World Key :=
  let finish (r : OpenResult) (w : World Key) : Res OpenResult × World Key :=
    match cb.raises r.progress with
    | some err => (.error err, w)
    | none => (.ok r, w)
  if s.data.length < REEL_HEADER_NUM_BYTES then (.error .valueError, w)
  else if dimensionality ∉ [none, some 1, some 2, some 3] then (.error .valueError, w)
  else if dir = .disabled then
    match makeReaderWith cb encoding B T e dimensionality s with
    | (.error err, _) => (.error err, w)
    | (.ok (r, progress), _) => finish ⟨r, name, progress ++ [1]⟩ w
  else
    match P.hashForFile encoding B T e s with
    | (.error err, _) => (.error err, w)
    | (.ok key, s) =>
      match locateCacheFile name dir with
      | none =>
        match makeReaderWith cb encoding B T e dimensionality s with
        | (.error err, _) => (.error err, w)
        | (.ok (r, progress), _) => finish ⟨r, name, progress ++ [1]⟩ w
      | some d =>
        match loadReaderFromCache x (d, key) w with
        | (.error err, w) => (.error err, w)
        | (.ok (some (r, file)), w) => finish ⟨r, some file, [1]⟩ w
        | (.ok none, w) =>
          match makeReaderWith cb encoding B T e dimensionality s with
          | (.error err, _) => (.error err, w)
          | (.ok (r, progress), s) =>
            match saveReaderToCache P x r name s.pos (d, key) w with
            | (.error err, w) => (.error err, w)
            | (.ok r, w) => finish ⟨r, name, progress ++ [1]⟩ w

/-- The loop of `write_segy`, writer.py:56-59; `reports` are those made before. -/
def writeTracesWith (cb : Callback) (d : Dataset) (p : HeaderPacker) (e : Endian) : List Int → List ℚ → FileM (List ℚ)
  | [], reports => return reports
  | i :: rest, reports => do
    let header ← FileM.lift (d.trace_header i)
    writeTraceHeader header p
    let samples ← FileM.lift (d.trace_samples i)
    let format ← FileM.lift d.dataSampleFormat
    writeTraceSamples samples format e
    if d.num_traces = 0 then FileM.raise .zeroDivisionError
    else
      let reports := reports ++ [round64 ((i : ℚ) / d.num_traces)]
      cb.call reports
      writeTracesWith cb d p e rest reports

/-- `write_segy(fh, dataset, encoding, trace_header_format, endian, progress)`, writer.py:9-61. -/
def writeSegyWith (cb : Callback) (d : Dataset) (encoding : Option Encoding) (T : Format) (e : Endian) :
    FileM (List ℚ) := do
  let enc := (encoding.or d.encoding).getD .ascii
  if !isSupportedEncoding enc then FileM.raise .unsupportedEncodingError
  else
    writeTextualReelHeader d.textual_reel_header enc
    writeBinaryReelHeader d.binary_reel_header e
    writeExtendedTextualHeaders d.extended_textual_header enc
    let trace_header_packer ← FileM.lift (makeHeaderPacker T e)
    let reports ← writeTracesWith cb d trace_header_packer e d.trace_indexes []
    cb.call (reports ++ [1])
    return reports ++ [1]

end Segpy
