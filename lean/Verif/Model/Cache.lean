import Verif.Model.Reader

/-!
# Model of the reader cache: `hash_for_file` of `segpy/util.py` and the caching part of `segpy/reader.py`

`pickle` and SHA1 are not modelled as such.  A pickle is represented by what it stands for: the state of a reader, some
other object, or nothing because loading it raises.  In particular every strict prefix of a pickle, an empty file and a
pickle of another version of the package are taken to be unloadable.  SHA1 is an arbitrary function of the bytes that it
is fed.
-/

namespace Segpy

/-! ## Hashing, util.py:449-478 -/

/-- The loop `for chunk in iter(lambda: fh.read(block_size), b'')`, util.py:468-469, for at most `fuel` chunks; returns
the bytes fed to the hash so far. -/
def hashLoop (block_size : Nat) : Nat → Bytes → FileM Bytes
  | 0, _ => FileM.raise .nonTermination
  | fuel + 1, fed => do
    let chunk ← FileM.read block_size
    if chunk.isEmpty then return fed
    else hashLoop block_size fuel (fed ++ chunk)

/-- `length.bit_length()`, util.py:471. -/
def bitLength (n : Nat) : Nat := if n = 0 then 0 else Nat.log2 n + 1

/-- `length.to_bytes((length.bit_length() // 8) + 1, byteorder='little')`, util.py:471; the length always fits. -/
def lengthAsBytes (n : Nat) : Bytes := leBytes (bitLength n / 8 + 1) n

/-- `hash_for_file(fh, *args)`, util.py:449-478, up to the digest: the bytes that are fed to the hash function.  `args`
are the encoded `repr`s of the arguments, util.py:474-476. -/
def hashFeed (args : List Bytes) : FileM Bytes := fun s =>
  (do
    FileM.seek 0
    let fed ← hashLoop (512 * 128) (s.data.length + 1) []
    let length ← FileM.tell
    let fed := fed ++ lengthAsBytes length
    FileM.seek 0
    return args.foldl (fun fed arg => fed ++ arg) fed : FileM Bytes) s

/-- What the model does not define: the hash function, how classes and encodings unknown to the package print, and which
classes can be pickled (those found under their name in an importable module). -/
structure Platform (Key : Type) where
  sha1 : Bytes → Key
  reprClass : Format → Bytes
  reprOther : Bytes
  picklable : Format → Bool

/-- ASCII text as bytes. -/
def asciiBytes (s : String) : Bytes := s.toList.map fun c => UInt8.ofNat c.toNat

/-- `repr(encoding).encode('utf8')` for the argument of `create_reader`. -/
def Platform.reprEncoding {Key : Type} (P : Platform Key) : Option Encoding → Bytes
  | none => asciiBytes "None"
  | some .ascii => asciiBytes "'ascii'"
  | some .ebcdic => asciiBytes "'cp037'"
  | some .other => P.reprOther

/-- `repr(endian).encode('utf8')`. -/
def reprEndian : Endian → Bytes
  | .big => asciiBytes "'>'"
  | .little => asciiBytes "'<'"

/-- The call of `hash_for_file` in `create_reader`, reader.py:142. -/
def Platform.hashForFile {Key : Type} (P : Platform Key) (encoding : Option Encoding) (B T : Format) (e : Endian) :
    FileM Key := do
  let fed ← hashFeed [P.reprEncoding encoding, P.reprClass B, P.reprClass T, reprEndian e]
  return P.sha1 fed

/-! ## Files -/

/-- The absolute path of a data file: directory and name.  Symbolic links are not modelled. -/
structure DataPath where
  dir : List String
  name : String
  deriving DecidableEq, Repr

/-- The `cache_directory` argument, reader.py:46: `None`, an absolute or a relative path (without `..`). -/
inductive CacheDir where
  | disabled
  | absolute (dir : List String)
  | relative (dir : List String)
  deriving DecidableEq, Repr

/-- `_locate_cache_file(seg_y_path, cache_directory, sha1)`, reader.py:162-189: the directory of the cache file, which
is named after the hash; `none` is an unknown file name. -/
def locateCacheFile (seg_y_path : Option DataPath) : CacheDir → Option (List String)
  | .disabled => none
  | .absolute dir => some dir
  | .relative dir => seg_y_path.map fun p => p.dir ++ dir

/-- What is stored of a reader: `SegYReader.__getstate__`, reader.py:365-391.  The state of the binary reel header is
represented by the header itself, see `Pickle.load`. -/
structure Pickle where
  reader : Reader
  file_name : DataPath
  file_pos : Nat
  deriving DecidableEq

/-- The contents of a cache file: something `pickle.load` raises on, an object that is not a reader, or a reader. -/
inductive CacheFile where
  | unloadable
  | other
  | reader (p : Pickle)
  deriving DecidableEq

/-- The file system: data files and cache files. -/
structure World (Key : Type) where
  files : DataPath → Option Bytes
  cache : List String × Key → Option CacheFile

/-- Which accesses to the cache fail with `OSError`: creating the directory, opening the cache file for writing, writing
to it, opening it for reading, removing it. -/
structure Faults where
  makedirs : Bool := false
  openWrite : Bool := false
  write : Bool := false
  openRead : Bool := false
  unlink : Bool := false
  deriving DecidableEq

/-! ## Pickling -/

/-- What `__getstate__` of the class of the reader evaluates, and thereby makes the reader remember, before the file name
is looked at, reader.py:641-646, 786-790; it may raise. -/
def Reader.getstateLines (r : Reader) : Res Reader :=
  match r.kind with
  | .plain => .ok r
  | .twoD _ _ => do
    let (_, r) ← r.cdpNumbers
    return r
  | .threeD _ _ _ => do
    let (_, r) ← r.inlineNumbers
    let (_, r) ← r.xlineNumbers
    return r

/-- `pickle.dump(reader, cache_file)`: `__getstate__`, reader.py:365-391, 641-646, 786-790, and pickling its result,
which needs the classes of the binary header and of the trace headers.  The second component is the reader after it has
remembered the evaluated attributes; where an exception comes after some of them have been evaluated they are taken not
to be remembered, which makes no difference to its answers (`C46_history`). -/
def Reader.dump {Key : Type} (P : Platform Key) (r : Reader) (name : Option DataPath) (pos : Nat) : Res (Pickle × Reader) := do
  let r ← r.getstateLines
  match name with
  | none => .error .typeError
  | some file_name =>
    let (_, r) ← r.maxNumTraceSamples
    if P.picklable r.binary_reel_header.format && P.picklable r.trace_header_packer.format then
      return ({ reader := r, file_name, file_pos := pos }, r)
    else .error .attributeError

/-- Unpickling a reader: `__setstate__`, reader.py:393-420, which opens the file of the stored name, and that of the
binary header (`Header.pickled` is the effect of both of its halves).  Any exception means that nothing is loaded. -/
def Pickle.load {Key : Type} (p : Pickle) (w : World Key) : Res Reader :=
  match w.files p.file_name with
  | none => .error .typeError
  | some _ => do
    let binary ← p.reader.binary_reel_header.pickled
    return { p.reader with binary_reel_header := binary }

/-! ## Opening with a cache -/

/-- A cache file set or removed. -/
def World.setCache {Key : Type} [DecidableEq Key] (w : World Key) (c : List String × Key) (f : Option CacheFile) :
    World Key :=
  { w with cache := fun c' => if c' = c then f else w.cache c' }

/-- `_save_reader_to_cache(reader, cache_file_path)`, reader.py:192-210: whether and what it raises, the reader, and the
file system afterwards. -/
def saveReaderToCache {Key : Type} [DecidableEq Key] (P : Platform Key) (x : Faults) (r : Reader) (name : Option DataPath)
    (pos : Nat) (c : List String × Key) (w : World Key) : Res Reader × World Key :=
  if x.makedirs then (.error .osError, w)
  else if x.openWrite then (.ok r, w)
  else
    match r.dump P name pos with
    | .error err =>
      if err = .attributeError ∨ err = .typeError ∨ err = .osError then (.ok r, w.setCache c (some .unloadable))
      else (.error err, w.setCache c (some .unloadable))
    | .ok (p, r) =>
      if x.write then (.ok r, w.setCache c (some .unloadable))
      else (.ok r, w.setCache c (some (.reader p)))

/-- `_load_reader_from_cache(cache_file_path, seg_y_path)`, reader.py:213-249: the reader and the file that it has
opened. -/
def loadReaderFromCache {Key : Type} [DecidableEq Key] (x : Faults) (c : List String × Key) (w : World Key) :
    Res (Option (Reader × DataPath)) × World Key :=
  let stale : Res (Option (Reader × DataPath)) × World Key := (.ok none, if x.unlink then w else w.setCache c none)
  match w.cache c with
  | none => (.ok none, w)
  | some f =>
    if x.openRead then (.error .osError, w)
    else
      match f with
      | .unloadable => stale
      | .other => (.error .typeError, w)
      | .reader p =>
        match p.load w with
        | .error _ => stale
        | .ok r => (.ok (some (r, p.file_name)), w)

/-- What `create_reader` returns: the reader, the file that it reads (`none` is an anonymous file object given by the
caller), and the progress reported. -/
structure OpenResult where
  reader : Reader
  file : Option DataPath
  progress : List ℚ
  deriving DecidableEq

/-- `create_reader(fh, encoding, binary_reel_header_format, trace_header_format, endian, progress, cache_directory,
dimensionality)`, reader.py:38-159, where `s` is `fh` and `name` its file name. -/
def createReaderCached {Key : Type} [DecidableEq Key] (P : Platform Key) (x : Faults) (dir : CacheDir)
    (name : Option DataPath) (encoding : Option Encoding) (B T : Format) (e : Endian) (dimensionality : Option Int)
    (s : FileH) (w : World Key) : Res OpenResult × World Key :=
  if s.data.length < REEL_HEADER_NUM_BYTES then (.error .valueError, w)
  else if dimensionality ∉ [none, some 1, some 2, some 3] then (.error .valueError, w)
  else if dir = .disabled then
    match makeReader encoding B T e dimensionality s with
    | (.error err, _) => (.error err, w)
    | (.ok (r, progress), _) => (.ok ⟨r, name, progress ++ [1]⟩, w)
  else
    match P.hashForFile encoding B T e s with
    | (.error err, _) => (.error err, w)
    | (.ok key, s) =>
      match locateCacheFile name dir with
      | none =>
        match makeReader encoding B T e dimensionality s with
        | (.error err, _) => (.error err, w)
        | (.ok (r, progress), _) => (.ok ⟨r, name, progress ++ [1]⟩, w)
      | some d =>
        match loadReaderFromCache x (d, key) w with
        | (.error err, w) => (.error err, w)
        | (.ok (some (r, file)), w) => (.ok ⟨r, some file, [1]⟩, w)
        | (.ok none, w) =>
          match makeReader encoding B T e dimensionality s with
          | (.error err, _) => (.error err, w)
          | (.ok (r, progress), s) =>
            match saveReaderToCache P x r name s.pos (d, key) w with
            | (.error err, w) => (.error err, w)
            | (.ok r, w) => (.ok ⟨r, name, progress ++ [1]⟩, w)

/-! ## Histories -/

/-- A call of `create_reader` on a data file that has just been opened, with everything that it depends on. -/
structure OpenCall where
  faults : Faults := {}
  dir : CacheDir := .relative [".segpy"]
  path : DataPath
  encoding : Option Encoding
  B : Format
  T : Format
  e : Endian
  dimensionality : Option Int

/-- Something that happens to the files: a data file is stored (created or replaced), removed or renamed, a cache file is
removed or damaged so that it cannot be loaded (by a crash while it was being written, for instance), or a data file is
opened with `create_reader`. -/
inductive Event (Key : Type) where
  | store (p : DataPath) (data : Bytes)
  | remove (p : DataPath)
  | rename (p q : DataPath)
  | dropCache (c : List String × Key)
  | damageCache (c : List String × Key)
  | openFile (o : OpenCall)

/-- `create_reader` on a data file: what it returns or raises, and the files afterwards. -/
def OpenCall.run {Key : Type} [DecidableEq Key] (P : Platform Key) (o : OpenCall) (w : World Key) :
    Res OpenResult × World Key :=
  match w.files o.path with
  | none => (.error .fileNotFoundError, w)
  | some data => createReaderCached P o.faults o.dir (some o.path) o.encoding o.B o.T o.e o.dimensionality
      { data := data, pos := 0 } w

/-- The effect of an event. -/
def Event.step {Key : Type} [DecidableEq Key] (P : Platform Key) (w : World Key) : Event Key → World Key
  | .store p data => { w with files := fun q => if q = p then some data else w.files q }
  | .remove p => { w with files := fun q => if q = p then none else w.files q }
  | .rename p q =>
    match w.files p with
    | none => w
    | some data => { w with files := fun q' => if q' = q then some data else if q' = p then none else w.files q' }
  | .dropCache c => w.setCache c none
  | .damageCache c => w.setCache c (if (w.cache c).isSome then some .unloadable else none)
  | .openFile o => (o.run P w).2

/-- The file system after some events, if at first there were no cache files. -/
def World.after {Key : Type} [DecidableEq Key] (P : Platform Key) (files : DataPath → Option Bytes) (es : List (Event Key)) :
    World Key :=
  es.foldl (Event.step P) { files := files, cache := fun _ => none }

end Segpy
