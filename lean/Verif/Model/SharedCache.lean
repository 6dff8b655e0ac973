import Verif.Model.Cache

/-!
# Processes that share a cache directory

`Model/Cache.lean` models a call of `create_reader` as one step.  Here the call is split into its operations on the cache
file, so that the operations of several processes can alternate.  All processes make the same call for the same data file,
so that they use the same cache file; the data file does not change.  As on POSIX systems, a file that is removed while it
is open lives on without a name.  A process can be killed at any point.  The cache can be written: no operation fails for
want of permissions or space.
-/

namespace Segpy

/-- The cache file, if there is one, and the contents of all files that have ever been under this name. -/
structure CacheFiles where
  entry : Option Nat
  contents : List Bytes
  deriving DecidableEq

namespace CacheFiles

/-- The bytes of a file. -/
def content (fs : CacheFiles) (i : Nat) : Bytes := (fs.contents[i]?).getD []

/-- `cache_file_path.open('wb')`, reader.py:201: an existing file is emptied, else there is a new one. -/
def create (fs : CacheFiles) : Nat × CacheFiles :=
  match fs.entry with
  | some i => (i, { fs with contents := fs.contents.set i [] })
  | none => (fs.contents.length, ⟨some fs.contents.length, fs.contents ++ [[]]⟩)

/-- Writing at a position of an open file. -/
def write (fs : CacheFiles) (i pos : Nat) (bs : Bytes) : CacheFiles :=
  { fs with contents := fs.contents.set i (FileM.overwrite (fs.content i) pos bs) }

end CacheFiles

/-- What all processes have in common: the call, the data files, and `pickle.dumps` and `pickle.loads`, of which the model
knows nothing here. -/
structure SharedCall (Key : Type) where
  P : Platform Key
  o : OpenCall
  files : DataPath → Option Bytes
  data : Bytes
  dumps : Pickle → Bytes
  loads : Bytes → CacheFile

/-- How far a process has got with `create_reader`. -/
inductive CachePhase where
  | start
  | openRead
  | reading (i : Nat) (got : Bytes)
  | unlinking
  | building
  | writing (i pos : Nat) (bytes : Bytes) (result : OpenResult)
  | finished (result : Res OpenResult)
  | killed
  deriving DecidableEq

namespace SharedCall

variable {Key : Type}

/-- `_make_reader(...)`, reader.py:152-153. -/
def build (S : SharedCall Key) : Res (Reader × List ℚ) × FileH :=
  makeReader S.o.encoding S.o.B S.o.T S.o.e S.o.dimensionality { data := S.data, pos := 0 }

/-- What follows reading all of the cache file, reader.py:233-249: a reader is unpickled, which opens the data file, or
the cache file is to be removed, or it contains something else. -/
def unpickle (S : SharedCall Key) (got : Bytes) : CachePhase :=
  match S.loads got with
  | .unloadable => .unlinking
  | .other => .finished (.error .typeError)
  | .reader p =>
    match p.load ({ files := S.files, cache := fun _ => none } : World Key) with
    | .error _ => .unlinking
    | .ok r => .finished (.ok ⟨r, some p.file_name, [1]⟩)

/-- One operation of a process on the cache file; reads and writes are of at most `n + 1` bytes.

* `start`: the checks of the arguments, reader.py:126-139, and whether there is a cache file, 229.
* `openRead`: opening it, 232.
* `reading`: `pickle.load`, 234.  It is taken to read everything before it raises; as reading changes nothing, to raise
  earlier is no more than to read the rest at once.
* `unlinking`: removing the cache file, 238; that there is none is no error, 239-241.
* `building`: making the reader, 152-153, opening the cache file for writing, 201, and `__getstate__`.
* `writing`: `pickle.dump`, 203. -/
def step (S : SharedCall Key) (n : Nat) (fs : CacheFiles) : CachePhase → CachePhase × CacheFiles
  | .start =>
    if S.data.length < REEL_HEADER_NUM_BYTES then (.finished (.error .valueError), fs)
    else if S.o.dimensionality ∉ [none, some 1, some 2, some 3] then (.finished (.error .valueError), fs)
    else if fs.entry.isSome then (.openRead, fs)
    else (.building, fs)
  | .openRead =>
    match fs.entry with
    | none => (.finished (.error .fileNotFoundError), fs)
    | some i => (.reading i [], fs)
  | .reading i got =>
    let block := ((fs.content i).drop got.length).take (n + 1)
    if block = [] then (S.unpickle got, fs) else (.reading i (got ++ block), fs)
  | .unlinking => (.building, { fs with entry := none })
  | .building =>
    match S.build with
    | (.error err, _) => (.finished (.error err), fs)
    | (.ok (r, progress), s) =>
      let (i, fs) := fs.create
      match r.dump S.P (some S.o.path) s.pos with
      | .error err =>
        if err = .attributeError ∨ err = .typeError ∨ err = .osError then
          (.finished (.ok ⟨r, some S.o.path, progress ++ [1]⟩), fs)
        else (.finished (.error err), fs)
      | .ok (p, r) => (.writing i 0 (S.dumps p) ⟨r, some S.o.path, progress ++ [1]⟩, fs)
  | .writing i pos bytes result =>
    let block := (bytes.drop pos).take (n + 1)
    if block = [] then (.finished (.ok result), fs)
    else (.writing i (pos + block.length) bytes result, fs.write i pos block)
  | .finished result => (.finished result, fs)
  | .killed => (.killed, fs)

end SharedCall

/-- The cache file and the processes. -/
structure CacheSystem where
  files : CacheFiles
  processes : List CachePhase

/-- What a schedule consists of: the next operation of a process, with the number of bytes it reads or writes, or the end
of a process that has not finished. -/
inductive CacheEvent where
  | step (p n : Nat)
  | kill (p : Nat)
  deriving DecidableEq

namespace CacheSystem

/-- No cache file, and processes that are about to call `create_reader`. -/
def initial (processes : Nat) : CacheSystem := ⟨⟨none, []⟩, List.replicate processes .start⟩

/-- One event. -/
def step {Key : Type} (S : SharedCall Key) (c : CacheSystem) : CacheEvent → CacheSystem
  | .step p n =>
    match c.processes[p]? with
    | none => c
    | some ph =>
      let (ph, fs) := S.step n c.files ph
      ⟨fs, c.processes.set p ph⟩
  | .kill p =>
    match c.processes[p]? with
    | none => c
    | some (.finished _) => c
    | some _ => { c with processes := c.processes.set p .killed }

/-- A schedule. -/
def run {Key : Type} (S : SharedCall Key) (c : CacheSystem) (es : List CacheEvent) : CacheSystem :=
  es.foldl (step S) c

end CacheSystem

end Segpy
