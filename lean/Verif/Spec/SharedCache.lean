import Verif.Model.SharedCache
import Verif.Spec.Cache

/-!
# Specification: processes that share a cache directory
-/

namespace Segpy.Spec

/-- What can be in a file while several processes write `full` to it, each from its beginning: some of these bytes, and
zeros where nothing has been written yet. -/
def Torn (full x : Bytes) : Prop :=
  x.length ≤ full.length ∧ ∀ (k : Nat) (b : UInt8), x[k]? = some b → full[k]? = some b ∨ b = 0

/-- The call is one that uses a cache file, and `data` is what the data file contains. -/
structure UsesCache {Key : Type} (S : SharedCall Key) (d : List String) : Prop where
  data : S.files S.o.path = some S.data
  directory : locateCacheFile (some S.o.path) S.o.dir = some d
  faults : S.o.faults = {}

/-- `p` is what one process alone leaves in the cache if it finds no cache file. -/
def Leaves {Key : Type} [DecidableEq Key] (S : SharedCall Key) (p : Pickle) : Prop :=
  ∃ c, (S.o.run S.P { files := S.files, cache := fun _ => none }).2.cache c = some (.reader p)

/-- What is assumed of pickling for a reader whose pickle is `p`: it can be loaded again, and an incomplete pickle
cannot. -/
structure Pickles {Key : Type} (S : SharedCall Key) (p : Pickle) : Prop where
  loads : S.loads (S.dumps p) = .reader p
  torn : ∀ x, Torn (S.dumps p) x → x ≠ S.dumps p → S.loads x = .unloadable

/-- The file system that a state of the cache file stands for. -/
def worldOf {Key : Type} [DecidableEq Key] (S : SharedCall Key) (c : List String × Key) (fs : CacheFiles) : World Key where
  files := S.files
  cache := fun c' => if c' = c then fs.entry.map fun i => S.loads (fs.content i) else none

/-- One process alone: operations with the given numbers of bytes. -/
def alone {Key : Type} (S : SharedCall Key) : CachePhase × CacheFiles → List Nat → CachePhase × CacheFiles
  | x, [] => x
  | (ph, fs), n :: ns => alone S (S.step n fs ph) ns

/-- How many of the operations of a schedule are of one process. -/
def turns (q : Nat) (es : List CacheEvent) : Nat :=
  es.countP fun
    | .step p _ => p = q
    | .kill _ => false

end Segpy.Spec
