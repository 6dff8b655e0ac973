import Verif.Model.Cache

/-! # Specification: what the cache should not change

From the model only the calls and events, the methods of readers and `createReader`, which is `create_reader` without a
cache, are used. -/

namespace Segpy.Spec

/-- Two readers that cannot be told apart: their attributes are the same and, reading the same file, so are their answers
to any call after any sequence of calls. -/
structure SameAnswers (r r' : Reader) : Prop where
  endian : r'.endian = r.endian
  encoding : r'.encoding = r.encoding
  textual : r'.textual_reel_header = r.textual_reel_header
  extended : r'.extended_textual_headers = r.extended_textual_headers
  binary_format : r'.binary_reel_header.format = r.binary_reel_header.format
  binary : ∀ n, r'.binary_reel_header.get n = r.binary_reel_header.get n
  revision : r'.revision = r.revision
  bytes_per_sample : r'.bytes_per_sample = r.bytes_per_sample
  calls : ∀ native calls c s, ((r'.calls native calls s).1.call native c (r'.calls native calls s).2).1 =
    ((r.calls native calls s).1.call native c (r.calls native calls s).2).1

/-- What the same call of `create_reader` returns or raises without a cache. -/
def withoutCache {Key : Type} (o : OpenCall) (w : World Key) : Res Reader :=
  match w.files o.path with
  | none => .error .fileNotFoundError
  | some data => (createReader o.encoding o.B o.T o.e o.dimensionality { data := data, pos := 0 }).1.map Prod.fst

/-- A class prints as `<class '...'>`, with no other `<`. -/
def ClassRepr (bs : Bytes) : Prop := ∃ w, bs = 0x3c :: w ∧ (0x3c : UInt8) ∉ w

/-- The calls of `create_reader` among the events, each with the events before it. -/
inductive Earlier {Key : Type} : List (Event Key) → List (Event Key) → OpenCall → Prop where
  | intro (es₁ : List (Event Key)) (o : OpenCall) (es₂ : List (Event Key)) : Earlier (es₁ ++ .openFile o :: es₂) es₁ o

/-- The arguments of a call are such that what is hashed tells them from others: the encoding is a supported one or
`None`, and the classes print in the usual way. -/
structure Plain {Key : Type} (P : Platform Key) (o : OpenCall) : Prop where
  encoding : o.encoding ≠ some .other
  binary : ClassRepr (P.reprClass o.B)
  trace : ClassRepr (P.reprClass o.T)

/-- What a call feeds to the hash function. -/
def Hashed {Key : Type} (P : Platform Key) (o : OpenCall) (w : World Key) (x : Bytes) : Prop :=
  ∃ data s', w.files o.path = some data ∧
    hashFeed [P.reprEncoding o.encoding, P.reprClass o.B, P.reprClass o.T, reprEndian o.e] { data := data, pos := 0 } =
      (.ok x, s')

/-- Two calls agree in the cache directory and in the arguments that are hashed. -/
structure SharesCache (o' o : OpenCall) : Prop where
  directory : locateCacheFile (some o'.path) o'.dir = locateCacheFile (some o.path) o.dir
  encoding : o'.encoding = o.encoding
  binary : o'.B = o.B
  trace : o'.T = o.T
  endian : o'.e = o.e

/-- What keeps the earlier calls of a history from getting in the way of a call: their arguments are plain, the hash
function has no collisions, classes that print the same are the same, and a file that was opened through the same cache
directory and with the same arguments when it had the contents that the file opened now has is gone, or it still has these
contents and it was opened with the dimensionality asked for now. -/
structure Undisturbed {Key : Type} [DecidableEq Key] (P : Platform Key) (files : DataPath → Option Bytes)
    (es : List (Event Key)) (o : OpenCall) : Prop where
  plain : ∀ es₁ o', Earlier es es₁ o' → Plain P o'
  no_collision : ∀ es₁ o' x' x, Earlier es es₁ o' → Hashed P o' (World.after P files es₁) x' →
    Hashed P o (World.after P files es) x → P.sha1 x' = P.sha1 x → x' = x
  classes : ∀ es₁ o', Earlier es es₁ o' → (P.reprClass o'.B = P.reprClass o.B → o'.B = o.B) ∧
    (P.reprClass o'.T = P.reprClass o.T → o'.T = o.T)
  same_file : ∀ es₁ o', Earlier es es₁ o' → SharesCache o' o →
    (World.after P files es₁).files o'.path = (World.after P files es).files o.path →
    (World.after P files es).files o'.path = none ∨
      ((World.after P files es).files o'.path = (World.after P files es).files o.path ∧
        o'.dimensionality = o.dimensionality)

end Segpy.Spec
