import Verif.Spec.Packer
import Verif.Spec.Catalog

/-! # Specification: the traces of a file

A trace is a 240 byte header followed by its samples; the header says how many samples there are. -/

namespace Segpy.Spec

/-- The 240 bytes of a trace header at a position. -/
def headerBytes (data : Bytes) (pos : Nat) : Bytes := (data.drop pos).take 240

/-- The integer stored in a field of the trace header at a position. -/
def fieldAt (T : Format) (e : Endian) (data : Bytes) (pos : Nat) (name : String) : Int :=
  match T.attr name with
  | some f => storedInt e f.value_type.segy (T.fieldBytes f (headerBytes data pos))
  | none => 0

/-- The field types admit what the header at a position holds in the five fields traces are catalogued by. -/
def Indexable (T : Format) (e : Endian) (data : Bytes) (pos : Nat) : Prop :=
  ∀ name ∈ ["file_sequence_num", "ensemble_num", "num_samples", "inline_number", "crossline_number"],
    ∀ f, T.attr name = some f → f.value_type.Admits (fieldAt T e data pos name)

/-- The number of samples of the trace at a position. -/
def samplesAt (T : Format) (e : Endian) (data : Bytes) (pos : Nat) : Nat := (fieldAt T e data pos "num_samples").toNat

/-- From `pos` on the file holds traces, with complete and indexable headers, that begin at `starts`; each begins where
the one before ends, and the last ends at `stop`. -/
inductive TraceChain (T : Format) (e : Endian) (data : Bytes) (bps : Nat) : Nat → List Nat → Nat → Prop
  | nil (pos : Nat) : TraceChain T e data bps pos [] pos
  | cons {pos : Nat} {starts : List Nat} {stop : Nat} (complete : pos + 240 ≤ data.length)
      (indexable : Indexable T e data pos)
      (rest : TraceChain T e data bps (pos + 240 + samplesAt T e data pos * bps) starts stop) :
      TraceChain T e data bps pos (pos :: starts) stop

/-- The traces of the file from `pos` on begin at `starts`: there is no room for another header after them. -/
def Traces (T : Format) (e : Endian) (data : Bytes) (bps : Nat) (pos : Nat) (starts : List Nat) : Prop :=
  ∃ stop, TraceChain T e data bps pos starts stop ∧ data.length < stop + 240

/-- The layout of a trace header format that files can be catalogued by: it is 240 bytes long and accepted by the packer,
and it has the five fields in the order of their offsets. -/
structure CatalogLayout (T : Format) (e : Endian) : Prop where
  packs : ∃ p, makeHeaderPacker T e = .ok p
  afterStart : T.AfterStart
  defaults : T.DefaultsAdmitted
  oneLayout : T.OneLayout
  length : T.lengthInBytes = some 240
  present : ∀ name ∈ ["file_sequence_num", "ensemble_num", "num_samples", "inline_number", "crossline_number"],
    name ∈ T.orderedFieldNames
  ordered : ["file_sequence_num", "ensemble_num", "num_samples", "inline_number", "crossline_number"].Pairwise
    fun a b => ∀ f g, T.attr a = some f → T.attr b = some g → f.offset ≤ g.offset

/-- A trace header format that files can be catalogued by, whose number of samples is never negative. -/
structure Cataloguable (T : Format) (e : Endian) : Prop extends CatalogLayout T e where
  nonnegative : ∀ f, T.attr "num_samples" = some f → ∀ v, f.value_type.Admits v → 0 ≤ v

/-- Entries that map the number 0, 1, 2, … of each trace to something about it. -/
def byNumber (starts : List Nat) (value : Nat → Int) : List (Int × Int) :=
  starts.zipIdx.map fun x => ((x.2 : Int), value x.1)

/-- Entries that map something about each trace to its number. -/
def toNumber {α : Type} (starts : List Nat) (key : Nat → α) : List (α × Int) :=
  starts.zipIdx.map fun x => (key x.1, (x.2 : Int))

/-- The catalogs index the traces that begin at `starts`: the first two map the number of a trace to its position and
number of samples; the other two map its ensemble number, and its pair of line numbers, to its number, and exist only if
no two traces share them. -/
structure Indexes (T : Format) (e : Endian) (data : Bytes) (starts : List Nat) (offset_catalog length_catalog cdp_catalog : Option Catalog1)
    (line_catalog : Option Catalog2) : Prop where
  offset : ∃ c, offset_catalog = some c ∧ Refines1 (byNumber starts fun p => (p : Int)) c
  length : ∃ c, length_catalog = some c ∧ Refines1 (byNumber starts fun p => fieldAt T e data p "num_samples") c
  cdp : (starts.map fun p => fieldAt T e data p "ensemble_num").Nodup →
    ∃ c, cdp_catalog = some c ∧ Refines1 (toNumber starts fun p => fieldAt T e data p "ensemble_num") c
  no_cdp : ¬ (starts.map fun p => fieldAt T e data p "ensemble_num").Nodup → cdp_catalog = none
  line : (starts.map fun p => (fieldAt T e data p "inline_number", fieldAt T e data p "crossline_number")).Nodup →
    ∃ c, line_catalog = some c ∧
      Refines2 (toNumber starts fun p => (fieldAt T e data p "inline_number", fieldAt T e data p "crossline_number")) c
  no_line : ¬ (starts.map fun p => (fieldAt T e data p "inline_number", fieldAt T e data p "crossline_number")).Nodup →
    line_catalog = none

end Segpy.Spec
