import Verif.Spec.Reader
import Verif.Spec.Text
import Verif.Model.Writer

/-! # Specification: datasets that can be written, and what is read back

From the model only the dataset, the methods of the reader and `makeHeaderPacker` are used. -/

namespace Segpy.Spec

/-- The number can be stored as a sample of the given format. -/
def Fits : SegYType → PyNum → Prop
  | .int t, v => ∃ n, v = .int n ∧ intLo t ≤ n ∧ n ≤ intHi t
  | .float32, v => ∃ f, v = .float f ∧ Fits32 f
  | .ibm, v => FitsIbm v

/-- A header format of `n` bytes in which every valid header can be stored: it is accepted by the packer, the fields lie
within it, declared in the order of their offsets or with redefinitions, no two different fields overlap, and every
admissible value fits in the bytes of its field. -/
structure Regular (F : Format) (e : Endian) (n : Nat) : Prop where
  packs : ∃ p, makeHeaderPacker F e = .ok p
  afterStart : F.AfterStart
  orderSafe : F.OrderSafe
  disjoint : ∀ f ∈ F.fields, ∀ g ∈ F.fields, f = g ∨ f.Disjoint g
  storable : F.Storable
  length : F.lengthInBytes = some (n : Int)

/-- A dataset, with samples of format `t`, trace headers `hs` and samples `vss`, that can be written with the given
encoding, trace header format and byte order, and describes itself correctly. -/
structure Consistent (d : Dataset) (enc : Encoding) (T : Format) (e : Endian) (t : SegYType) (hs : List Header)
    (vss : List (List PyNum)) : Prop where
  /-- the encoding is one of the two supported ones -/
  encoding : enc ≠ .other
  /-- the lines of the textual header can be encoded -/
  textual : ∀ i < 40, Encodable enc (d.textual_reel_header.getD i [])
  /-- the binary header is valid and has the usual length, a known sample format and revision -/
  binary_format : Regular d.binary_reel_header.format e 400
  binary_valid : d.binary_reel_header.Valid
  sample_format : d.dataSampleFormat = .ok t
  revision : ∃ v, d.binary_reel_header.get "format_revision_num" = .ok v ∧ (v = 0 ∨ v = 1 ∨ v = 100 ∨ v = 256)
  /-- the extended headers are pages of forty lines of eighty encodable characters -/
  pages : ∀ p ∈ d.extended_textual_header, IsPage enc p
  /-- no page but the last has the stop stanza -/
  no_early_stop : ∀ p ∈ d.extended_textual_header.dropLast, ¬ Stops p
  /-- the binary header has the number of pages, or is negative and the last page has the stop stanza -/
  num_pages : ∃ n, d.binary_reel_header.get "num_extended_textual_headers" = .ok n ∧
    (n = d.extended_textual_header.length ∨
      (n < 0 ∧ ∃ p, d.extended_textual_header.getLast? = some p ∧ Stops p))
  /-- there is at least one trace, and the traces are numbered from zero -/
  some_trace : hs ≠ []
  num_traces : d.num_traces = hs.length
  indexes : d.trace_indexes = (List.range hs.length).map fun i : Nat => (i : Int)
  trace_format : Regular T e 240
  cataloguable : Cataloguable T e
  /-- the trace headers are valid and have the number of samples -/
  trace_header : ∀ i (h : i < hs.length), d.trace_header i = .ok hs[i]
  header_format : ∀ h ∈ hs, h.format = T
  header_valid : ∀ h ∈ hs, h.Valid
  same_length : vss.length = hs.length
  num_samples : ∀ i (h : i < hs.length) (h' : i < vss.length), hs[i].get "num_samples" = .ok (vss[i].length : Int)
  /-- the samples fit the sample format -/
  trace_samples : ∀ i (h : i < vss.length), d.trace_samples i = .ok vss[i]
  fits : ∀ vs ∈ vss, ∀ v ∈ vs, Fits t v

/-- Where trace `i` begins if the first one begins at `first`. -/
def traceStart (first : Nat) (t : SegYType) (vss : List (List PyNum)) (i : Nat) : Nat :=
  first + ((vss.take i).map fun vs => 240 + vs.length * t.size).sum

/-- Where the first trace of a dataset begins. -/
def firstTrace (d : Dataset) : Nat := 3600 + 3200 * d.extended_textual_header.length

/-- The reader gives a dataset back as far as it is stored in the first `k` bytes of its file: all its reel headers, the
traces whose headers are complete, and of these the samples of those which are complete.  A sample is read back as
what its format can represent of it. -/
structure ReadsBack (d : Dataset) (T : Format) (t : SegYType) (hs : List Header) (vss : List (List PyNum)) (k : Nat)
    (s : FileH) (r : Reader) : Prop where
  textual : r.textual_reel_header = fortyCards d.textual_reel_header
  binary_format : r.binary_reel_header.format = d.binary_reel_header.format
  binary : ∀ f ∈ d.binary_reel_header.format.fields,
    r.binary_reel_header.get f.name = d.binary_reel_header.get f.name
  extended : r.extended_textual_headers = d.extended_textual_header
  num_traces : r.numTraces =
    .ok ((List.range hs.length).filter fun i => traceStart (firstTrace d) t vss i + 240 ≤ k).length
  num_trace_samples : ∀ i (_ : i < hs.length) (h' : i < vss.length), traceStart (firstTrace d) t vss i + 240 ≤ k →
    r.numTraceSamples i = .ok vss[i].length
  trace_header : ∀ i (h : i < hs.length) (pos : Nat), traceStart (firstTrace d) t vss i + 240 ≤ k →
    ∃ hd, (r.traceHeader i none { s with pos := pos }).1 = .ok hd ∧ hd.format = T ∧
      ∀ f ∈ T.fields, hd.get f.name = hs[i].get f.name
  trace_samples : ∀ (native : Endian) i (h : i < vss.length) (pos : Nat), i < hs.length →
    traceStart (firstTrace d) t vss (i + 1) ≤ k →
    ∃ ws, (r.traceSamples native i none none { s with pos := pos }).1 = .ok ws ∧ List.Forall₂ (StoredAs t) vss[i] ws
  cut : ∀ (native : Endian) i (pos : Nat), i < hs.length →
    traceStart (firstTrace d) t vss i + 240 ≤ k → k < traceStart (firstTrace d) t vss (i + 1) →
    (r.traceSamples native i none none { s with pos := pos }).1 = .error .eofError

end Segpy.Spec
