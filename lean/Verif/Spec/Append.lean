import Verif.Spec.Writer

/-! # Specification: traces that are added at the end of a file -/

namespace Segpy.Spec

/-- A trace that can be added: a valid header of the format which gives the number of samples, each of which can be
stored. -/
structure Appendable (T : Format) (t : SegYType) (x : Header × List PyNum) : Prop where
  format : x.1.format = T
  valid : x.1.Valid
  num_samples : x.1.get "num_samples" = .ok (x.2.length : Int)
  fits : ∀ v ∈ x.2, Fits t v

/-- The number of bytes of the first `j` new traces. -/
def bytesBefore (t : SegYType) (new : List (Header × List PyNum)) (j : Nat) : Nat :=
  traceStart 0 t (new.map Prod.snd) j

/-- The file `s1` consists of `s`, in which the reader `r` found `n` traces, and the first `k` bytes of the new traces.
The reader `r2` finds all that `r` did, then the new traces whose headers are complete, and of these the samples of those
which are complete. -/
structure Appended (T : Format) (t : SegYType) (r : Reader) (s : FileH) (n : Nat) (new : List (Header × List PyNum)) (k : Nat)
    (s1 : FileH) (r2 : Reader) : Prop where
  encoding : r2.encoding = r.encoding
  textual : r2.textual_reel_header = r.textual_reel_header
  binary : r2.binary_reel_header = r.binary_reel_header
  extended : r2.extended_textual_headers = r.extended_textual_headers
  revision : r2.revision = r.revision
  format : r2.dataSampleFormat = r.dataSampleFormat
  num_traces : r2.numTraces =
    .ok (n + ((List.range new.length).filter fun j => bytesBefore t new j + 240 ≤ k).length : Nat)
  old_length : ∀ i : Nat, i < n → r2.numTraceSamples i = r.numTraceSamples i
  old_header : ∀ (i pos : Nat) packer, i < n →
    (r2.traceHeader i packer { s1 with pos := pos }).1 = (r.traceHeader i packer s).1
  old_samples : ∀ (i pos : Nat) native start stop, i < n →
    (r2.traceSamples native i start stop { s1 with pos := pos }).1 = (r.traceSamples native i start stop s).1
  new_length : ∀ j (h : j < new.length), bytesBefore t new j + 240 ≤ k →
    r2.numTraceSamples (n + j : Nat) = .ok new[j].2.length
  new_header : ∀ j (h : j < new.length) (pos : Nat), bytesBefore t new j + 240 ≤ k →
    ∃ hd, (r2.traceHeader (n + j : Nat) none { s1 with pos := pos }).1 = .ok hd ∧ hd.format = T ∧
      ∀ f ∈ T.fields, hd.get f.name = new[j].1.get f.name
  new_samples : ∀ (native : Endian) j (h : j < new.length) (pos : Nat), bytesBefore t new (j + 1) ≤ k →
    ∃ ws, (r2.traceSamples native (n + j : Nat) none none { s1 with pos := pos }).1 = .ok ws ∧
      List.Forall₂ (StoredAs t) new[j].2 ws
  cut : ∀ (native : Endian) (j pos : Nat), j < new.length → bytesBefore t new j + 240 ≤ k →
    k < bytesBefore t new (j + 1) →
    (r2.traceSamples native (n + j : Nat) none none { s1 with pos := pos }).1 = .error .eofError

end Segpy.Spec
