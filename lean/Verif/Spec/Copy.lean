import Verif.Spec.Writer

/-! # Specification: two readers that say the same

From the model only the methods of the reader are used. -/

namespace Segpy.Spec

/-- Everything a user can ask the reader `r` of the file `s` about its contents is answered in the same way by the
reader `r'` of the file `s'`. -/
structure SameContents (T B : Format) (native : Endian) (r : Reader) (s : FileH) (r' : Reader) (s' : FileH) : Prop where
  textual : r'.textual_reel_header = r.textual_reel_header
  binary_format : r'.binary_reel_header.format = B ∧ r.binary_reel_header.format = B
  binary : ∀ f ∈ B.fields, r'.binary_reel_header.get f.name = r.binary_reel_header.get f.name
  extended : r'.extended_textual_headers = r.extended_textual_headers
  sample_format : r'.dataSampleFormat = r.dataSampleFormat
  num_traces : r'.numTraces = r.numTraces
  trace_indexes : r'.traceIndexes = r.traceIndexes
  num_trace_samples : ∀ i : Int, r'.numTraceSamples i = r.numTraceSamples i
  /-- the header of any trace there is has the same fields; there are no others -/
  trace_header : ∀ (i : Int) (pos pos' : Nat),
    (∃ hd hd', (r.traceHeader i none { s with pos := pos }).1 = .ok hd ∧
      (r'.traceHeader i none { s' with pos := pos' }).1 = .ok hd' ∧ hd.format = T ∧ hd'.format = T ∧
      ∀ f ∈ T.fields, hd'.get f.name = hd.get f.name) ∨
    ((r.traceHeader i none { s with pos := pos }).1 = .error .valueError ∧
      (r'.traceHeader i none { s' with pos := pos' }).1 = .error .valueError)
  /-- any range of samples of any trace is the same, or there is no such range in both files -/
  trace_samples : ∀ (i : Int) (start stop : Option Int) (pos pos' : Nat),
    (r'.traceSamples native i start stop { s' with pos := pos' }).1 =
      (r.traceSamples native i start stop { s with pos := pos }).1
  dimensionality : r'.dimensionality = r.dimensionality
  /-- traces are found by the same numbers -/
  trace_index3 : r.dimensionality = .ok 3 → ∀ k, r'.traceIndex3 k = r.traceIndex3 k
  trace_index2 : r.dimensionality = .ok 2 → ∀ k, r'.traceIndex2 k = r.traceIndex2 k

/-- Every trace of the file can be read: its header, and all of its samples. -/
def AllReadable (native : Endian) (r : Reader) (s : FileH) : Prop :=
  ∃ l, r.traceIndexes = .ok l ∧ ∀ i ∈ l, (∃ hd, (r.traceHeader i none s).1 = .ok hd) ∧
    ∃ vs, (r.traceSamples native i none none s).1 = .ok vs

end Segpy.Spec
