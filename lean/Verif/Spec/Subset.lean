import Verif.Spec.Copy

/-! # Specification: files that have selected traces of another -/

namespace Segpy.Spec

/-- The reader `r'` of the file `s'` has the reel headers that `r` has, and its traces are those with the numbers `l` of
the file `s`, in that order. -/
structure Selected (T B : Format) (native : Endian) (r : Reader) (s : FileH) (l : List Int) (r' : Reader) (s' : FileH) :
    Prop where
  textual : r'.textual_reel_header = r.textual_reel_header
  binary_format : r'.binary_reel_header.format = B ∧ r.binary_reel_header.format = B
  binary : ∀ f ∈ B.fields, r'.binary_reel_header.get f.name = r.binary_reel_header.get f.name
  extended : r'.extended_textual_headers = r.extended_textual_headers
  num_traces : r'.numTraces = .ok l.length
  num_trace_samples : ∀ j (h : j < l.length), r'.numTraceSamples j = r.numTraceSamples l[j]
  trace_header : ∀ j (h : j < l.length) (pos pos' : Nat),
    ∃ hd hd', (r.traceHeader l[j] none { s with pos := pos }).1 = .ok hd ∧
      (r'.traceHeader j none { s' with pos := pos' }).1 = .ok hd' ∧ hd.format = T ∧ hd'.format = T ∧
      ∀ f ∈ T.fields, hd'.get f.name = hd.get f.name
  trace_samples : ∀ j (h : j < l.length) (pos pos' : Nat),
    (r'.traceSamples native j none none { s' with pos := pos' }).1 =
      (r.traceSamples native l[j] none none { s with pos := pos }).1

end Segpy.Spec
