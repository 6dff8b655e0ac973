import Verif.Spec.Scan
import Verif.Spec.Samples
import Verif.Model.Reader

/-! # Specification: what a reader says about a file

From the model only the methods of the reader are used. -/

namespace Segpy.Spec

/-- `v` is the number that the bytes of a sample stand for: an integer in two's complement or unsigned, a binary32
number, or an IBM float. -/
def StandsFor (e : Endian) (t : SegYType) (item : Bytes) (v : PyNum) : Prop :=
  match t with
  | .int t => v = .int (storedInt e t item)
  | .float32 => ∃ f, v = .float f ∧
      if bytesNat e item / 2 ^ 23 % 2 ^ 8 = 255 then
        f = if bytesNat e item % 2 ^ 23 = 0 then .inf (decide (2 ^ 31 ≤ bytesNat e item)) else .nan
      else f.isFinite = true ∧ f.val = float32Value (bytesNat e item) ∧
        f.signbit = decide (2 ^ 31 ≤ bytesNat e item)
  | .ibm => ∃ a b c d, item = [a, b, c, d] ∧ v = .ibm ⟨a, b, c, d⟩

/-- `vs` are the numbers stored from a position on, one after the other. -/
def SamplesStored (e : Endian) (t : SegYType) (data : Bytes) (pos : Nat) (vs : List PyNum) : Prop :=
  ∀ k (h : k < vs.length), StandsFor e t ((data.drop (pos + k * t.size)).take t.size) vs[k]

/-- The ensemble numbers of the traces. -/
def ensembles (T : Format) (e : Endian) (data : Bytes) (starts : List Nat) : List Int :=
  starts.map fun p => fieldAt T e data p "ensemble_num"

/-- The pairs of line numbers of the traces. -/
def linePairs (T : Format) (e : Endian) (data : Bytes) (starts : List Nat) : List (Int × Int) :=
  starts.map fun p => (fieldAt T e data p "inline_number", fieldAt T e data p "crossline_number")

/-- The reader describes the traces that begin at `starts`, with samples of type `t`: how many there are, their indexes
and their numbers of samples. -/
structure Describes (T : Format) (e : Endian) (data : Bytes) (t : SegYType) (starts : List Nat) (r : Reader) : Prop where
  num_traces : r.numTraces = .ok starts.length
  trace_indexes : r.traceIndexes = .ok ((List.range starts.length).map fun i : Nat => (i : Int))
  num_trace_samples : ∀ i (h : i < starts.length),
    r.numTraceSamples i = .ok (fieldAt T e data starts[i] "num_samples")
  no_num_trace_samples : ∀ i : Int, i < 0 ∨ starts.length ≤ i → r.numTraceSamples i = .error .keyError
  max_num_trace_samples : ∃ m r', r.maxNumTraceSamples = .ok (m, r') ∧
    (∃ p ∈ starts, fieldAt T e data p "num_samples" = m) ∧ ∀ p ∈ starts, fieldAt T e data p "num_samples" ≤ m
  data_sample_format : r.dataSampleFormat = .ok t

/-- The sequence lists in increasing order exactly the given numbers, each once. -/
def Lists (s : PyIter) (l : List Int) : Prop := s.toList.Pairwise (· < ·) ∧ ∀ a, a ∈ s.toList ↔ a ∈ l

/-- The reader finds traces by pairs of line numbers; trace `i` has pair `pairs[i]`. -/
structure FindsByLines (r : Reader) (pairs : List (Int × Int)) : Prop where
  dimensionality : r.dimensionality = .ok 3
  found : ∀ i (h : i < pairs.length), r.traceIndex3 pairs[i] = .ok i
  not_found : ∀ k, k ∉ pairs → r.traceIndex3 k = .error .keyError
  has : ∀ k, r.hasTraceIndex3 k = .ok (decide (k ∈ pairs))
  lines : ∃ l, r.inlineXlineNumbers = .ok l ∧ l.Nodup ∧ ∀ k, k ∈ l ↔ k ∈ pairs
  inlines : ∃ s r', r.inlineNumbers = .ok (s, r') ∧ Lists s (pairs.map Prod.fst)
  xlines : ∃ s r', r.xlineNumbers = .ok (s, r') ∧ Lists s (pairs.map Prod.snd)

/-- The reader finds traces by ensemble number; trace `i` has number `numbers[i]`. -/
structure FindsByEnsemble (r : Reader) (numbers : List Int) : Prop where
  dimensionality : r.dimensionality = .ok 2
  found : ∀ i (h : i < numbers.length), r.traceIndex2 numbers[i] = .ok i
  not_found : ∀ k, k ∉ numbers → r.traceIndex2 k = .error .keyError
  has : ∀ k, r.hasTraceIndex2 k = .ok (decide (k ∈ numbers))
  num : r.numCdps = .ok numbers.length
  cdps : ∃ s r', r.cdpNumbers = .ok (s, r') ∧ Lists s numbers

end Segpy.Spec
