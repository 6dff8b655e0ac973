import Verif.Spec.Writer
import Verif.Model.Update

/-! # Specification: changes of traces that keep their length -/

namespace Segpy.Spec

/-- A change of one of `n` traces that keeps its number of samples: a valid header of the format which gives that
number, or that many samples, each of which can be stored.  `num` gives the number of samples of each trace. -/
def Allowed (T : Format) (t : SegYType) (num : Int → Res Int) (n : Nat) : Update → Prop
  | .header i h => i < n ∧ h.format = T ∧ h.Valid ∧ h.get "num_samples" = num i
  | .samples i vs => i < n ∧ num i = .ok (vs.length : Int) ∧ ∀ v ∈ vs, Fits t v

/-- The header that trace `i` was given last, if any. -/
def lastHeader : List Update → Nat → Option Header
  | [], _ => none
  | .header j h :: us, i => (lastHeader us i).or (if j = i then some h else none)
  | .samples _ _ :: us, i => lastHeader us i

/-- The samples that trace `i` was given last, if any. -/
def lastSamples : List Update → Nat → Option (List PyNum)
  | [], _ => none
  | .samples j vs :: us, i => (lastSamples us i).or (if j = i then some vs else none)
  | .header _ _ :: us, i => lastSamples us i

/-- What the reader `q` finds in the file `s1` wherever that is positioned is what `r` finds in `s`: the number of
traces, the number of samples of each, their headers with any packer, and all ranges of their samples. -/
structure SameTraces (r : Reader) (s : FileH) (q : Reader) (s1 : FileH) : Prop where
  num : q.numTraces = r.numTraces
  format : q.dataSampleFormat = r.dataSampleFormat
  length : ∀ i n : Nat, r.numTraces = .ok n → i < n → q.numTraceSamples i = r.numTraceSamples i
  header : ∀ (i n k : Nat) packer, r.numTraces = .ok n → i < n →
    (q.traceHeader i packer { s1 with pos := k }).1 = (r.traceHeader i packer s).1
  samples : ∀ (i n k : Nat) native start stop, r.numTraces = .ok n → i < n →
    (q.traceSamples native i start stop { s1 with pos := k }).1 = (r.traceSamples native i start stop s).1

end Segpy.Spec
