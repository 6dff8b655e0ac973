import Verif.Spec.Numpy
import Verif.Spec.Cli

/-! # What the example scripts compute -/

namespace Segpy.Spec

/-- `x` is what belongs into a time slice at the place of a pair of line numbers: the sample of the trace with these line
numbers, and the null value if there is no such trace or it is too short. -/
def SliceCell (data : Bytes) (t : SegYType) (starts : List Nat) (null : Scalar) (sample : Nat) (lines : Int × Int)
    (x : Scalar) : Prop :=
  (∀ p ∈ starts, linesAt fmtTraceHeaderRev1 .big data p = lines →
    ((sample : Int) < fieldAt fmtTraceHeaderRev1 .big data p "num_samples" →
      ElementOf .big t (storedSample t data p sample) x) ∧
    (fieldAt fmtTraceHeaderRev1 .big data p "num_samples" ≤ sample → x = null)) ∧
  ((∀ p ∈ starts, linesAt fmtTraceHeaderRev1 .big data p ≠ lines) → x = null)

/-- The header fields of the trace that begins at `p` have values their types admit. -/
def HeaderValid (data : Bytes) (p : Nat) : Prop :=
  ∀ f ∈ fmtTraceHeaderRev1.fields, f.value_type.Admits (fieldAt fmtTraceHeaderRev1 .big data p f.name)

end Segpy.Spec
