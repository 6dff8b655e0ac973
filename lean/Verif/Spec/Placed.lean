import Verif.Py.Basic

/-! # Specification: where the bytes of a file that is written end up -/

namespace Segpy.Spec

/-- Where the bytes `out`, which would be written to an empty file, end up in a file that holds `old` and is at position
`pos`: the first 3600 at that position, but the others where they would be in an empty file.  What is written last wins,
and a gap is filled with zeros. -/
structure Placed (old : Bytes) (pos : Nat) (out new : Bytes) : Prop where
  length : new.length = max old.length (max (pos + 3600) out.length)
  /-- everything after the first 3600 bytes is where it would be in an empty file -/
  traces : ∀ i, 3600 ≤ i → i < out.length → new[i]? = out[i]?
  /-- the first 3600 bytes are at the position of the file, unless they have been overwritten -/
  reel : ∀ i, pos ≤ i → i < pos + 3600 → ¬ (3600 ≤ i ∧ i < out.length) → new[i]? = out[i - pos]?
  /-- the rest is as it was -/
  untouched : ∀ i, i < new.length → ¬ (pos ≤ i ∧ i < pos + 3600) → ¬ (3600 ≤ i ∧ i < out.length) →
    new[i]? = some (old.getD i 0)

end Segpy.Spec
