import Verif.Spec.IbmArith
import Verif.Model.IbmPow

/-! # Specification: powers -/

namespace Segpy.Spec

/-- `r` is next to `v` among the numbers of a set: `v` itself if it belongs to the set, and otherwise such that no member
of the set lies between them. -/
def NextTo (member : ℚ → Prop) (v r : ℚ) : Prop :=
  ∀ w, member w → (w ≤ v → w ≤ r) ∧ (v ≤ w → r ≤ w)

/-- What is assumed of the C library where a claim says so: `pow` with an integral exponent is off by less than one unit
in the last place, and overflows only beyond `2^1023`.  (glibc documents this bound.) -/
def AccuratePow (L : Libm) : Prop :=
  ∀ (a : ℚ) (n : Int), 0 < a → a ≠ 1 → n ≠ 0 →
    (∃ g, L.cpow a n = .ok (.fin g) ∧ NextTo IsDouble (a ^ n) g) ∨
    ((2 : ℚ) ^ (1023 : Int) ≤ a ^ n ∧ L.cpow a n = .error .overflowError)

end Segpy.Spec
