import Verif.Py.Slice

/-!
# What a slice selects

Written from the Python language reference, without reference to the code that computes indices.
-/

namespace Segpy

/-- The position a bound of a slice speaks of in a sequence of `n` items: negative numbers count from the end. -/
def fromEnd (n : Nat) (x : Int) : Int := if x < 0 then x + n else x

/-- `[a:b:c]` selects position `p` of a sequence of `n` items.  Going up, the first position considered is `a` (or 0
when `a` is absent or before the beginning); positions stop before `b`.  Going down, the first position considered is
`a` (or the last one, when `a` is absent or past the end); positions stop before, that is above, `b`.  From the first
position, every `c`-th one is taken. -/
def Selects (n : Nat) (s : PySlice) (p : Nat) : Prop :=
  p < n ∧
  let c := s.step.getD 1
  if 0 < c then
    let first := max 0 ((s.start.map (fromEnd n)).getD 0)
    first ≤ p ∧ (∀ b ∈ s.stop, (p : Int) < fromEnd n b) ∧ c ∣ p - first
  else
    let first := min (n - 1 : Int) ((s.start.map (fromEnd n)).getD (n - 1))
    p ≤ first ∧ (∀ b ∈ s.stop, fromEnd n b < (p : Int)) ∧ c ∣ first - p

end Segpy
