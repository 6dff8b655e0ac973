import Verif.Py.Range

/-!
# Python slices

`slice` objects and their application to lists and ranges (CPython Objects/sliceobject.c, `compute_slice` in
Objects/rangeobject.c).  This is part of the trusted model of Python, not of segpy.
-/

namespace Segpy

/-- `slice(start, stop, step)`; `none` is Python's `None`. -/
structure PySlice where
  start : Option Int
  stop : Option Int
  step : Option Int
  deriving DecidableEq

/-- One bound of a slice adjusted to a sequence of length `n`: negative numbers count from the end, and the result is
brought between `lower` and `upper`. -/
def PySlice.adjust (n : Nat) (lower upper : Int) (x : Int) : Int :=
  if x < 0 then max (x + n) lower else min x upper

/-- `range(*s.indices(n))`: the indices selected in a sequence of length `n`; a zero step is refused. -/
def PySlice.indices (s : PySlice) (n : Nat) : Res PyRange :=
  let step := s.step.getD 1
  let lower : Int := if step < 0 then -1 else 0
  let upper : Int := if step < 0 then (n : Int) - 1 else n
  let start := match s.start with
    | none => if step < 0 then upper else lower
    | some x => PySlice.adjust n lower upper x
  let stop := match s.stop with
    | none => if step < 0 then lower else upper
    | some x => PySlice.adjust n lower upper x
  PyRange.make start stop step

/-- `l[s]` for a list. -/
def pySliceList {α : Type} (l : List α) (s : PySlice) : Res (List α) := do
  let r ← s.indices l.length
  return r.toList.filterMap fun i => l[i.toNat]?

/-- `r[s]` for a range. -/
def PyRange.slice (r : PyRange) (s : PySlice) : Res PyRange := do
  let i ← s.indices r.len
  PyRange.make (r.start + i.start * r.step) (r.start + i.stop * r.step) (i.step * r.step)

end Segpy
