import Verif.Py.Basic
import Mathlib.Tactic.Linarith
import Mathlib.Tactic.Ring

/-!
# Python `range` objects and list indexing

CPython's `range` (Objects/rangeobject.c) over unbounded integers.  This is part of the trusted model of
Python, not of segpy.
-/

namespace Segpy

/-- `seq[i]` on a list-like sequence: negative indices count from the end. -/
def pyGet {α : Type} (l : List α) (i : Int) : Res α :=
  let j := if i < 0 then i + l.length else i
  if j < 0 then .error .indexError
  else match l[j.toNat]? with
    | some x => .ok x
    | none => .error .indexError

/-- A Python `range` object; the constructor rejects a zero step. -/
structure PyRange where
  start : Int
  stop : Int
  step : Int
  step_ne : step ≠ 0
  deriving DecidableEq

namespace PyRange

/-- `range(start, stop, step)`. -/
def make (start stop step : Int) : Res PyRange :=
  if h : step = 0 then .error .valueError else .ok ⟨start, stop, step, h⟩

/-- `range(start, stop)`. -/
def make1 (start stop : Int) : PyRange := ⟨start, stop, 1, by decide⟩

/-- `len(r)`. -/
def len (r : PyRange) : Nat :=
  if 0 < r.step then (if r.start < r.stop then ((r.stop - r.start - 1) / r.step + 1).toNat else 0)
  else (if r.stop < r.start then ((r.start - r.stop - 1) / (-r.step) + 1).toNat else 0)

/-- The items produced by iterating. -/
def toList (r : PyRange) : List Int := (List.range r.len).map fun i : Nat => r.start + (i : Int) * r.step

/-- `x in r` for an integer `x`. -/
def contains (r : PyRange) (x : Int) : Bool :=
  (if 0 < r.step then decide (r.start ≤ x) && decide (x < r.stop)
   else decide (x ≤ r.start) && decide (r.stop < x)) && decide ((x - r.start).fmod r.step = 0)

/-- `r.index(x)` for an integer `x`. -/
def index (r : PyRange) (x : Int) : Res Nat :=
  if r.contains x then .ok ((x - r.start).fdiv r.step).toNat else .error .valueError

/-- `r[i]`. -/
def get (r : PyRange) (i : Int) : Res Int :=
  let j := if i < 0 then i + r.len else i
  if j < 0 ∨ (r.len : Int) ≤ j then .error .indexError else .ok (r.start + j * r.step)

/-- `r == s`: ranges compare as sequences. -/
def eq (r s : PyRange) : Bool := decide (r.toList = s.toList)

end PyRange

end Segpy
