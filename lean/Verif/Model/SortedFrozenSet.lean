import Verif.Py.Range
import Mathlib.Data.List.Dedup
import Mathlib.Data.List.Sort
import Mathlib.Order.Defs.LinearOrder

/-!
# Model of `segpy/sorted_frozen_set.py` and `segpy/reversed_sequence_view.py`

Items range over any linearly ordered type.  Python's `sorted` is a stable sort, modelled by
stable insertion sort; `set(items)`
followed by `sorted` is modelled by sorting the deduplicated list (the iteration order of a Python set is
irrelevant after sorting distinct items).
-/

namespace Segpy

variable {α : Type} [LinearOrder α]

/-- `sorted(l)`. -/
def pySorted (l : List α) : List α := l.insertionSort (· ≤ ·)

/-- `sorted(l, key=k)` / `l.sort(key=k)`: stable. -/
def pySortedBy {β : Type} (k : β → α) (l : List β) : List β := l.insertionSort (fun a b => k a ≤ k b)

/-- The loop of `bisect.bisect_left` (Lib/bisect.py), on the half-open window `[lo, hi)`. -/
def bisectLoop (a : List α) (x : α) (lo hi : Nat) : Nat :=
  if lo < hi then
    let mid := (lo + hi) / 2
    match a[mid]? with
    | some y => if y < x then bisectLoop a x (mid + 1) hi else bisectLoop a x lo mid
    | none => lo
  else lo
termination_by hi - lo

/-- `bisect_left(a, x)`. -/
def bisectLeft (a : List α) (x : α) : Nat := bisectLoop a x 0 a.length

/-- A `SortedFrozenSet` object: its `_items`. -/
structure SortedFrozenSet (α : Type) where
  items : List α
  deriving DecidableEq

namespace SortedFrozenSet

/-- `SortedFrozenSet(items)`, sorted_frozen_set.py:9-14 (an iterable argument; `SortedFrozenSet()` is
`ofList []`). -/
def ofList (items : List α) : SortedFrozenSet α := ⟨pySorted items.dedup⟩

/-- `len(s)`, sorted_frozen_set.py:23-24. -/
def len (s : SortedFrozenSet α) : Nat := s.items.length

/-- `list(s)`, sorted_frozen_set.py:26-27. -/
def toList (s : SortedFrozenSet α) : List α := s.items

/-- `s[i]` for an integer, sorted_frozen_set.py:29-31. -/
def get (s : SortedFrozenSet α) (i : Int) : Res α := pyGet s.items i

/-- `s.index(x)`, sorted_frozen_set.py:41-46. -/
def index (s : SortedFrozenSet α) (x : α) : Res Nat :=
  let i := bisectLeft s.items x
  if i ≠ s.items.length then
    match s.items[i]? with
    | some y => if y = x then .ok i else .error .valueError
    | none => .error .indexError
  else .error .valueError

/-- `x in s`, sorted_frozen_set.py:16-21. -/
def contains (s : SortedFrozenSet α) (x : α) : Res Bool :=
  match s.index x with
  | .ok _ => .ok true
  | .error .valueError => .ok false
  | .error e => .error e

/-- `s.count(x)`, sorted_frozen_set.py:48-49 (a linear membership test on the list of items). -/
def count (s : SortedFrozenSet α) (x : α) : Nat := if x ∈ s.items then 1 else 0

/-- `s == t`, sorted_frozen_set.py:36-39. -/
def eq (s t : SortedFrozenSet α) : Bool := decide (s.items = t.items)

/-- `s + t`, sorted_frozen_set.py:51-52. -/
def add (s t : SortedFrozenSet α) : SortedFrozenSet α := ofList (s.items ++ t.items)

/-- `s * n`, sorted_frozen_set.py:54-55. -/
def mul (s : SortedFrozenSet α) (n : Int) : SortedFrozenSet α := if 0 < n then s else ofList []

/-- Iterating over `l` keeping the items that test as contained in `s`: used by the `Set` mixin methods
of `collections.abc`. -/
def filterIn (s : SortedFrozenSet α) (l : List α) (keep : Bool) : Res (List α) :=
  match l with
  | [] => .ok []
  | x :: l => do
    let b ← s.contains x
    let rest ← filterIn s l keep
    return if b = keep then x :: rest else rest

/-- `s & t`, `collections.abc.Set.__and__` with `_from_iterable = cls`: `value for value in other if value
in self`; used at sorted_frozen_set.py:66-67. -/
def inter (s t : SortedFrozenSet α) : Res (SortedFrozenSet α) := do
  return ofList (← filterIn s t.items true)

/-- `s | t`, `Set.__or__`; sorted_frozen_set.py:69-70. -/
def union (s t : SortedFrozenSet α) : SortedFrozenSet α := ofList (s.items ++ t.items)

/-- `s - t`, `Set.__sub__`; sorted_frozen_set.py:75-76. -/
def diff (s t : SortedFrozenSet α) : Res (SortedFrozenSet α) := do
  return ofList (← filterIn t s.items false)

/-- `s ^ t`, `Set.__xor__`: `(self - other) | (other - self)`; sorted_frozen_set.py:72-73. -/
def xor (s t : SortedFrozenSet α) : Res (SortedFrozenSet α) := do
  let a ← s.diff t
  let b ← t.diff s
  return union a b

/-- The loop `for elem in l: if elem not in s: return False` / `return True`. -/
def allIn (s : SortedFrozenSet α) : List α → Res Bool
  | [] => .ok true
  | x :: l => do if ← s.contains x then allIn s l else return false

/-- `s <= t`, `Set.__le__`; sorted_frozen_set.py:60-61. -/
def le (s t : SortedFrozenSet α) : Res Bool :=
  if s.len > t.len then .ok false else allIn t s.items

/-- `s < t`, `Set.__lt__`. -/
def lt (s t : SortedFrozenSet α) : Res Bool :=
  if s.len < t.len then s.le t else .ok false

/-- `s >= t`, `Set.__ge__`; sorted_frozen_set.py:63-64. -/
def ge (s t : SortedFrozenSet α) : Res Bool :=
  if s.len < t.len then .ok false else allIn s t.items

/-- `s > t`, `Set.__gt__`. -/
def gt (s t : SortedFrozenSet α) : Res Bool :=
  if s.len > t.len then s.ge t else .ok false

/-- `s.isdisjoint(t)`, `Set.isdisjoint`: no item of `t` is in `s`. -/
def isdisjoint (s t : SortedFrozenSet α) : Res Bool :=
  go t.items
where
  go : List α → Res Bool
    | [] => .ok true
    | x :: l => do if ← s.contains x then return false else go l

end SortedFrozenSet

/-- `list.index`: position of the first item equal to `x`, or `ValueError`; also the loop
`for index, value in enumerate(self)` of reversed_sequence_view.py:32-35. -/
def indexLoop (x : α) : Nat → List α → Res Int
  | _, [] => .error .valueError
  | i, y :: l => if y = x then .ok i else indexLoop x (i + 1) l

/-- A sequence object: a list (or any object behaving like one: `list`, `range`, `SortedFrozenSet`), or a
`ReversedSequenceView` of a sequence, reversed_sequence_view.py:4-7. -/
inductive PySeq (α : Type) where
  | list (l : List α)
  | rev (s : PySeq α)

namespace PySeq

/-- `x in v`, reversed_sequence_view.py:9-10. -/
def contains (x : α) : PySeq α → Bool
  | list l => decide (x ∈ l)
  | rev s => s.contains x

/-- `len(v)`, reversed_sequence_view.py:12-13. -/
def len {α : Type} : PySeq α → Nat
  | list l => l.length
  | rev s => s.len

/-- `list(v)` through `iter(v)`, reversed_sequence_view.py:15-16 and 25-26.  `__iter__` returns
`reversed(self._sequence)`, which is an iterator for a list; but the `__reversed__` of a view returns the
viewed sequence itself, which is not an iterator, so `iter()` raises `TypeError`. -/
def toList {α : Type} : PySeq α → Res (List α)
  | list l => .ok l
  | rev (list l) => .ok l.reverse
  | rev (rev _) => .error .typeError

/-- `_reverse_index`, reversed_sequence_view.py:37-42. -/
def reverseIndex (size : Int) (index : Int) : Res Int :=
  let i := if index < 0 then index + size else index
  if !(decide (0 ≤ i) && decide (i < size)) then .error .indexError
  else .ok (size - i - 1)

/-- `v[i]`, reversed_sequence_view.py:18-20. -/
def get {α : Type} : PySeq α → Int → Res α
  | list l, i => pyGet l i
  | rev s, i => do
    let r ← reverseIndex s.len i
    s.get r

/-- `v.count(x)`, reversed_sequence_view.py:22-23. -/
def count (x : α) : PySeq α → Nat
  | list l => l.count x
  | rev s => s.count x

/-- `v.index(x)`, reversed_sequence_view.py:28-35. -/
def index (x : α) : PySeq α → Res Int
  | list l => indexLoop x 0 l
  | rev s =>
    if s.count x = 1 then do
      let i ← s.index x
      reverseIndex s.len i
    else do
      let items ← (rev s).toList
      indexLoop x 0 items

end PySeq

end Segpy
