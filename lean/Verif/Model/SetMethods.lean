import Verif.Model.SortedFrozenSet
import Verif.Py.Slice

/-!
# Model of the slices and of the named set methods of `segpy/sorted_frozen_set.py`

The operators these methods call are in `Verif.Model.SortedFrozenSet`.
-/

namespace Segpy

variable {α : Type} [LinearOrder α]

/-- What the methods take: any iterable.  `__new__` tells a `SortedFrozenSet` from every other iterable, whose items are
given here in the order in which iteration produces them. -/
inductive PyIterable (α : Type) where
  | set (s : SortedFrozenSet α)
  | other (items : List α)

namespace SortedFrozenSet

/-- `SortedFrozenSet(items)`, sorted_frozen_set.py:9-14, with the test `type(items) == cls`. -/
def construct : PyIterable α → SortedFrozenSet α
  | .set s => s
  | .other items => ofList items

/-- `s[a:b:c]`, sorted_frozen_set.py:29-31. -/
def getSlice (s : SortedFrozenSet α) (sl : PySlice) : Res (SortedFrozenSet α) := do
  let result ← pySliceList s.items sl
  return construct (.other result)

/-- `n * s`, sorted_frozen_set.py:57-58. -/
def rmul (s : SortedFrozenSet α) (n : Int) : SortedFrozenSet α := s.mul n

/-- `s.issubset(iterable)`, sorted_frozen_set.py:60-61. -/
def issubset (s : SortedFrozenSet α) (it : PyIterable α) : Res Bool := s.le (construct it)

/-- `s.issuperset(iterable)`, sorted_frozen_set.py:63-64. -/
def issuperset (s : SortedFrozenSet α) (it : PyIterable α) : Res Bool := s.ge (construct it)

/-- `s.intersection(iterable)`, sorted_frozen_set.py:66-67. -/
def intersection (s : SortedFrozenSet α) (it : PyIterable α) : Res (SortedFrozenSet α) := s.inter (construct it)

/-- `s.union(iterable)`, sorted_frozen_set.py:69-70. -/
def unionWith (s : SortedFrozenSet α) (it : PyIterable α) : SortedFrozenSet α := s.union (construct it)

/-- `s.symmetric_difference(iterable)`, sorted_frozen_set.py:72-73. -/
def symmetricDifference (s : SortedFrozenSet α) (it : PyIterable α) : Res (SortedFrozenSet α) := s.xor (construct it)

/-- `s.difference(iterable)`, sorted_frozen_set.py:75-76. -/
def difference (s : SortedFrozenSet α) (it : PyIterable α) : Res (SortedFrozenSet α) := s.diff (construct it)

/-- `list(reversed(s))`: `collections.abc.Sequence.__reversed__`, which `SortedFrozenSet` inherits
(sorted_frozen_set.py:6): `for i in reversed(range(len(self))): yield self[i]`. -/
def reversedItems (s : SortedFrozenSet α) : Res (List α) :=
  ((List.range s.len).reverse).mapM fun i : Nat => s.get (i : Int)

end SortedFrozenSet

end Segpy
