import Verif.Model.SortedFrozenSet
import Mathlib.Data.Nat.Bits
import Mathlib.Algebra.Order.Group.Unbundled.Int

/-!
# Model of `segpy/util.py`: sequence, interval and number helpers
-/

namespace Segpy

/-- `pairwise(iterable)` consumed at least once, util.py:25-28.  `next(b)` on an empty iterable raises
`StopIteration` inside the generator, which Python ≥ 3.7 turns into `RuntimeError` (PEP 479). -/
def pairwise {α : Type} (l : List α) : Res (List (α × α)) :=
  match l with
  | [] => .error .runtimeError
  | a :: t => .ok (List.zip (a :: t) t)

/-- The generator `_batched`, util.py:53-65, as the list of batches it yields; `pending` is the list under
construction. -/
def batchedLoop {α : Type} (batch_size : Nat) (padding : Option α) : List α → List α → List (List α)
  | pending, [] =>
    let num_left_over := pending.length
    if num_left_over > 0 then
      match padding with
      | some p => [pending ++ List.replicate (batch_size - num_left_over) p]
      | none => [pending]
    else []
  | pending, item :: items =>
    let pending := pending ++ [item]
    if pending.length = batch_size then pending :: batchedLoop batch_size padding [] items
    else batchedLoop batch_size padding pending items

/-- `batched(iterable, batch_size, padding)`, util.py:31-50; `padding = none` is `UNSET`. -/
def batched {α : Type} (items : List α) (batch_size : Int) (padding : Option α) : Res (List (List α)) :=
  if batch_size < 1 then .error .valueError
  else .ok (batchedLoop batch_size.toNat padding [] items)

/-- An interval: a `slice` or a step-1 `range`, of which only `start` and `stop` are used. -/
structure Interval where
  start : Int
  stop : Int
  deriving DecidableEq, Repr

/-- The loop of `_complementary_intervals`, util.py:109-113. -/
def complementaryLoop (stop : Int) : Int → List Interval → List Interval
  | index, [] => [⟨index, stop⟩]
  | index, s :: rest => ⟨index, s.start⟩ :: complementaryLoop stop s.stop rest

/-- `complementary_intervals(intervals, start, stop)`, util.py:74-113. -/
def complementaryIntervals (intervals : List Interval) (start stop : Option Int) : Res (List Interval) :=
  match intervals with
  | [] => .error .valueError
  | i0 :: rest =>
    let start := start.getD i0.start
    let stop := stop.getD ((i0 :: rest).getLast (by simp)).stop
    .ok (complementaryLoop stop start (i0 :: rest))

/-- `intervals_are_contiguous`, util.py:116-131. -/
def intervalsAreContiguous (intervals : List Interval) : Res Bool := do
  let ps ← pairwise intervals
  return ps.all fun p => decide (p.1.stop = p.2.start)

/-- `intervals_partially_overlap` on slices, util.py:134-155. -/
def intervalsPartiallyOverlap (a b : Interval) : Bool :=
  if a = b then false
  else if a.start ≤ b.start then decide (b.start < a.stop)
  else decide (a.start < b.stop)

/-- `contains_duplicates`, util.py:175-188. -/
def containsDuplicates {α : Type} [DecidableEq α] (l : List α) : Res Bool := do
  let ps ← pairwise l
  return ps.any fun p => decide (p.1 = p.2)

/-- The loop of `measure_stride`, util.py:205-212. -/
def measureStrideLoop : Option Int → List (Int × Int) → Option Int
  | stride, [] => stride
  | none, (a, b) :: ps => measureStrideLoop (some (b - a)) ps
  | some s, (a, b) :: ps => if s ≠ b - a then none else measureStrideLoop (some s) ps

/-- `measure_stride` of an iterable that is not a `range`, util.py:191-212. -/
def measureStrideList (l : List Int) : Res (Option Int) := do
  let ps ← pairwise l
  return measureStrideLoop none ps

/-- `minmax`, util.py:215-237. -/
def minmax {α : Type} [LinearOrder α] : List α → Res (α × α)
  | [] => .error .valueError
  | a :: l => .ok (l.foldl (fun m x => (min m.1 x, max m.2 x)) (a, a))

/-- `round_up`, util.py:278-282. -/
def roundUp (integer multiple : Int) : Res Int :=
  if multiple ≤ 0 then .error .valueError
  else .ok (if integer.fmod multiple = 0 then integer else integer + multiple - integer.fmod multiple)

/-- `single_item_range`, util.py:348-351. -/
def singleItemRange (item : Int) : PyRange := PyRange.make1 item (item + 1)

/-- `SortSense`, util.py:354-356. -/
inductive SortSense where
  | ascending
  | descending
  deriving DecidableEq

/-- An iterable of integers, as distinguished by the code: a list, a one-shot iterator (generator), a
`range`, a `SortedFrozenSet` or a `ReversedSequenceView` of one. -/
inductive PyIter where
  | list (l : List Int)
  | gen (l : List Int)
  | range (r : PyRange)
  | sfs (s : SortedFrozenSet Int)
  | rev (s : SortedFrozenSet Int)
  deriving DecidableEq

namespace PyIter

/-- The items of one full iteration. -/
def toList : PyIter → List Int
  | list l => l
  | gen l => l
  | range r => r.toList
  | sfs s => s.items
  | rev s => s.items.reverse

/-- What a second full iteration yields: nothing for a one-shot iterator. -/
def again : PyIter → PyIter
  | gen _ => gen []
  | it => it

/-- Is the object a `range`? -/
def isRange : PyIter → Bool
  | range _ => true
  | _ => false

/-- `len(it)` for the sequence types. -/
def len : PyIter → Nat
  | range r => r.len
  | it => it.toList.length

/-- `it[i]` for the sequence types. -/
def get : PyIter → Int → Res Int
  | range r, i => r.get i
  | sfs s, i => s.get i
  | rev s, i => (PySeq.rev (.list s.items)).get i
  | it, i => pyGet it.toList i

/-- `x in it` for the sequence types. -/
def contains : PyIter → Int → Res Bool
  | range r, x => .ok (r.contains x)
  | sfs s, x => s.contains x
  | rev s, x => s.contains x
  | it, x => .ok (decide (x ∈ it.toList))

/-- `it.index(x)` for the sequence types (as a position). -/
def index : PyIter → Int → Res Int
  | range r, x => do return (((← r.index x) : Nat) : Int)
  | sfs s, x => do return (((← s.index x) : Nat) : Int)
  | rev s, x => (PySeq.rev (.list s.items)).index x
  | it, x => indexLoop x 0 it.toList

/-- `SortedFrozenSet(it)`, sorted_frozen_set.py:9-14: an existing object is returned as it is. -/
def toSfs : PyIter → SortedFrozenSet Int
  | sfs s => s
  | it => SortedFrozenSet.ofList it.toList

end PyIter

/-- `measure_stride`, util.py:191-212. -/
def measureStride : PyIter → Res (Option Int)
  | .range r => .ok (some r.step)
  | it => measureStrideList it.toList

/-- The relation `op` selected at util.py:329-344. -/
def sortOp (reverse distinct : Bool) (a b : Int) : Bool :=
  match reverse, distinct with
  | true, true => decide (a > b)
  | true, false => decide (a ≥ b)
  | false, true => decide (a < b)
  | false, false => decide (a ≤ b)

/-- `is_sorted`, util.py:326-345. -/
def isSorted (it : PyIter) (key : Int → Int) (reverse distinct : Bool) : Res Bool :=
  let general : Res Bool := do
    let ps ← pairwise (it.toList.map key)
    return ps.all fun p => sortOp reverse distinct p.1 p.2
  match reverse, distinct, it with
  | true, true, .range r => if r.step < 0 then .ok true else general
  | false, true, .range r => if r.step > 0 then .ok true else general
  | false, true, .sfs _ => .ok true
  | _, _, _ => general

/-- `reversed_range`, util.py:409-423.  The step of the result is the negated step, so `range` never
rejects it. -/
def reversedRange (r : PyRange) : PyRange :=
  let q := (r.stop - r.start).fdiv r.step
  let remainder := (r.stop - r.start).fmod r.step
  let num_steps := q - (if remainder = 0 then 1 else 0)
  let s_start := r.start + num_steps * r.step
  let s_step := -r.step
  let s_stop := s_start + num_steps * s_step + (s_step + remainder)
  ⟨s_start, s_stop, s_step, by
    have := r.step_ne
    show -r.step ≠ 0
    omega⟩

/-- `compress_sorted_sequence_to_range`, util.py:426-446. -/
def compressSortedSequenceToRange (seq : PyIter) : Res PyIter :=
  if seq.len = 1 then do
    let x ← seq.get 0
    return .range (singleItemRange x)
  else do
    match ← measureStride seq with
    | some stride =>
      let start ← seq.get 0
      let last ← seq.get (-1)
      let r ← PyRange.make start (last + stride) stride
      return .range r
    | none => return seq

/-- `make_sorted_distinct_sequence`, util.py:359-406; `sense = none` is Python's `None`. -/
def makeSortedDistinctSequence (it : PyIter) (sense : Option SortSense) : Res PyIter :=
  match it with
  | .range r =>
    match sense with
    | none => .ok it
    | some .ascending => .ok (.range (if r.step > 0 then r else reversedRange r))
    | some .descending => .ok (.range (if r.step < 0 then r else reversedRange r))
  | _ =>
    match sense with
    | some .ascending => compressSortedSequenceToRange (.sfs it.toSfs)
    | some .descending => compressSortedSequenceToRange (.rev it.toSfs)
    | none => do
      let items := it.toList
      let it := it.again
      if ← isSorted (.list items) id true true then
        compressSortedSequenceToRange (.rev it.toSfs)
      else compressSortedSequenceToRange (.sfs it.toSfs)

/-- `cmp(x, y)`, util.py:535-545. -/
def pyCmp (x y : Int) : Int := (if x > y then 1 else 0) - (if x < y then 1 else 0)

/-- `sgn(x)`, util.py:548-557. -/
def pySgn (x : Int) : Int := pyCmp x 0

/-- `itertools.groupby` without a key: the runs of equal items. -/
def groupRuns {α : Type} [DecidableEq α] : List α → List (List α)
  | [] => []
  | a :: l =>
    match groupRuns l with
    | (b :: g) :: gs => if a = b then (a :: b :: g) :: gs else [a] :: (b :: g) :: gs
    | gs => [a] :: gs

/-- `all_equal`, util.py:560-563: no second group (the first group, a tuple, is always truthy). -/
def allEqual {α : Type} [DecidableEq α] (l : List α) : Bool :=
  match groupRuns l with
  | [] => true
  | [_] => true
  | _ :: _ :: _ => false

/-- `first(iterable)`, util.py:481-486. -/
def pyFirst {α : Type} : List α → Res α
  | [] => .error .valueError
  | a :: _ => .ok a

/-- `last(iterable)` of a list, util.py:489-501: `iterable[len(iterable) - 1]`, falling back to iteration
when that raises `IndexError` (only for an empty list, whose index is `-1`). -/
def pyLast {α : Type} (l : List α) : Res α :=
  match pyGet l ((l.length : Int) - 1) with
  | .ok x => .ok x
  | .error _ =>
    match l with
    | [] => .error .valueError
    | a :: t => .ok ((a :: t).getLast (by simp))

/-- The body of `roundrobin`, util.py:158-172, on the list of remaining iterators: take the head of the
first, rotate; an exhausted iterator is dropped. -/
def roundrobinLoop {α : Type} : Nat → List (List α) → List α
  | 0, _ => []
  | _, [] => []
  | fuel + 1, [] :: rest => roundrobinLoop fuel rest
  | fuel + 1, (a :: l) :: rest => a :: roundrobinLoop fuel (rest ++ [l])

/-- `roundrobin(*iterables)`, util.py:158-172; the fuel (one unit per item and per iterator) never runs
out. -/
def roundrobin {α : Type} (ls : List (List α)) : List α :=
  roundrobinLoop ((ls.map List.length).sum + ls.length) ls

end Segpy
