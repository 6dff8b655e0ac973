import Verif.Model.Util
import Mathlib.Data.Prod.Lex
import Mathlib.Data.Int.Order.Basic
import Mathlib.Algebra.Order.Ring.Rat

/-!
# Model of `segpy/catalog.py`

Keys are integers (`Catalog1`) or pairs of integers (`Catalog2`); values are integers, as in every use the
package makes of catalogs.  A builder holding both scalar and pair keys raises `TypeError` when sorting and
is not modelled.
-/

namespace Segpy

/-! ## OrderedDict -/

/-- `d[k] = v` on an `OrderedDict`: replaces the value in place, or appends. -/
def odictSet {κ ν : Type} [DecidableEq κ] (d : List (κ × ν)) (k : κ) (v : ν) : List (κ × ν) :=
  match d with
  | [] => [(k, v)]
  | (k', v') :: rest => if k' = k then (k', v) :: rest else (k', v') :: odictSet rest k v

/-- `OrderedDict(items)`. -/
def odictOf {κ ν : Type} [DecidableEq κ] (items : List (κ × ν)) : List (κ × ν) :=
  items.foldl (fun d p => odictSet d p.1 p.2) []

/-- `d[k]`. -/
def odictGet {κ ν : Type} [DecidableEq κ] (d : List (κ × ν)) (k : κ) : Res ν :=
  match d with
  | [] => .error .keyError
  | (k', v) :: rest => if k' = k then .ok v else odictGet rest k

/-- `k in d`. -/
def odictContains {κ ν : Type} [DecidableEq κ] (d : List (κ × ν)) (k : κ) : Bool :=
  d.any fun p => decide (p.1 = k)

/-- `a % b` and `a // b` for integers. -/
def pyMod (a b : Int) : Res Int := if b = 0 then .error .zeroDivisionError else .ok (a.fmod b)

/-- `a // b`. -/
def pyFloorDiv (a b : Int) : Res Int := if b = 0 then .error .zeroDivisionError else .ok (a.fdiv b)

/-! ## One-dimensional catalogs -/

/-- The catalogs with scalar keys: `DictionaryCatalog` (catalog.py:419-440), `RegularConstantCatalog`
(503-560), `ConstantCatalog` (563-598), `RegularCatalog` (601-669), `LinearRegularCatalog` (672-778), each
with its instance attributes. -/
inductive Catalog1 where
  | dictionary (items : List (Int × Int))
  | regularConstant (key_min key_max key_stride value : Int)
  | constant (keys : SortedFrozenSet Int) (value : Int)
  | regular (key_min key_max key_stride : Int) (values : List Int)
  | linear (key_min key_max key_stride value_start value_stop value_stride : Int) (m : ℚ)
  deriving DecidableEq

namespace Catalog1

/-- `DictionaryCatalog.__init__`, catalog.py:423-424. -/
def makeDictionary (items : List (Int × Int)) : Catalog1 := .dictionary (odictOf items)

/-- `RegularConstantCatalog.__init__`, catalog.py:509-535. -/
def makeRegularConstant (key_min key_max key_stride value : Int) : Res Catalog1 :=
  if key_min > key_max then .error .valueError
  else do
    let key_range := key_max - key_min
    if (← pyMod key_range key_stride) ≠ 0 then .error .valueError
    else .ok (.regularConstant key_min key_max key_stride value)

/-- `ConstantCatalog.__init__`, catalog.py:567-578. -/
def makeConstant (keys : List Int) (value : Int) : Catalog1 := .constant (SortedFrozenSet.ofList keys) value

/-- `RegularCatalog.__init__`, catalog.py:607-640. -/
def makeRegular (key_min key_max key_stride : Int) (values : List Int) : Res Catalog1 :=
  if key_min > key_max then .error .valueError
  else do
    let key_range := key_max - key_min
    if (← pyMod key_range key_stride) ≠ 0 then .error .valueError
    else
      let num_keys := 1 + (← pyFloorDiv key_range key_stride)
      if num_keys ≠ values.length then .error .valueError
      else .ok (.regular key_min key_max key_stride values)

/-- `LinearRegularCatalog.__init__`, catalog.py:681-747. -/
def makeLinear (key_min key_max key_stride value_start value_stop value_stride : Int) : Res Catalog1 :=
  if key_min ≥ key_max then .error .valueError
  else if key_stride ≤ 0 then .error .valueError
  else do
    let key_range := key_max - key_min
    if (← pyMod key_range key_stride) ≠ 0 then .error .valueError
    else if value_stride = 0 then .error .valueError
    else
      let value_range := value_stop - value_start
      if (← pyMod value_range value_stride) ≠ 0 then .error .valueError
      else
        let num_keys := 1 + (← pyFloorDiv (key_max - key_min) key_stride)
        let num_values := 1 + (← pyFloorDiv (value_stop - value_start) value_stride)
        if num_keys ≠ num_values then .error .valueError
        else .ok (.linear key_min key_max key_stride value_start value_stop value_stride
          ((value_stop - value_start : Int) / (key_max - key_min : Int) : ℚ))

/-- `(self._key_min <= key <= self._key_max) and ((key - self._key_min) % self._key_stride == 0)`,
catalog.py:546-547, 655-656, 764-765. -/
def inRegular (key_min key_max key_stride key : Int) : Res Bool :=
  if key_min ≤ key ∧ key ≤ key_max then do return decide ((← pyMod (key - key_min) key_stride) = 0)
  else .ok false

/-- `key in catalog`: catalog.py:435-436, 545-547, 588-589, 654-656, 763-765. -/
def contains : Catalog1 → Int → Res Bool
  | dictionary items, key => .ok (odictContains items key)
  | regularConstant key_min key_max key_stride _, key => inRegular key_min key_max key_stride key
  | constant keys _, key => keys.contains key
  | regular key_min key_max key_stride _, key => inRegular key_min key_max key_stride key
  | linear key_min key_max key_stride _ _ _ _, key => inRegular key_min key_max key_stride key

/-- `catalog[key]`: catalog.py:426-427, 537-540, 580-583, 642-649, 749-758. -/
def get (c : Catalog1) (key : Int) : Res Int :=
  match c with
  | dictionary items => odictGet items key
  | regularConstant _ _ _ value => do
    if !(← c.contains key) then .error .keyError else return value
  | constant _ value => do
    if !(← c.contains key) then .error .keyError else return value
  | regular key_min key_max key_stride values =>
    if ¬ (key_min ≤ key ∧ key ≤ key_max) then .error .keyError
    else do
      let offset := key - key_min
      if (← pyMod offset key_stride) ≠ 0 then .error .keyError
      else
        let index ← pyFloorDiv offset key_stride
        pyGet values index
  | linear key_min key_max key_stride value_start _ _ m =>
    if ¬ (key_min ≤ key ∧ key ≤ key_max) then .error .keyError
    else do
      let offset := key - key_min
      if (← pyMod offset key_stride) ≠ 0 then .error .keyError
      else
        let v : ℚ := m * (key - key_min : Int) + value_start
        if v.den ≠ 1 then .error .assertionError else return v.num

/-- `len(catalog)`: catalog.py:432-433, 542-543, 585-586, 651-652, 760-761. -/
def len : Catalog1 → Res Int
  | dictionary items => .ok items.length
  | regularConstant key_min key_max key_stride _ => do return 1 + (← pyFloorDiv (key_max - key_min) key_stride)
  | constant keys _ => .ok keys.len
  | regular _ _ _ values => .ok values.length
  | linear key_min key_max key_stride _ _ _ _ => do
    return 1 + (← pyFloorDiv (key_max - key_min) key_stride)

/-- `list(catalog)`: catalog.py:429-430, 549-552, 591-592, 658-661, 767-768. -/
def keys : Catalog1 → Res (List Int)
  | dictionary items => .ok (items.map Prod.fst)
  | regularConstant key_min key_max key_stride _ => do
    return (← PyRange.make key_min (key_max + 1) key_stride).toList
  | constant keys _ => .ok keys.toList
  | regular key_min key_max key_stride _ => do
    return (← PyRange.make key_min (key_max + 1) key_stride).toList
  | linear key_min key_max key_stride _ _ _ _ => do
    return (← PyRange.make key_min (key_max + 1) key_stride).toList

end Catalog1

/-- `CatalogBuilder._create_catalog_1`, catalog.py:101-145, on the sorted entries.  The chain of `if`s on
whether each stride is `None` is written as nested matches with the same outcomes. -/
def createCatalog1 (catalog : List (Int × Int)) : Res Catalog1 :=
  if catalog.length ≤ 1 then .ok (Catalog1.makeDictionary catalog)
  else do
    let first ← pyGet catalog 0
    let last ← pyGet catalog (-1)
    let index_min := first.1
    let index_max := last.1
    let index_stride ← measureStrideList (catalog.map Prod.fst)
    if index_stride = some 0 then .error .assertionError
    else
      let value_start := first.2
      let value_stop := last.2
      let value_stride ← measureStrideList (catalog.map Prod.snd)
      match index_stride with
      | some is =>
        match value_stride with
        | some vs =>
          if vs = 0 then
            if value_start ≠ value_stop then .error .assertionError
            else Catalog1.makeRegularConstant index_min index_max is value_start
          else Catalog1.makeLinear index_min index_max is value_start value_stop vs
        | none => Catalog1.makeRegular index_min index_max is (catalog.map Prod.snd)
      | none =>
        if value_stride = some 0 then
          if value_start ≠ value_stop then .error .assertionError
          else .ok (Catalog1.makeConstant (catalog.map Prod.fst) value_start)
        else .ok (Catalog1.makeDictionary catalog)

/-- `CatalogBuilder.create` for scalar integer keys, catalog.py:73-99; `none` is Python's `None`.  The
argument is the list of added entries in insertion order (`__init__` and `add`, catalog.py:48-71). -/
def createCatalogInt (entries : List (Int × Int)) : Res (Option Catalog1) := do
  let catalog := pySortedBy Prod.fst entries
  if ← containsDuplicates (catalog.map Prod.fst) then return none
  else return some (← createCatalog1 catalog)

/-! ## Two-dimensional catalogs -/

/-- The catalogs with pair keys: `LastIndexVariesQuickestCatalog2D` (catalog.py:265-339),
`FirstIndexVariesQuickestCatalog2D` (342-416) and `DictionaryCatalog2D` (443-500). -/
inductive Catalog2 where
  | lastQuickest (i_range j_range v_range : PyIter)
  | firstQuickest (i_range j_range v_range : PyIter)
  | dictionary (i_range j_range : PyIter) (items : List ((Int × Int) × Int))
  deriving DecidableEq

namespace Catalog2

/-- `Catalog2D.__init__`, catalog.py:201-216. -/
def checkRanges (i_range j_range : PyIter) : Res Unit := do
  if !(← isSorted i_range id false true) then .error .valueError
  else if !(← isSorted j_range id false true) then .error .valueError
  else return ()

/-- `LastIndexVariesQuickestCatalog2D.__init__`, catalog.py:267-284. -/
def makeLastQuickest (i_range j_range v_range : PyIter) : Res Catalog2 :=
  if i_range.len * j_range.len ≠ v_range.len then .error .valueError
  else do
    checkRanges i_range j_range
    return .lastQuickest i_range j_range v_range

/-- `FirstIndexVariesQuickestCatalog2D.__init__`, catalog.py:344-361. -/
def makeFirstQuickest (i_range j_range v_range : PyIter) : Res Catalog2 :=
  if i_range.len * j_range.len ≠ v_range.len then .error .valueError
  else do
    checkRanges i_range j_range
    return .firstQuickest i_range j_range v_range

/-- The loop of `DictionaryCatalog2D.__init__`, catalog.py:476-482. -/
def fillDictionary (i_range j_range : PyIter) :
    List ((Int × Int) × Int) → List ((Int × Int) × Int) → Res (List ((Int × Int) × Int))
  | d, [] => .ok d
  | d, (key, value) :: rest => do
    if !(← i_range.contains key.1) then .error .valueError
    else if !(← j_range.contains key.2) then .error .valueError
    else fillDictionary i_range j_range (odictSet d key value) rest

/-- `DictionaryCatalog2D.__init__`, catalog.py:447-482. -/
def makeDictionary (i_range j_range : PyIter) (items : List ((Int × Int) × Int)) : Res Catalog2 := do
  checkRanges i_range j_range
  return .dictionary i_range j_range (← fillDictionary i_range j_range [] items)

/-- The property `i_range`, catalog.py:218-221. -/
def iRange : Catalog2 → PyIter
  | lastQuickest i _ _ => i
  | firstQuickest i _ _ => i
  | dictionary i _ _ => i

/-- The property `j_range`, catalog.py:223-226. -/
def jRange : Catalog2 → PyIter
  | lastQuickest _ j _ => j
  | firstQuickest _ j _ => j
  | dictionary _ j _ => j

/-- `i_min`, catalog.py:228-231. -/
def iMin (c : Catalog2) : Res Int := c.iRange.get 0
/-- `i_max`, catalog.py:233-236. -/
def iMax (c : Catalog2) : Res Int := c.iRange.get (-1)
/-- `j_min`, catalog.py:238-241. -/
def jMin (c : Catalog2) : Res Int := c.jRange.get 0
/-- `j_max`, catalog.py:243-246. -/
def jMax (c : Catalog2) : Res Int := c.jRange.get (-1)

/-- `_contains`, catalog.py:304-305, 381-382. -/
def containsIJ (i_range j_range : PyIter) (i j : Int) : Res Bool := do
  if ← i_range.contains i then j_range.contains j else return false

/-- `key in catalog`: catalog.py:300-302, 377-379, 493-494. -/
def contains : Catalog2 → Int × Int → Res Bool
  | lastQuickest i_range j_range _, key => containsIJ i_range j_range key.1 key.2
  | firstQuickest i_range j_range _, key => containsIJ i_range j_range key.1 key.2
  | dictionary _ _ items, key => .ok (odictContains items key)

/-- `catalog[key]`: catalog.py:290-298, 367-375, 484-485. -/
def get : Catalog2 → Int × Int → Res Int
  | lastQuickest i_range j_range v_range, key => do
    if !(← containsIJ i_range j_range key.1 key.2) then .error .keyError
    else
      let i_index ← i_range.index key.1
      let j_index ← j_range.index key.2
      let v_index := i_index * j_range.len + j_index
      v_range.get v_index
  | firstQuickest i_range j_range v_range, key => do
    if !(← containsIJ i_range j_range key.1 key.2) then .error .keyError
    else
      let i_index ← i_range.index key.1
      let j_index ← j_range.index key.2
      let v_index := j_index * i_range.len + i_index
      v_range.get v_index
  | dictionary _ _ items, key => odictGet items key

/-- `len(catalog)`: catalog.py:307-308, 384-385, 490-491. -/
def len : Catalog2 → Nat
  | lastQuickest i_range j_range _ => i_range.len * j_range.len
  | firstQuickest i_range j_range _ => i_range.len * j_range.len
  | dictionary _ _ items => items.length

/-- `list(catalog)`: catalog.py:310-311, 387-388, 487-488; `itertools.product` varies its last argument
quickest. -/
def keys : Catalog2 → List (Int × Int)
  | lastQuickest i_range j_range _ => i_range.toList.flatMap fun i => j_range.toList.map fun j => (i, j)
  | firstQuickest i_range j_range _ => j_range.toList.flatMap fun j => i_range.toList.map fun i => (i, j)
  | dictionary _ _ items => items.map Prod.fst

/-- `key(value)`: catalog.py:318-339, 395-416; `DictionaryCatalog2D` has no such method. -/
def key : Catalog2 → Int → Res (Int × Int)
  | lastQuickest i_range j_range v_range, value =>
    match v_range.index value with
    | .error .valueError => .error .valueError
    | .error e => .error e
    | .ok v_index => do
      let i_index ← pyFloorDiv v_index j_range.len
      let j_index ← pyMod v_index j_range.len
      let i ← i_range.get i_index
      let j ← j_range.get j_index
      return (i, j)
  | firstQuickest i_range j_range v_range, value =>
    match v_range.index value with
    | .error .valueError => .error .valueError
    | .error e => .error e
    | .ok v_index => do
      let j_index ← pyFloorDiv v_index i_range.len
      let i_index ← pyMod v_index i_range.len
      let i ← i_range.get i_index
      let j ← j_range.get j_index
      return (i, j)
  | dictionary _ _ _, _ => .error .attributeError

/-- `key_min`/`value_first`, catalog.py:248-250 and 256-258. -/
def valueFirst (c : Catalog2) : Res Int := do
  let i ← c.iMin
  let j ← c.jMin
  c.get (i, j)

/-- `key_max`/`value_last`, catalog.py:252-254 and 260-262. -/
def valueLast (c : Catalog2) : Res Int := do
  let i ← c.iMax
  let j ← c.jMax
  c.get (i, j)

end Catalog2

/-- `make_sorted_ranges`, catalog.py:176-194. -/
def makeSortedRanges (catalog : List ((Int × Int) × Int)) : Res (Option (PyIter × PyIter × PyIter)) := do
  let i_sorted ← makeSortedDistinctSequence (.gen (catalog.map fun e => e.1.1)) (some .ascending)
  let j_sorted ← makeSortedDistinctSequence (.gen (catalog.map fun e => e.1.2)) (some .ascending)
  if i_sorted.len * j_sorted.len ≠ catalog.length then return none
  else
    let vs := catalog.map fun e => e.2
    let up ← isSorted (.list vs) id false true
    let ordered ← if up then pure true else isSorted (.list vs) id true true
    if !ordered then return none
    else
      let v_sorted ← makeSortedDistinctSequence (.list vs) none
      if !(i_sorted.isRange && j_sorted.isRange && v_sorted.isRange) then return none
      else return some (i_sorted, j_sorted, v_sorted)

/-- `make_last_index_varies_quickest_catalog_2d`, catalog.py:156-161 (and `_first_then_second_index`,
781-782); also returns the re-sorted list, which the method leaves in the builder. -/
def makeLastIndexVariesQuickest (catalog : List ((Int × Int) × Int)) :
    Res (Option Catalog2 × List ((Int × Int) × Int)) := do
  let catalog := pySortedBy (fun e => toLex (e.1.1, e.1.2)) catalog
  match ← makeSortedRanges catalog with
  | none => return (none, catalog)
  | some (i, j, v) => return (some (← Catalog2.makeLastQuickest i j v), catalog)

/-- `make_first_index_varies_quickest_catalog_2d`, catalog.py:163-168 (and `_second_then_first_index`,
785-786). -/
def makeFirstIndexVariesQuickest (catalog : List ((Int × Int) × Int)) :
    Res (Option Catalog2 × List ((Int × Int) × Int)) := do
  let catalog := pySortedBy (fun e => toLex (e.1.2, e.1.1)) catalog
  match ← makeSortedRanges catalog with
  | none => return (none, catalog)
  | some (i, j, v) => return (some (← Catalog2.makeFirstQuickest i j v), catalog)

/-- `make_dictionary_catalog_2d`, catalog.py:170-174. -/
def makeDictionaryCatalog2D (catalog : List ((Int × Int) × Int)) : Res Catalog2 := do
  let catalog := pySortedBy (fun e => toLex (e.1.1, e.1.2)) catalog
  let i_sorted ← makeSortedDistinctSequence (.gen (catalog.map fun e => e.1.1)) (some .ascending)
  let j_sorted ← makeSortedDistinctSequence (.gen (catalog.map fun e => e.1.2)) (some .ascending)
  Catalog2.makeDictionary i_sorted j_sorted catalog

/-- The truth value of the result of a `make_..._catalog_2d` method: `None` is false, a mapping is true
when it is not empty. -/
def truthy : Option Catalog2 → Option Catalog2
  | none => none
  | some c => if c.len ≠ 0 then some c else none

/-- `_create_catalog_2`, catalog.py:147-154. -/
def createCatalog2 (catalog : List ((Int × Int) × Int)) : Res Catalog2 := do
  let (c, catalog) ← makeLastIndexVariesQuickest catalog
  match truthy c with
  | some c => return c
  | none =>
    let (c, catalog) ← makeFirstIndexVariesQuickest catalog
    match truthy c with
    | some c => return c
    | none => makeDictionaryCatalog2D catalog

/-- `CatalogBuilder.create` for keys that are pairs of integers, catalog.py:73-99. -/
def createCatalogPair (entries : List ((Int × Int) × Int)) : Res (Option Catalog2) := do
  let catalog := pySortedBy (fun e => toLex e.1) entries
  if ← containsDuplicates (catalog.map Prod.fst) then return none
  else return some (← createCatalog2 catalog)

end Segpy
