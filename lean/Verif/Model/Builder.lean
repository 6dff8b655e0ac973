import Verif.Model.Catalog

/-!
# Model of a `CatalogBuilder` in use, and of catalogs as mappings

`segpy/catalog.py`: the builder as an object that `add` and `create` are called on in any order, and what the catalogs
inherit from `collections.abc.Mapping` (`get`, `items`, `values`, `==`).
-/

namespace Segpy

/-- What `Mapping` needs of a class: `__iter__` and `__getitem__`. -/
structure PyMapping (κ : Type) where
  iter : Res (List κ)
  getitem : κ → Res Int

namespace PyMapping

variable {κ : Type} [DecidableEq κ]

/-- A `dict`, in the order of insertion. -/
def ofDict (d : List (κ × Int)) : PyMapping κ := { iter := .ok (d.map Prod.fst), getitem := odictGet d }

/-- `Mapping.get(key, default)`: `try: return self[key]`, `except KeyError: return default` (Lib/_collections_abc.py). -/
def get (m : PyMapping κ) (key : κ) (default : Option Int) : Res (Option Int) :=
  match m.getitem key with
  | .ok v => .ok (some v)
  | .error .keyError => .ok default
  | .error err => .error err

/-- `list(m.items())`: `for key in self._mapping: yield (key, self._mapping[key])` (Lib/_collections_abc.py). -/
def items (m : PyMapping κ) : Res (List (κ × Int)) := do
  (← m.iter).mapM fun key => do return (key, ← m.getitem key)

/-- `list(m.values())`: `for key in self._mapping: yield self._mapping[key]` (Lib/_collections_abc.py). -/
def values (m : PyMapping κ) : Res (List Int) := do (← m.iter).mapM m.getitem

/-- `d1 == d2` for two `dict`s: as many items, and every item of the first is one of the second. -/
def dictEq (d1 d2 : List (κ × Int)) : Bool :=
  decide (d1.length = d2.length) && d1.all fun p =>
    match odictGet d2 p.1 with
    | .ok v => decide (p.2 = v)
    | .error _ => false

/-- `m == other` for another mapping: `dict(self.items()) == dict(other.items())` (Lib/_collections_abc.py). -/
def eq (m other : PyMapping κ) : Res Bool := do
  let a ← m.items
  let b ← other.items
  return dictEq (odictOf a) (odictOf b)

end PyMapping

/-- The `__iter__` and `__getitem__` of the one-dimensional catalogs, catalog.py:419-778. -/
def Catalog1.mapping (c : Catalog1) : PyMapping Int := { iter := c.keys, getitem := c.get }

/-- The `__iter__` and `__getitem__` of the two-dimensional catalogs, catalog.py:265-500. -/
def Catalog2.mapping (c : Catalog2) : PyMapping (Int × Int) := { iter := .ok c.keys, getitem := c.get }

/-- The argument of `CatalogBuilder(mapping)`: nothing, a mapping, or a series of tuples, of which those that are not pairs
are represented by nothing. -/
inductive BuilderArg (κ : Type) where
  | nothing
  | mapping (m : PyMapping κ)
  | series (l : List (Option (κ × Int)))

/-- `CatalogBuilder.__init__`, catalog.py:37-61: `self._catalog`.  Arguments that are neither mappings nor iterable are not
modelled. -/
def builderInit {κ : Type} : BuilderArg κ → Res (List (κ × Int))
  | .nothing => .ok []
  | .mapping m => m.items
  | .series l => l.mapM fun pair => match pair with
    | none => .error .valueError
    | some pair => .ok pair

/-- The calls on a builder. -/
inductive BuilderCall (κ : Type) where
  | add (index : κ) (value : Int)
  | create

/-- `add`, catalog.py:63-71. -/
def builderAdd {κ : Type} (catalog : List (κ × Int)) (index : κ) (value : Int) : List (κ × Int) :=
  catalog ++ [(index, value)]

/-- `create()` on scalar keys, catalog.py:73-99: what is returned or raised, and `self._catalog` afterwards, which has been
sorted in place. -/
def builderCreate1 (catalog : List (Int × Int)) : Res (Option Catalog1) × List (Int × Int) :=
  let catalog := pySortedBy Prod.fst catalog
  match containsDuplicates (catalog.map Prod.fst) with
  | .error err => (.error err, catalog)
  | .ok true => (.ok none, catalog)
  | .ok false =>
    match createCatalog1 catalog with
    | .error err => (.error err, catalog)
    | .ok c => (.ok (some c), catalog)

/-- `_create_catalog_2`, catalog.py:147-154, with `self._catalog` afterwards: each attempt sorts it in place.  Where an
attempt raises, what the list was before it is taken instead of what it is then, which has the same entries. -/
def builderCreateCatalog2 (catalog : List ((Int × Int) × Int)) : Res Catalog2 × List ((Int × Int) × Int) :=
  match makeLastIndexVariesQuickest catalog with
  | .error err => (.error err, catalog)
  | .ok (c, catalog) =>
    match truthy c with
    | some c => (.ok c, catalog)
    | none =>
      match makeFirstIndexVariesQuickest catalog with
      | .error err => (.error err, catalog)
      | .ok (c, catalog) =>
        match truthy c with
        | some c => (.ok c, catalog)
        | none => (makeDictionaryCatalog2D catalog, pySortedBy (fun e => toLex (e.1.1, e.1.2)) catalog)

/-- `create()` on keys that are pairs, catalog.py:73-99. -/
def builderCreate2 (catalog : List ((Int × Int) × Int)) : Res (Option Catalog2) × List ((Int × Int) × Int) :=
  let catalog := pySortedBy (fun e => toLex e.1) catalog
  match containsDuplicates (catalog.map Prod.fst) with
  | .error err => (.error err, catalog)
  | .ok true => (.ok none, catalog)
  | .ok false =>
    match builderCreateCatalog2 catalog with
    | (.error err, catalog) => (.error err, catalog)
    | (.ok c, catalog) => (.ok (some c), catalog)

/-- A program that uses a builder: what its `create()`s return or raise, one after another. -/
def builderRun {κ C : Type} (create : List (κ × Int) → Res (Option C) × List (κ × Int)) :
    List (κ × Int) → List (BuilderCall κ) → List (Res (Option C))
  | _, [] => []
  | catalog, .add index value :: calls => builderRun create (builderAdd catalog index value) calls
  | catalog, .create :: calls =>
    let (result, catalog) := create catalog
    result :: builderRun create catalog calls

end Segpy
