import Verif.Model.Builder

/-! # What is expected of a builder in use and of catalogs as mappings -/

namespace Segpy.Spec

open Segpy

/-- For each `create()` of a program the entries that have been given to the builder until then, the first ones being
those it began with. -/
def entriesAtCreates {κ : Type} : List (κ × Int) → List (BuilderCall κ) → List (List (κ × Int))
  | _, [] => []
  | given, .add index value :: calls => entriesAtCreates (given ++ [(index, value)]) calls
  | given, .create :: calls => given :: entriesAtCreates given calls

/-- What `create()` is to answer when these entries have been given: a catalog with these entries, unless two have the same
key or there are none. -/
def AnswerFor {κ C : Type} (refines : List (κ × Int) → C → Prop) (given : List (κ × Int)) (answer : Res (Option C)) : Prop :=
  (given = [] → answer = .error .runtimeError) ∧
  (given ≠ [] → (given.map Prod.fst).Nodup → ∃ c, answer = .ok (some c) ∧ refines given c) ∧
  (¬ (given.map Prod.fst).Nodup → answer = .ok none)

/-- A mapping is the one with these entries, as far as the methods `get`, `items`, `values` and `==` can tell. -/
structure IsMapping {κ : Type} [DecidableEq κ] (entries : List (κ × Int)) (m : PyMapping κ) : Prop where
  get_present : ∀ k v default, (k, v) ∈ entries → m.get k default = .ok (some v)
  get_missing : ∀ k default, k ∉ entries.map Prod.fst → m.get k default = .ok default
  items : ∃ l, m.items = .ok l ∧ l.Perm entries
  values : ∃ l, m.items = .ok l ∧ m.values = .ok (l.map Prod.snd)

end Segpy.Spec
