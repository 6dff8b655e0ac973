import Verif.Model.Catalog

/-! # Specification of catalogs: what it means for a catalog to be the mapping given by a list of entries -/

namespace Segpy

/-- The catalog behaves as the mapping given by the entries: lookups of
entries return their value, every other key raises `KeyError`, membership and length agree, and iteration
yields the keys in strictly increasing order. -/
structure Refines1 (entries : List (Int × Int)) (c : Catalog1) : Prop where
  lookup : ∀ k v, (k, v) ∈ entries → c.get k = .ok v
  missing : ∀ k, k ∉ entries.map Prod.fst → c.get k = .error .keyError
  contains : ∀ k, c.contains k = .ok (decide (k ∈ entries.map Prod.fst))
  len : c.len = .ok entries.length
  iter : ∃ ks, c.keys = .ok ks ∧ ks.Pairwise (· < ·) ∧ ∀ k, k ∈ ks ↔ k ∈ entries.map Prod.fst

/-- The catalog behaves as the mapping given by the entries, its bounds are tight, and its ranges are the distinct first and second
components of the keys in increasing order. -/
structure Refines2 (entries : List ((Int × Int) × Int)) (c : Catalog2) : Prop where
  lookup : ∀ k v, (k, v) ∈ entries → c.get k = .ok v
  missing : ∀ k, k ∉ entries.map Prod.fst → c.get k = .error .keyError
  contains : ∀ k, c.contains k = .ok (decide (k ∈ entries.map Prod.fst))
  len : c.len = entries.length
  iter : c.keys.Nodup ∧ ∀ k, k ∈ c.keys ↔ k ∈ entries.map Prod.fst
  iMin : ∃ a, c.iMin = .ok a ∧ (∃ e ∈ entries, e.1.1 = a) ∧ ∀ e ∈ entries, a ≤ e.1.1
  iMax : ∃ a, c.iMax = .ok a ∧ (∃ e ∈ entries, e.1.1 = a) ∧ ∀ e ∈ entries, e.1.1 ≤ a
  jMin : ∃ a, c.jMin = .ok a ∧ (∃ e ∈ entries, e.1.2 = a) ∧ ∀ e ∈ entries, a ≤ e.1.2
  jMax : ∃ a, c.jMax = .ok a ∧ (∃ e ∈ entries, e.1.2 = a) ∧ ∀ e ∈ entries, e.1.2 ≤ a
  iRange : c.iRange.toList.Pairwise (· < ·) ∧ ∀ a, a ∈ c.iRange.toList ↔ ∃ e ∈ entries, e.1.1 = a
  jRange : c.jRange.toList.Pairwise (· < ·) ∧ ∀ a, a ∈ c.jRange.toList ↔ ∃ e ∈ entries, e.1.2 = a

end Segpy
