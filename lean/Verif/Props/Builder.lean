import Verif.Lemmas.Builder
import Verif.Props.Catalog

/-! # Properties of builders in use and of catalogs as mappings: C95 -/

namespace Segpy.Props

open Segpy.Spec

/-- A builder of catalogs with integer keys, whatever it is begun with and however `add` and `create` are then called:
each `create()` answers according to the entries given until then. -/
theorem C95_history_int (given : List (Int × Int)) (calls : List (BuilderCall Int)) :
    List.Forall₂ (AnswerFor Refines1) (entriesAtCreates given calls) (builderRun builderCreate1 given calls) := by
  rw [builderRun_eq (fun l => (builderCreate1_eq l).1) (fun l => (builderCreate1_eq l).2) C24_order_int calls given given
    (List.Perm.refl _)]
  rw [List.forall₂_map_right_iff, List.forall₂_same]
  intro g _
  refine ⟨?_, ?_, ?_⟩
  · rintro rfl; exact C23_empty_raises.1
  · exact fun h hn => C21_refines g h hn
  · exact fun hn => (C23_duplicates_int g (by rintro rfl; exact hn List.nodup_nil)).mpr hn

/-- The same for keys that are pairs. -/
theorem C95_history_pair (given : List ((Int × Int) × Int)) (calls : List (BuilderCall (Int × Int))) :
    List.Forall₂ (AnswerFor Refines2) (entriesAtCreates given calls) (builderRun builderCreate2 given calls) := by
  rw [builderRun_eq (fun l => (builderCreate2_eq l).1) (fun l => (builderCreate2_eq l).2) C24_order_pair calls given given
    (List.Perm.refl _)]
  rw [List.forall₂_map_right_iff, List.forall₂_same]
  intro g _
  refine ⟨?_, ?_, ?_⟩
  · rintro rfl; exact C23_empty_raises.2
  · exact fun h hn => C22_refines g h hn
  · exact fun hn => (C23_duplicates_pair g (by rintro rfl; exact hn List.nodup_nil)).mpr hn

/-- The methods that catalogs inherit from `Mapping` agree with the entries. -/
theorem C95_mapping :
    (∀ (entries : List (Int × Int)) (c : Catalog1), (entries.map Prod.fst).Nodup → Refines1 entries c →
      IsMapping entries c.mapping) ∧
    (∀ (entries : List ((Int × Int) × Int)) (c : Catalog2), (entries.map Prod.fst).Nodup → Refines2 entries c →
      IsMapping entries c.mapping) ∧
    ∀ (κ : Type) [DecidableEq κ] (d : List (κ × Int)), (d.map Prod.fst).Nodup → IsMapping d (PyMapping.ofDict d) := by
  refine ⟨?_, ?_, ?_⟩
  · intro entries c hn h
    obtain ⟨ks, h1, h2, h3⟩ := h.iter
    exact isMapping_of hn h.lookup h.missing ⟨ks, h1, SortedFrozenSet.sorted_nodup h2, h3⟩
  · intro entries c hn h
    exact isMapping_of hn h.lookup h.missing ⟨_, rfl, h.iter⟩
  · intro κ _ d hn
    exact isMapping_of hn (fun k v => odictGet_mem d hn k v) (odictGet_not_mem d) ⟨_, rfl, hn, fun _ => Iff.rfl⟩

/-- The items of a catalog with integer keys come in the order of their keys. -/
theorem C95_items_sorted (entries : List (Int × Int)) (c : Catalog1) (hn : (entries.map Prod.fst).Nodup)
    (h : Refines1 entries c) :
    ∃ l, c.mapping.items = .ok l ∧ l.Perm entries ∧ (l.map Prod.fst).Pairwise (· < ·) := by
  obtain ⟨l, h1, h2⟩ := (C95_mapping.1 entries c hn h).items
  refine ⟨l, h1, h2, ?_⟩
  obtain ⟨ks, g1, g2, g3⟩ := h.iter
  unfold PyMapping.items Catalog1.mapping at h1
  rw [g1] at h1
  have key : ∀ (ks : List Int) (l : List (Int × Int)),
      (ks.mapM fun key => do return (key, ← c.get key) : Res (List (Int × Int))) = .ok l → l.map Prod.fst = ks := by
    intro ks
    induction ks with
    | nil => intro l hl; cases hl; rfl
    | cons k ks ih =>
      intro l hl
      rw [List.mapM_cons] at hl
      cases hk : c.get k with
      | error err => rw [hk] at hl; cases hl
      | ok v =>
        rw [hk] at hl
        cases hm : (ks.mapM fun key => do return (key, ← c.get key) : Res (List (Int × Int))) with
        | error err =>
          simp only [bind, Except.bind, pure, Except.pure] at hl hm
          rw [hm] at hl; cases hl
        | ok l' =>
          have := ih l' hm
          simp only [bind, Except.bind, pure, Except.pure] at hl hm
          rw [hm] at hl
          cases hl
          rw [List.map_cons, this]
  rw [key ks l h1]
  exact g2

/-- Two mappings, catalogs of any representation or dicts, are equal exactly if they have the same entries. -/
theorem C95_equal {κ : Type} [DecidableEq κ] (a b : List (κ × Int)) (m n : PyMapping κ) (ha : (a.map Prod.fst).Nodup)
    (hb : (b.map Prod.fst).Nodup) (hm : IsMapping a m) (hn : IsMapping b n) :
    ∃ x, m.eq n = .ok x ∧ (x = true ↔ ∀ e, e ∈ a ↔ e ∈ b) := by
  obtain ⟨la, h1, h2⟩ := hm.items
  obtain ⟨lb, h3, h4⟩ := hn.items
  have na := (h2.map Prod.fst).nodup_iff.mpr ha
  have nb := (h4.map Prod.fst).nodup_iff.mpr hb
  refine ⟨PyMapping.dictEq la lb, ?_, ?_⟩
  · unfold PyMapping.eq
    rw [h1, h3]
    show Except.ok _ = _
    rw [odictOf_nodup _ na, odictOf_nodup _ nb]
  · rw [dictEq_iff la lb na nb, List.perm_ext_iff_of_nodup (List.Nodup.of_map _ na) (List.Nodup.of_map _ nb)]
    simp only [h2.mem_iff, h4.mem_iff]

/-- `CatalogBuilder(m).create()` of a mapping that is not empty is equal to it. -/
theorem C95_rebuild :
    (∀ (entries : List (Int × Int)) (m : PyMapping Int), entries ≠ [] → (entries.map Prod.fst).Nodup →
      IsMapping entries m → ∃ l c, builderInit (.mapping m) = .ok l ∧ (builderCreate1 l).1 = .ok (some c) ∧
        c.mapping.eq m = .ok true) ∧
    ∀ (entries : List ((Int × Int) × Int)) (m : PyMapping (Int × Int)), entries ≠ [] → (entries.map Prod.fst).Nodup →
      IsMapping entries m → ∃ l c, builderInit (.mapping m) = .ok l ∧ (builderCreate2 l).1 = .ok (some c) ∧
        c.mapping.eq m = .ok true := by
  refine ⟨?_, ?_⟩
  · intro entries m hne hnd hm
    obtain ⟨l, h1, h2⟩ := hm.items
    have hn := (h2.map Prod.fst).nodup_iff.mpr hnd
    obtain ⟨c, h3, h4⟩ := C21_refines l (fun h => hne (by rw [h] at h2; exact h2.nil_eq.symm)) hn
    refine ⟨l, c, h1, by rw [(builderCreate1_eq l).1, h3], ?_⟩
    obtain ⟨x, g1, g2⟩ := C95_equal l entries _ _ hn hnd (C95_mapping.1 l c hn h4) hm
    rw [g1, g2.mpr fun e => h2.mem_iff]
  · intro entries m hne hnd hm
    obtain ⟨l, h1, h2⟩ := hm.items
    have hn := (h2.map Prod.fst).nodup_iff.mpr hnd
    obtain ⟨c, h3, h4⟩ := C22_refines l (fun h => hne (by rw [h] at h2; exact h2.nil_eq.symm)) hn
    refine ⟨l, c, h1, by rw [(builderCreate2_eq l).1, h3], ?_⟩
    obtain ⟨x, g1, g2⟩ := C95_equal l entries _ _ hn hnd (C95_mapping.2.1 l c hn h4) hm
    rw [g1, g2.mpr fun e => h2.mem_iff]

/-- A builder begins with the entries it is given; a series in which something is not a pair is refused. -/
theorem C95_init {κ : Type} :
    builderInit (.nothing : BuilderArg κ) = .ok [] ∧
    (∀ l : List (κ × Int), builderInit (.series (l.map some)) = .ok l) ∧
    ∀ l : List (Option (κ × Int)), none ∈ l → builderInit (.series l) = .error .valueError := by
  refine ⟨rfl, ?_, ?_⟩
  · intro l
    unfold builderInit
    induction l with
    | nil => rfl
    | cons x l ih =>
      simp only at ih ⊢
      rw [List.map_cons, List.mapM_cons, ih]
      rfl
  · intro l hl
    unfold builderInit
    induction l with
    | nil => cases hl
    | cons x l ih =>
      simp only at ih ⊢
      rw [List.mapM_cons]
      cases x with
      | none => rfl
      | some e =>
        rw [ih (by simpa using hl)]
        rfl

-- a builder used several times: a column, a second column, a repeated key
example : (builderRun builderCreate2 [((1, 5), 0), ((2, 5), 1)]
      [.create, .add (1, 7) 2, .add (2, 7) 3, .create, .create, .add (1, 5) 9, .create]).map
        (fun r => r.toOption.map fun c => c.map fun c => c.keys) =
    [some (some [(1, 5), (2, 5)]), some (some [(1, 5), (2, 5), (1, 7), (2, 7)]),
      some (some [(1, 5), (2, 5), (1, 7), (2, 7)]), some none] := by decide +kernel
-- catalogs of different kinds that are equal, and two that are not
example : (Catalog1.linear 1 9 4 10 4 (-3) (-3/4)).mapping.eq (PyMapping.ofDict [(9, 4), (1, 10), (5, 7)]) = .ok true := by
  decide +kernel
example : (Catalog1.linear 1 9 4 10 4 (-3) (-3/4)).mapping.eq (PyMapping.ofDict [(9, 4), (1, 10), (5, 8)]) = .ok false := by
  decide +kernel

end Segpy.Props
