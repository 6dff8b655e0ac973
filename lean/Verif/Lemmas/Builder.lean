import Verif.Spec.Builder
import Verif.Lemmas.Catalog2

/-! # Lemmas about builders in use and about catalogs as mappings -/

namespace Segpy

open Segpy.Spec

theorem mapM_get {κ : Type} {g : κ → Res Int} {f : κ → Int} (l : List κ) (h : ∀ k ∈ l, g k = .ok (f k)) :
    l.mapM g = .ok (l.map f) ∧ (l.mapM fun k => do return (k, ← g k)) = .ok (l.map fun k => (k, f k)) := by
  induction l with
  | nil => exact ⟨rfl, rfl⟩
  | cons k l ih =>
    obtain ⟨h1, h2⟩ := ih fun k hk => h k (List.mem_cons_of_mem _ hk)
    rw [List.mapM_cons, List.mapM_cons, h k List.mem_cons_self, h1, h2]
    exact ⟨rfl, rfl⟩

/-- The items of a list with distinct keys, in the order of keys of a list with the same ones. -/
theorem items_perm {κ : Type} [DecidableEq κ] (entries : List (κ × Int)) (ks : List κ) (f : κ → Int)
    (hn : (entries.map Prod.fst).Nodup) (hk : ks.Nodup) (hm : ∀ k, k ∈ ks ↔ k ∈ entries.map Prod.fst)
    (hf : ∀ k v, (k, v) ∈ entries → f k = v) : (ks.map fun k => (k, f k)).Perm entries := by
  refine (List.perm_ext_iff_of_nodup ?_ (List.Nodup.of_map _ hn)).mpr ?_
  · exact List.Nodup.of_map Prod.fst (by rw [List.map_map]; simpa [Function.comp_def] using hk)
  · rintro ⟨k, v⟩
    simp only [List.mem_map, Prod.mk.injEq]
    constructor
    · rintro ⟨k', h1, rfl, rfl⟩
      obtain ⟨⟨k2, v2⟩, h2, rfl⟩ := List.mem_map.mp ((hm k').mp h1)
      rw [hf _ _ h2]
      exact h2
    · intro h
      exact ⟨k, (hm k).mpr (List.mem_map.mpr ⟨_, h, rfl⟩), rfl, hf k v h⟩

theorem isMapping_of {κ : Type} [DecidableEq κ] {entries : List (κ × Int)} {m : PyMapping κ}
    (hn : (entries.map Prod.fst).Nodup) (hl : ∀ k v, (k, v) ∈ entries → m.getitem k = .ok v)
    (hmiss : ∀ k, k ∉ entries.map Prod.fst → m.getitem k = .error .keyError)
    (hi : ∃ ks, m.iter = .ok ks ∧ ks.Nodup ∧ ∀ k, k ∈ ks ↔ k ∈ entries.map Prod.fst) : IsMapping entries m := by
  obtain ⟨ks, h1, h2, h3⟩ := hi
  let f : κ → Int := fun k => match m.getitem k with
    | .ok v => v
    | .error _ => 0
  have hf : ∀ k v, (k, v) ∈ entries → f k = v := by
    intro k v h
    show (match m.getitem k with | .ok v => v | .error _ => 0) = v
    rw [hl k v h]
  have hg : ∀ k ∈ ks, m.getitem k = .ok (f k) := by
    intro k hk
    obtain ⟨⟨k', v⟩, h4, rfl⟩ := List.mem_map.mp ((h3 k).mp hk)
    rw [hl _ _ h4, hf _ _ h4]
  obtain ⟨e1, e2⟩ := mapM_get ks hg
  have hit : m.items = .ok (ks.map fun k => (k, f k)) := by
    unfold PyMapping.items
    rw [h1]
    exact e2
  refine ⟨?_, ?_, ⟨_, hit, items_perm entries ks f hn h2 h3 hf⟩, ⟨_, hit, ?_⟩⟩
  · intro k v d h
    unfold PyMapping.get
    rw [hl k v h]
  · intro k d h
    unfold PyMapping.get
    rw [hmiss k h]
  · unfold PyMapping.values
    rw [h1, List.map_map]
    exact e1

/-- Comparing two `dict`s. -/
theorem dictEq_iff {κ : Type} [DecidableEq κ] (a b : List (κ × Int)) (ha : (a.map Prod.fst).Nodup)
    (hb : (b.map Prod.fst).Nodup) : PyMapping.dictEq a b = true ↔ a.Perm b := by
  unfold PyMapping.dictEq
  simp only [Bool.and_eq_true, decide_eq_true_eq, List.all_eq_true]
  constructor
  · rintro ⟨h1, h2⟩
    refine (List.subperm_of_subset (List.Nodup.of_map _ ha) ?_).perm_of_length_le (by omega)
    rintro ⟨k, v⟩ hm
    have := h2 _ hm
    by_cases hk : k ∈ b.map Prod.fst
    · obtain ⟨⟨k', v'⟩, h3, rfl⟩ := List.mem_map.mp hk
      rw [odictGet_mem b hb _ _ h3] at this
      simp only [decide_eq_true_eq] at this
      rw [this]
      exact h3
    · rw [odictGet_not_mem b k hk] at this
      cases this
  · intro p
    refine ⟨p.length_eq, ?_⟩
    rintro ⟨k, v⟩ hm
    rw [odictGet_mem b hb k v (p.mem_iff.mp hm)]
    simp

theorem builderCreate1_eq (l : List (Int × Int)) :
    (builderCreate1 l).1 = createCatalogInt l ∧ (builderCreate1 l).2.Perm l := by
  unfold builderCreate1 createCatalogInt
  have hp := pySortedBy_perm Prod.fst l
  simp only
  cases h : containsDuplicates ((pySortedBy Prod.fst l).map Prod.fst) with
  | error err => exact ⟨rfl, hp⟩
  | ok b =>
    cases b with
    | true => exact ⟨rfl, hp⟩
    | false =>
      simp only
      cases h' : createCatalog1 (pySortedBy Prod.fst l) with
      | error err => exact ⟨by simp [bind, Except.bind], hp⟩
      | ok c => exact ⟨by simp [bind, Except.bind, pure, Except.pure], hp⟩

theorem last_perm {l : List ((Int × Int) × Int)} {x : Option Catalog2 × List ((Int × Int) × Int)}
    (h : makeLastIndexVariesQuickest l = .ok x) : x.2.Perm l := by
  unfold makeLastIndexVariesQuickest at h
  cases h1 : makeSortedRanges (pySortedBy (fun e => toLex (e.1.1, e.1.2)) l) with
  | error err => simp only [h1, bind, Except.bind] at h; cases h
  | ok o =>
    simp only [h1, bind, Except.bind] at h
    cases o with
    | none => cases h; exact pySortedBy_perm _ _
    | some ijv =>
      obtain ⟨i, j, v⟩ := ijv
      simp only at h
      cases h2 : Catalog2.makeLastQuickest i j v with
      | error err => rw [h2] at h; cases h
      | ok c => rw [h2] at h; cases h; exact pySortedBy_perm _ _

theorem first_perm {l : List ((Int × Int) × Int)} {x : Option Catalog2 × List ((Int × Int) × Int)}
    (h : makeFirstIndexVariesQuickest l = .ok x) : x.2.Perm l := by
  unfold makeFirstIndexVariesQuickest at h
  cases h1 : makeSortedRanges (pySortedBy (fun e => toLex (e.1.2, e.1.1)) l) with
  | error err => simp only [h1, bind, Except.bind] at h; cases h
  | ok o =>
    simp only [h1, bind, Except.bind] at h
    cases o with
    | none => cases h; exact pySortedBy_perm _ _
    | some ijv =>
      obtain ⟨i, j, v⟩ := ijv
      simp only at h
      cases h2 : Catalog2.makeFirstQuickest i j v with
      | error err => rw [h2] at h; cases h
      | ok c => rw [h2] at h; cases h; exact pySortedBy_perm _ _

theorem builderCreateCatalog2_eq (l : List ((Int × Int) × Int)) :
    (builderCreateCatalog2 l).1 = createCatalog2 l ∧ (builderCreateCatalog2 l).2.Perm l := by
  unfold builderCreateCatalog2 createCatalog2
  cases h1 : makeLastIndexVariesQuickest l with
  | error err => exact ⟨rfl, List.Perm.refl _⟩
  | ok x =>
    have p1 := last_perm h1
    obtain ⟨c, l1⟩ := x
    simp only [bind, Except.bind]
    cases h2 : truthy c with
    | some c => exact ⟨rfl, p1⟩
    | none =>
      simp only
      cases h3 : makeFirstIndexVariesQuickest l1 with
      | error err => exact ⟨rfl, p1⟩
      | ok x =>
        have p2 := first_perm h3
        obtain ⟨c, l2⟩ := x
        simp only
        cases h4 : truthy c with
        | some c => exact ⟨rfl, p2.trans p1⟩
        | none => exact ⟨rfl, (pySortedBy_perm _ _).trans (p2.trans p1)⟩

theorem builderCreate2_eq (l : List ((Int × Int) × Int)) :
    (builderCreate2 l).1 = createCatalogPair l ∧ (builderCreate2 l).2.Perm l := by
  unfold builderCreate2 createCatalogPair
  have hp := pySortedBy_perm (fun e : (Int × Int) × Int => toLex e.1) l
  simp only
  cases h : containsDuplicates ((pySortedBy (fun e : (Int × Int) × Int => toLex e.1) l).map Prod.fst) with
  | error err => exact ⟨rfl, hp⟩
  | ok b =>
    cases b with
    | true => exact ⟨rfl, hp⟩
    | false =>
      simp only
      obtain ⟨e1, e2⟩ := builderCreateCatalog2_eq (pySortedBy (fun e : (Int × Int) × Int => toLex e.1) l)
      cases h' : builderCreateCatalog2 (pySortedBy (fun e : (Int × Int) × Int => toLex e.1) l) with
      | mk x l' =>
      rw [h'] at e1 e2
      simp only at e1 e2
      cases x with
      | error err => exact ⟨by simp [bind, Except.bind, ← e1], e2.trans hp⟩
      | ok c => exact ⟨by simp [bind, Except.bind, ← e1, pure, Except.pure], e2.trans hp⟩

/-- Each answer of a builder is that of a new one with the entries given so far. -/
theorem builderRun_eq {κ C : Type} {create : List (κ × Int) → Res (Option C) × List (κ × Int)}
    {fresh : List (κ × Int) → Res (Option C)} (h1 : ∀ l, (create l).1 = fresh l) (h2 : ∀ l, (create l).2.Perm l)
    (h3 : ∀ l m : List (κ × Int), l.Perm m → fresh l = fresh m) (calls : List (BuilderCall κ)) :
    ∀ catalog given : List (κ × Int), catalog.Perm given →
      builderRun create catalog calls = (entriesAtCreates given calls).map fresh := by
  induction calls with
  | nil => intro _ _ _; rfl
  | cons call calls ih =>
    intro catalog given hp
    cases call with
    | add index value => exact ih _ _ (hp.append (List.Perm.refl _))
    | create =>
      show (create catalog).1 :: builderRun create (create catalog).2 calls = fresh given :: _
      rw [h1, h3 _ _ hp, ih _ given ((h2 _).trans hp)]

end Segpy
