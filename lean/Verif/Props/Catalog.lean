import Verif.Lemmas.Catalog2

/-!
# Properties C21–C25: catalogs

`createCatalogInt entries` / `createCatalogPair entries` is: add the entries to a `CatalogBuilder` in this
order, then call `create()`.  `Refines1`/`Refines2` (Verif/Spec/Catalog.lean) say that a catalog is the
mapping given by the entries.
-/

namespace Segpy.Props

/-! ## C21 -/

/-- Whatever representation is selected, the catalog of entries with distinct integer keys is the mapping
they describe. -/
theorem C21_refines (entries : List (Int × Int)) (hne : entries ≠ []) (hnd : (entries.map Prod.fst).Nodup) :
    ∃ c, createCatalogInt entries = .ok (some c) ∧ Refines1 entries c := by
  unfold createCatalogInt
  set s := pySortedBy Prod.fst entries with hs
  have hp : s.Perm entries := pySortedBy_perm _ _
  have hsne : s ≠ [] := by intro e; rw [e] at hp; exact hne hp.nil_eq.symm
  have hsorted : (s.map Prod.fst).Pairwise (· < ·) := sorted_keys (fun k : Int => k) (fun _ _ h => h) entries hnd
  have hdup : containsDuplicates (s.map Prod.fst) = .ok false := by
    rw [C57_duplicates _ (by simpa using hsne) (hsorted.imp le_of_lt)]
    have := SortedFrozenSet.sorted_nodup hsorted
    simp [this]
  obtain ⟨c, h1, h2⟩ := createCatalog1_refines s hsorted
  refine ⟨c, ?_, h2.perm hp⟩
  simp only [hdup, h1, bind, Except.bind, pure, Except.pure, Bool.false_eq_true, if_false]

/-- The iteration order is determined: strictly increasing keys. -/
theorem C21_iteration (entries : List (Int × Int)) (c : Catalog1) (h : Refines1 entries c) (ks : List Int)
    (hs : ks.Pairwise (· < ·)) (hm : ∀ k, k ∈ ks ↔ k ∈ entries.map Prod.fst) : c.keys = .ok ks := by
  obtain ⟨ks', h1, h2, h3⟩ := h.iter
  rw [h1, strictSorted_ext h2 hs (fun a => (h3 a).trans (hm a).symm)]

-- every representation is reached
example : createCatalogInt [(7, 1)] = .ok (some (.dictionary [(7, 1)])) := by decide +kernel
example : createCatalogInt [(9, 4), (1, 4), (5, 4)] = .ok (some (.regularConstant 1 9 4 4)) := by decide +kernel
example : createCatalogInt [(9, 4), (1, 4), (6, 4)] = .ok (some (.constant ⟨[1, 6, 9]⟩ 4)) := by decide +kernel
example : createCatalogInt [(9, 4), (1, 7), (5, 4)] = .ok (some (.regular 1 9 4 [7, 4, 4])) := by decide +kernel
example : createCatalogInt [(9, 4), (1, 10), (5, 7)] = .ok (some (.linear 1 9 4 10 4 (-3) (-3/4))) := by
  decide +kernel
example : createCatalogInt [(9, 4), (1, 10), (6, 8)] = .ok (some (.dictionary [(1, 10), (6, 8), (9, 4)])) := by
  decide +kernel

/-! ## C22 -/

/-- The catalog of entries with distinct pair keys is the mapping they describe, with tight bounds. -/
theorem C22_refines (entries : List ((Int × Int) × Int)) (hne : entries ≠ []) (hnd : (entries.map Prod.fst).Nodup) :
    ∃ c, createCatalogPair entries = .ok (some c) ∧ Refines2 entries c := by
  unfold createCatalogPair
  set s := pySortedBy (fun e : (Int × Int) × Int => toLex e.1) entries with hs
  have hp : s.Perm entries := pySortedBy_perm _ _
  have hsne : s ≠ [] := by intro e; rw [e] at hp; exact hne hp.nil_eq.symm
  have hsorted : ((s.map Prod.fst).map toLex).Pairwise (· < ·) := by
    have := sorted_keys (fun k : Int × Int => toLex k) toLex.injective entries hnd
    rw [List.map_map]; exact this
  have hsnd : (s.map Prod.fst).Nodup := (hp.map Prod.fst).nodup_iff.mpr hnd
  have hdup : containsDuplicates (s.map Prod.fst) = .ok false := by
    rw [containsDuplicates_of_sorted toLex toLex.injective _ (by simpa using hsne) (hsorted.imp le_of_lt)]
    simp [hsnd]
  obtain ⟨c, h1, h2⟩ := createCatalog2_refines s hsne hsnd
  refine ⟨c, ?_, h2.perm hp⟩
  simp only [hdup, h1, bind, Except.bind, pure, Except.pure, Bool.false_eq_true, if_false]

/-- The lookups at the corners: `value_first` and `value_last` are the values at the extreme keys, when the
corner keys are present. -/
theorem C22_corners (entries : List ((Int × Int) × Int)) (c : Catalog2) (h : Refines2 entries c)
    (a b : Int × Int) (x y : Int) (hx : (a, x) ∈ entries) (hy : (b, y) ∈ entries)
    (ha : ∀ e ∈ entries, a.1 ≤ e.1.1 ∧ a.2 ≤ e.1.2) (hb : ∀ e ∈ entries, e.1.1 ≤ b.1 ∧ e.1.2 ≤ b.2) :
    c.valueFirst = .ok x ∧ c.valueLast = .ok y := by
  obtain ⟨i0, h1, ⟨e1, h1a, h1b⟩, h1c⟩ := h.iMin
  obtain ⟨i1, h2, ⟨e2, h2a, h2b⟩, h2c⟩ := h.iMax
  obtain ⟨j0, h3, ⟨e3, h3a, h3b⟩, h3c⟩ := h.jMin
  obtain ⟨j1, h4, ⟨e4, h4a, h4b⟩, h4c⟩ := h.jMax
  have e1 : i0 = a.1 := le_antisymm (h1c _ hx) (by rw [← h1b]; exact (ha _ h1a).1)
  have e2 : i1 = b.1 := le_antisymm (by rw [← h2b]; exact (hb _ h2a).1) (h2c _ hy)
  have e3 : j0 = a.2 := le_antisymm (h3c _ hx) (by rw [← h3b]; exact (ha _ h3a).2)
  have e4 : j1 = b.2 := le_antisymm (by rw [← h4b]; exact (hb _ h4a).2) (h4c _ hy)
  subst e1 e2 e3 e4
  constructor
  · unfold Catalog2.valueFirst
    rw [h1, h3]
    exact h.lookup a x hx
  · unfold Catalog2.valueLast
    rw [h2, h4]
    exact h.lookup b y hy

example : createCatalogPair [((1, 5), 0), ((1, 7), 3), ((2, 5), 6), ((2, 7), 9)] =
    .ok (some (.lastQuickest (.range ⟨1, 3, 1, by decide⟩) (.range ⟨5, 9, 2, by decide⟩)
      (.range ⟨0, 12, 3, by decide⟩))) := by decide +kernel
example : createCatalogPair [((1, 5), 0), ((2, 5), 3), ((1, 7), 6), ((2, 7), 9)] =
    .ok (some (.firstQuickest (.range ⟨1, 3, 1, by decide⟩) (.range ⟨5, 9, 2, by decide⟩)
      (.range ⟨0, 12, 3, by decide⟩))) := by decide +kernel
example : createCatalogPair [((1, 5), 0), ((2, 5), 3), ((2, 7), 9)] =
    .ok (some (.dictionary (.range ⟨1, 3, 1, by decide⟩) (.range ⟨5, 9, 2, by decide⟩)
      [((1, 5), 0), ((2, 5), 3), ((2, 7), 9)])) := by decide +kernel
/-- Descending values are compacted too. -/
example : createCatalogPair [((1, 5), 9), ((1, 7), 6), ((2, 5), 3), ((2, 7), 0)] =
    .ok (some (.lastQuickest (.range ⟨1, 3, 1, by decide⟩) (.range ⟨5, 9, 2, by decide⟩)
      (.range ⟨9, -3, -3, by decide⟩))) := by decide +kernel

/-! ## C23 -/

/-- `create()` returns `None` exactly when two entries have equal keys (integer keys). -/
theorem C23_duplicates_int (entries : List (Int × Int)) (hne : entries ≠ []) :
    createCatalogInt entries = .ok none ↔ ¬ (entries.map Prod.fst).Nodup := by
  constructor
  · intro h hnd
    obtain ⟨c, h1, _⟩ := C21_refines entries hne hnd
    rw [h1] at h; cases h
  · intro hnd
    unfold createCatalogInt
    have hp : (pySortedBy Prod.fst entries).Perm entries := pySortedBy_perm _ _
    have hsne : pySortedBy Prod.fst entries ≠ [] := by intro e; rw [e] at hp; exact hne hp.nil_eq.symm
    have hsorted := List.pairwise_map.mpr (pySortedBy_pairwise (Prod.fst : Int × Int → Int) entries)
    have hdup : containsDuplicates ((pySortedBy Prod.fst entries).map Prod.fst) = .ok true := by
      rw [C57_duplicates _ (by simpa using hsne) hsorted]
      exact congrArg Except.ok (decide_eq_true (fun h => hnd ((hp.map Prod.fst).nodup_iff.mp h)))
    simp only [hdup, bind, Except.bind, if_true, pure, Except.pure]

/-- `create()` returns `None` exactly when two entries have equal keys (pair keys). -/
theorem C23_duplicates_pair (entries : List ((Int × Int) × Int)) (hne : entries ≠ []) :
    createCatalogPair entries = .ok none ↔ ¬ (entries.map Prod.fst).Nodup := by
  constructor
  · intro h hnd
    obtain ⟨c, h1, _⟩ := C22_refines entries hne hnd
    rw [h1] at h; cases h
  · intro hnd
    unfold createCatalogPair
    set s := pySortedBy (fun e : (Int × Int) × Int => toLex e.1) entries with hs
    have hp : s.Perm entries := pySortedBy_perm _ _
    have hsne : s ≠ [] := by intro e; rw [e] at hp; exact hne hp.nil_eq.symm
    have hsorted : ((s.map Prod.fst).map toLex).Pairwise (· ≤ ·) := by
      rw [List.map_map]
      exact List.pairwise_map.mpr (pySortedBy_pairwise (fun e : (Int × Int) × Int => toLex e.1) entries)
    have hdup : containsDuplicates (s.map Prod.fst) = .ok true := by
      rw [containsDuplicates_of_sorted toLex toLex.injective _ (by simpa using hsne) hsorted]
      exact congrArg Except.ok (decide_eq_true (fun h => hnd ((hp.map Prod.fst).nodup_iff.mp h)))
    simp only [hdup, bind, Except.bind, if_true, pure, Except.pure]

/-- With no entries at all `create()` raises `RuntimeError` (see C16). -/
theorem C23_empty_raises : createCatalogInt [] = .error .runtimeError ∧ createCatalogPair [] = .error .runtimeError :=
  ⟨rfl, rfl⟩

example : createCatalogInt [(1, 2), (3, 4), (1, 5)] = .ok none := by decide +kernel

/-! ## C24 -/

/-- Adding the same entries in any order gives the same catalog object (or the same `None`). -/
theorem C24_order_int (l m : List (Int × Int)) (p : l.Perm m) : createCatalogInt l = createCatalogInt m := by
  by_cases hne : l = []
  · subst hne; rw [p.nil_eq]
  by_cases hnd : (l.map Prod.fst).Nodup
  · have e := pySortedBy_eq_of_perm (fun k : Int => k) (fun _ _ h => h) p hnd
    have e' : pySortedBy Prod.fst l = pySortedBy Prod.fst m := e
    unfold createCatalogInt
    rw [e']
  · have hm : m ≠ [] := by intro e; rw [e] at p; exact hne p.eq_nil
    rw [(C23_duplicates_int l hne).mpr hnd,
      (C23_duplicates_int m hm).mpr (fun h => hnd ((p.map Prod.fst).nodup_iff.mpr h))]

/-- The same for pair keys. -/
theorem C24_order_pair (l m : List ((Int × Int) × Int)) (p : l.Perm m) : createCatalogPair l = createCatalogPair m := by
  by_cases hne : l = []
  · subst hne; rw [p.nil_eq]
  by_cases hnd : (l.map Prod.fst).Nodup
  · have e := pySortedBy_eq_of_perm (fun k : Int × Int => toLex k) toLex.injective p hnd
    unfold createCatalogPair
    simp only [e]
  · have hm : m ≠ [] := by intro e; rw [e] at p; exact hne p.eq_nil
    rw [(C23_duplicates_pair l hne).mpr hnd,
      (C23_duplicates_pair m hm).mpr (fun h => hnd ((p.map Prod.fst).nodup_iff.mpr h))]

example : createCatalogPair [((2, 7), 9), ((1, 5), 0), ((2, 5), 6), ((1, 7), 3)] =
    createCatalogPair [((1, 5), 0), ((1, 7), 3), ((2, 5), 6), ((2, 7), 9)] := by decide +kernel

/-! ## C25 -/

private theorem divmod_lt {a b n m : Nat} (h : a < n * m) (hb : b = a) : b / m < n ∧ b % m < m := by
  subst hb
  have hm : 0 < m := by
    rcases Nat.eq_zero_or_pos m with h0 | h0
    · subst h0; simp at h
    · exact h0
  exact ⟨(Nat.div_lt_iff_lt_mul hm).mpr h, Nat.mod_lt _ hm⟩

private theorem pyDivMod (a m : Nat) (hm : 0 < m) :
    pyFloorDiv (a : Int) (m : Int) = .ok ((a / m : Nat) : Int) ∧ pyMod (a : Int) (m : Int) = .ok ((a % m : Nat) : Int) := by
  have : (m : Int) ≠ 0 := by omega
  unfold pyFloorDiv pyMod
  rw [if_neg this, if_neg this]
  constructor
  · congr 1
    rw [Int.fdiv_eq_ediv_of_nonneg _ (by omega)]; simp
  · congr 1
    rw [Int.fmod_eq_emod_of_nonneg _ (by omega)]; simp

/-- Reverse lookup on a row-major catalog built by its constructor from well-formed sequences with distinct
values: `key(value)` returns the key looked up to that value, and only it; other values raise
`ValueError`. -/
theorem C25_key_last (i j v : PyIter) (hi : i.WF) (hj : j.WF) (hv : v.WF) (hvn : v.toList.Nodup) (c : Catalog2)
    (hc : Catalog2.makeLastQuickest i j v = .ok c) (value : Int) :
    (value ∈ v.toList → ∃ k, c.key value = .ok k ∧ c.get k = .ok value ∧ ∀ k', c.get k' = .ok value → k' = k) ∧
    (value ∉ v.toList → c.key value = .error .valueError ∧ ∀ k', c.get k' ≠ .ok value) := by
  unfold Catalog2.makeLastQuickest Catalog2.checkRanges at hc
  split at hc
  · cases hc
  rename_i hlen
  push Not at hlen
  rw [PyIter.len_eq, PyIter.len_eq, PyIter.len_eq] at hlen
  simp only [bind, Except.bind, pure, Except.pure] at hc
  cases hsi : isSorted i id false true with
  | error e => rw [hsi] at hc; cases hc
  | ok bi =>
    rw [hsi] at hc
    cases bi with
    | false => cases hc
    | true =>
      cases hsj : isSorted j id false true with
      | error e => rw [hsj] at hc; cases hc
      | ok bj =>
        rw [hsj] at hc
        cases bj with
        | false => cases hc
        | true =>
          cases hc
          have hin := SortedFrozenSet.sorted_nodup (PyIter.isSorted_true i hi hsi)
          have hjn := SortedFrozenSet.sorted_nodup (PyIter.isSorted_true j hj hsj)
          obtain ⟨hget, hmiss, _⟩ := quickest_get i j v hi hj hin hjn
          -- any successful lookup comes from a position
          have hback : ∀ k' w, (Catalog2.lastQuickest i j v).get k' = .ok w →
              ∃ a b, ∃ ha : a < i.toList.length, ∃ hb : b < j.toList.length, k' = (i.toList[a], j.toList[b]) ∧
                ∃ hp : a * j.toList.length + b < v.toList.length, v.toList[a * j.toList.length + b] = w := by
            intro k' w h
            by_cases hk : k'.1 ∈ i.toList ∧ k'.2 ∈ j.toList
            · obtain ⟨a, ha, ea⟩ := List.mem_iff_getElem.mp hk.1
              obtain ⟨b, hb, eb⟩ := List.mem_iff_getElem.mp hk.2
              have hkeq : k' = (i.toList[a], j.toList[b]) := by rw [ea, eb]
              have hlt : a * j.toList.length + b < v.toList.length := by
                rw [← hlen]
                calc a * j.toList.length + b < a * j.toList.length + j.toList.length := by omega
                  _ = (a + 1) * j.toList.length := by ring
                  _ ≤ i.toList.length * j.toList.length := Nat.mul_le_mul_right _ ha
              refine ⟨a, b, ha, hb, hkeq, hlt, ?_⟩
              rw [hkeq, (hget a b ha hb).1, PyIter.get_eq, pyGet_nat _ _ hlt] at h
              simpa using h
            · rw [(hmiss k' hk).1] at h; cases h
          constructor
          · intro hval
            obtain ⟨p, hp, ep⟩ := List.mem_iff_getElem.mp hval
            obtain ⟨h1, h2⟩ := divmod_lt (hlen ▸ hp) rfl
            have hm : 0 < j.toList.length := by omega
            have hidx := PyIter.index_ok v hv hvn p hp
            rw [ep] at hidx
            have hdm := pyDivMod p j.toList.length hm
            refine ⟨(i.toList[p / j.toList.length], j.toList[p % j.toList.length]), ?_, ?_, ?_⟩
            · simp only [Catalog2.key, hidx, PyIter.len_eq, bind, Except.bind, hdm.1, hdm.2, PyIter.get_eq,
                pyGet_nat _ _ h1, pyGet_nat _ _ h2, pure, Except.pure]
            · rw [(hget _ _ h1 h2).1, PyIter.get_eq]
              have e : p / j.toList.length * j.toList.length + p % j.toList.length = p := by
                rw [mul_comm]; exact Nat.div_add_mod p _
              rw [e, pyGet_nat _ _ hp, ep]
            · intro k' hk'
              obtain ⟨a, b, ha, hb, hkeq, hlt, ew⟩ := hback k' value hk'
              have : a * j.toList.length + b = p := (List.Nodup.getElem_inj_iff hvn).mp (ew.trans ep.symm)
              have ea : a = p / j.toList.length := by
                rw [← this, mul_comm, Nat.mul_add_div hm, Nat.div_eq_of_lt hb, add_zero]
              have eb : b = p % j.toList.length := by
                rw [← this, mul_comm, Nat.mul_add_mod, Nat.mod_eq_of_lt hb]
              subst ea eb
              exact hkeq
          · intro hval
            constructor
            · simp only [Catalog2.key, PyIter.index_error v hv value hval]
            · intro k' hk'
              obtain ⟨a, b, ha, hb, _, hlt, ew⟩ := hback k' value hk'
              exact hval (ew ▸ List.getElem_mem hlt)

/-- The same for a column-major catalog. -/
theorem C25_key_first (i j v : PyIter) (hi : i.WF) (hj : j.WF) (hv : v.WF) (hvn : v.toList.Nodup) (c : Catalog2)
    (hc : Catalog2.makeFirstQuickest i j v = .ok c) (value : Int) :
    (value ∈ v.toList → ∃ k, c.key value = .ok k ∧ c.get k = .ok value ∧ ∀ k', c.get k' = .ok value → k' = k) ∧
    (value ∉ v.toList → c.key value = .error .valueError ∧ ∀ k', c.get k' ≠ .ok value) := by
  unfold Catalog2.makeFirstQuickest Catalog2.checkRanges at hc
  split at hc
  · cases hc
  rename_i hlen
  push Not at hlen
  rw [PyIter.len_eq, PyIter.len_eq, PyIter.len_eq] at hlen
  simp only [bind, Except.bind, pure, Except.pure] at hc
  cases hsi : isSorted i id false true with
  | error e => rw [hsi] at hc; cases hc
  | ok bi =>
    rw [hsi] at hc
    cases bi with
    | false => cases hc
    | true =>
      cases hsj : isSorted j id false true with
      | error e => rw [hsj] at hc; cases hc
      | ok bj =>
        rw [hsj] at hc
        cases bj with
        | false => cases hc
        | true =>
          cases hc
          have hin := SortedFrozenSet.sorted_nodup (PyIter.isSorted_true i hi hsi)
          have hjn := SortedFrozenSet.sorted_nodup (PyIter.isSorted_true j hj hsj)
          obtain ⟨hget, hmiss, _⟩ := quickest_get i j v hi hj hin hjn
          have hback : ∀ k' w, (Catalog2.firstQuickest i j v).get k' = .ok w →
              ∃ a b, ∃ ha : a < i.toList.length, ∃ hb : b < j.toList.length, k' = (i.toList[a], j.toList[b]) ∧
                ∃ hp : b * i.toList.length + a < v.toList.length, v.toList[b * i.toList.length + a] = w := by
            intro k' w h
            by_cases hk : k'.1 ∈ i.toList ∧ k'.2 ∈ j.toList
            · obtain ⟨a, ha, ea⟩ := List.mem_iff_getElem.mp hk.1
              obtain ⟨b, hb, eb⟩ := List.mem_iff_getElem.mp hk.2
              have hkeq : k' = (i.toList[a], j.toList[b]) := by rw [ea, eb]
              have hlt : b * i.toList.length + a < v.toList.length := by
                rw [← hlen]
                calc b * i.toList.length + a < b * i.toList.length + i.toList.length := by omega
                  _ = (b + 1) * i.toList.length := by ring
                  _ ≤ j.toList.length * i.toList.length := Nat.mul_le_mul_right _ hb
                  _ = i.toList.length * j.toList.length := mul_comm _ _
              refine ⟨a, b, ha, hb, hkeq, hlt, ?_⟩
              rw [hkeq, (hget a b ha hb).2, PyIter.get_eq, pyGet_nat _ _ hlt] at h
              simpa using h
            · rw [(hmiss k' hk).2] at h; cases h
          constructor
          · intro hval
            obtain ⟨p, hp, ep⟩ := List.mem_iff_getElem.mp hval
            have hp' : p < j.toList.length * i.toList.length := by rw [mul_comm, hlen]; exact hp
            obtain ⟨h1, h2⟩ := divmod_lt hp' rfl
            have hm : 0 < i.toList.length := by omega
            have hidx := PyIter.index_ok v hv hvn p hp
            rw [ep] at hidx
            have hdm := pyDivMod p i.toList.length hm
            refine ⟨(i.toList[p % i.toList.length], j.toList[p / i.toList.length]), ?_, ?_, ?_⟩
            · simp only [Catalog2.key, hidx, PyIter.len_eq, bind, Except.bind, hdm.1, hdm.2, PyIter.get_eq,
                pyGet_nat _ _ h1, pyGet_nat _ _ h2, pure, Except.pure]
            · rw [(hget _ _ h2 h1).2, PyIter.get_eq]
              have e : p / i.toList.length * i.toList.length + p % i.toList.length = p := by
                rw [mul_comm]; exact Nat.div_add_mod p _
              rw [e, pyGet_nat _ _ hp, ep]
            · intro k' hk'
              obtain ⟨a, b, ha, hb, hkeq, hlt, ew⟩ := hback k' value hk'
              have : b * i.toList.length + a = p := (List.Nodup.getElem_inj_iff hvn).mp (ew.trans ep.symm)
              have eb : b = p / i.toList.length := by
                rw [← this, mul_comm, Nat.mul_add_div hm, Nat.div_eq_of_lt ha, add_zero]
              have ea : a = p % i.toList.length := by
                rw [← this, mul_comm, Nat.mul_add_mod, Nat.mod_eq_of_lt ha]
              subst ea eb
              exact hkeq
          · intro hval
            constructor
            · simp only [Catalog2.key, PyIter.index_error v hv value hval]
            · intro k' hk'
              obtain ⟨a, b, ha, hb, _, hlt, ew⟩ := hback k' value hk'
              exact hval (ew ▸ List.getElem_mem hlt)

example : ∃ c, Catalog2.makeLastQuickest (.range ⟨1, 3, 1, by decide⟩) (.range ⟨5, 9, 2, by decide⟩)
    (.range ⟨9, -3, -3, by decide⟩) = .ok c ∧ c.key 6 = .ok (1, 7) ∧ c.get (1, 7) = .ok 6 :=
  ⟨_, rfl, by decide +kernel, by decide +kernel⟩

end Segpy.Props
