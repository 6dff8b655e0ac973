import Verif.Lemmas.Selection
import Verif.Lemmas.Reader2
import Verif.Props.Reader

/-! # The sequences of line numbers of a reader -/

namespace Segpy

open FileM

theorem res_bind_ok {α β : Type} {m : Res α} {f : α → Res β} {b : β} (h : (m >>= f) = .ok b) :
    ∃ a, m = .ok a ∧ f a = .ok b := by
  cases m with
  | error e => cases h
  | ok a => exact ⟨a, rfl, h⟩

theorem makeSorted_gen_canonical {l : List Int} {out : PyIter}
    (h : makeSortedDistinctSequence (.gen l) (some .ascending) = .ok out) : Canonical out := by
  by_cases hl : l = []
  · subst hl
    cases h
  · obtain ⟨x, hx⟩ := List.exists_mem_of_ne_nil _ hl
    obtain ⟨out', h1, -, h2, -⟩ := makeSorted_shape (.gen l) rfl (SortedFrozenSet.ofList_sorted l)
      (List.ne_nil_of_mem ((SortedFrozenSet.mem_ofList l x).mpr hx))
    rw [h] at h1
    cases h1
    exact h2

theorem makeSortedRanges_canonical {l : List ((Int × Int) × Int)} {i j v : PyIter}
    (h : makeSortedRanges l = .ok (some (i, j, v))) : Canonical i ∧ Canonical j := by
  unfold makeSortedRanges at h
  obtain ⟨i', h1, h⟩ := res_bind_ok h
  obtain ⟨j', h2, h⟩ := res_bind_ok h
  have key : i = i' ∧ j = j' := by
    split at h
    · cases h
    · obtain ⟨up, h3, h⟩ := res_bind_ok h
      have rest : ∀ ordered : Bool, (if (!ordered) = true then pure none
          else do
            let v_sorted ← makeSortedDistinctSequence (.list (l.map fun e => e.2)) none
            if (!(i'.isRange && j'.isRange && v_sorted.isRange)) = true then pure none
            else pure (some (i', j', v_sorted)) : Res (Option (PyIter × PyIter × PyIter))) = .ok (some (i, j, v)) →
          i = i' ∧ j = j' := by
        intro ordered h
        split at h
        · cases h
        · obtain ⟨v', h5, h⟩ := res_bind_ok h
          split at h
          · cases h
          · cases h
            exact ⟨rfl, rfl⟩
      cases up with
      | true => exact rest true h
      | false =>
        obtain ⟨ordered, h4, h⟩ := res_bind_ok h
        exact rest ordered h
  rw [key.1, key.2]
  exact ⟨makeSorted_gen_canonical h1, makeSorted_gen_canonical h2⟩

theorem createCatalog2_canonical {l : List ((Int × Int) × Int)} {c : Catalog2} (h : createCatalog2 l = .ok c) :
    Canonical c.iRange ∧ Canonical c.jRange := by
  have htruthy : ∀ {o : Option Catalog2} {c : Catalog2}, truthy o = some c → o = some c := by
    intro o c ho
    cases o with
    | none => cases ho
    | some d =>
      unfold truthy at ho
      simp only at ho
      split at ho
      · exact ho
      · cases ho
  have hlast : ∀ {l : List ((Int × Int) × Int)} {c : Catalog2} {m}, makeLastIndexVariesQuickest l = .ok (some c, m) →
      Canonical c.iRange ∧ Canonical c.jRange := by
    intro l c m h
    unfold makeLastIndexVariesQuickest at h
    obtain ⟨o, h1, h⟩ := res_bind_ok h
    cases o with
    | none => cases h
    | some x =>
      obtain ⟨i, j, v⟩ := x
      obtain ⟨d, h2, h⟩ := res_bind_ok h
      cases h
      unfold Catalog2.makeLastQuickest at h2
      split at h2
      · cases h2
      · obtain ⟨_, _, h2⟩ := res_bind_ok h2
        cases h2
        exact makeSortedRanges_canonical h1
  have hfirst : ∀ {l : List ((Int × Int) × Int)} {c : Catalog2} {m}, makeFirstIndexVariesQuickest l = .ok (some c, m) →
      Canonical c.iRange ∧ Canonical c.jRange := by
    intro l c m h
    unfold makeFirstIndexVariesQuickest at h
    obtain ⟨o, h1, h⟩ := res_bind_ok h
    cases o with
    | none => cases h
    | some x =>
      obtain ⟨i, j, v⟩ := x
      obtain ⟨d, h2, h⟩ := res_bind_ok h
      cases h
      unfold Catalog2.makeFirstQuickest at h2
      split at h2
      · cases h2
      · obtain ⟨_, _, h2⟩ := res_bind_ok h2
        cases h2
        exact makeSortedRanges_canonical h1
  unfold createCatalog2 at h
  obtain ⟨⟨o, m⟩, h1, h⟩ := res_bind_ok h
  simp only at h
  cases ht : truthy o with
  | some d =>
    rw [ht] at h
    cases h
    rw [htruthy ht] at h1
    exact hlast h1
  | none =>
    rw [ht] at h
    obtain ⟨⟨o', m'⟩, h2, h⟩ := res_bind_ok h
    simp only at h
    cases ht' : truthy o' with
    | some d =>
      rw [ht'] at h
      cases h
      rw [htruthy ht'] at h2
      exact hfirst h2
    | none =>
      rw [ht'] at h
      simp only at h
      unfold makeDictionaryCatalog2D at h
      obtain ⟨i, g1, h⟩ := res_bind_ok h
      obtain ⟨j, g2, h⟩ := res_bind_ok h
      unfold Catalog2.makeDictionary at h
      obtain ⟨_, _, h⟩ := res_bind_ok h
      obtain ⟨d, _, h⟩ := res_bind_ok h
      cases h
      exact ⟨makeSorted_gen_canonical g1, makeSorted_gen_canonical g2⟩

theorem createCatalogPair_canonical {l : List ((Int × Int) × Int)} {c : Catalog2}
    (h : createCatalogPair l = .ok (some c)) : Canonical c.iRange ∧ Canonical c.jRange := by
  unfold createCatalogPair at h
  obtain ⟨b, _, h⟩ := res_bind_ok h
  split at h
  · cases h
  · obtain ⟨d, h2, h⟩ := res_bind_ok h
    cases h
    exact createCatalog2_canonical h2

/-- The sequences of inline and crossline numbers of a reader that was opened are of the usual kind. -/
theorem createReader_canonical {encoding : Option Encoding} {B T : Format} {e : Endian} {dim : Option Int} {s s' : FileH}
    {r : Reader} {progress : List ℚ} (h : createReader encoding B T e dim s = (.ok (r, progress), s')) :
    (∀ x r', r.inlineNumbers = .ok (x, r') → Canonical x) ∧ (∀ x r', r.xlineNumbers = .ok (x, r') → Canonical x) := by
  obtain ⟨enc, textual, binary, extended, bps, catalogs, k1, k2, k3, k4, -, -, -, -, -, hc, hm, -⟩ := createReader_ok h
  have hline : ∀ c, catalogs.line = some c → Canonical c.iRange ∧ Canonical c.jRange := by
    intro c hl
    unfold catalogTraces catalogTracesFuel at hc
    obtain ⟨_, _, _, hc⟩ := bind_eq_ok hc
    obtain ⟨_, _, _, hc⟩ := bind_eq_ok hc
    obtain ⟨_, _, _, hc⟩ := bind_eq_ok hc
    obtain ⟨_, _, _, hc⟩ := bind_eq_ok hc
    obtain ⟨scan, _, _, hc⟩ := bind_eq_ok hc
    obtain ⟨hc, _⟩ := lift_eq_ok hc
    unfold Scan.create at hc
    obtain ⟨_, _, hc⟩ := res_bind_ok hc
    obtain ⟨_, _, hc⟩ := res_bind_ok hc
    obtain ⟨_, _, hc⟩ := res_bind_ok hc
    obtain ⟨o, ho, hc⟩ := res_bind_ok hc
    cases hc
    simp only at hl
    rw [hl] at ho
    exact createCatalogPair_canonical ho
  have hkind : ∀ line a b, r.kind = .threeD line a b →
      a = none ∧ b = none ∧ ∀ c, line = some c → catalogs.line = some c := by
    intro line a b hk
    have hmake : ∀ {offsets lengths kind r}, Reader.make textual binary extended offsets lengths T enc e kind = .ok r →
        r.kind = kind := by
      intro offsets lengths kind r hr
      unfold Reader.make at hr
      obtain ⟨_, _, hr⟩ := res_bind_ok hr
      obtain ⟨_, _, hr⟩ := res_bind_ok hr
      obtain ⟨_, _, hr⟩ := res_bind_ok hr
      cases hr
      rfl
    unfold makeReaderOf at hm
    simp only at hm
    split at hm
    · cases hm
    obtain ⟨_, _, hm⟩ := res_bind_ok hm
    obtain ⟨_, _, hm⟩ := res_bind_ok hm
    obtain ⟨_, _, hm⟩ := res_bind_ok hm
    split at hm
    · rw [hmake hm] at hk; cases hk
    split at hm
    · rw [hmake hm] at hk; cases hk
    rw [hmake hm] at hk
    injection hk with e1 e2 e3
    refine ⟨e2.symm, e3.symm, ?_⟩
    intro c hc
    rw [hc] at e1
    cases hl : catalogs.line with
    | none => rw [hl] at e1; cases e1
    | some d =>
      rw [hl] at e1
      unfold catalogOrEmpty2 at e1
      simp only at e1
      split at e1
      · exact e1
      · cases e1
  constructor
  all_goals
    intro x r' hx
    simp only [Reader.inlineNumbers, Reader.xlineNumbers] at hx
    cases hk : r.kind with
    | plain => rw [hk] at hx; cases hx
    | twoD a b => rw [hk] at hx; cases hx
    | threeD line a b =>
      obtain ⟨rfl, rfl, hl⟩ := hkind line a b hk
      rw [hk] at hx
      cases line with
      | none => cases hx
      | some c =>
        cases hx
        first
          | exact (hline c (hl c rfl)).1
          | exact (hline c (hl c rfl)).2

end Segpy
