import Verif.Spec.Catalog
import Verif.Props.Util
import Mathlib.Tactic.FieldSimp
import Mathlib.Data.List.ProdSigma
import Mathlib.Data.Finset.Prod

/-! # Lemmas about catalogs -/

namespace Segpy

/-! ## Ordered dictionaries -/

section OD
variable {κ ν : Type} [DecidableEq κ]

theorem odictSet_new (d : List (κ × ν)) (k : κ) (v : ν) (h : k ∉ d.map Prod.fst) :
    odictSet d k v = d ++ [(k, v)] := by
  induction d with
  | nil => rfl
  | cons p d ih =>
    obtain ⟨k', v'⟩ := p
    simp only [List.map_cons, List.mem_cons, not_or] at h
    unfold odictSet
    rw [if_neg (fun e => h.1 e.symm), ih h.2]
    rfl

theorem odictOf_nodup (items : List (κ × ν)) (h : (items.map Prod.fst).Nodup) : odictOf items = items := by
  suffices H : ∀ (rest d : List (κ × ν)), ((d ++ rest).map Prod.fst).Nodup →
      rest.foldl (fun d p => odictSet d p.1 p.2) d = d ++ rest from H items [] (by simpa using h)
  intro rest
  induction rest with
  | nil => intro d _; simp
  | cons p rest ih =>
    intro d hd
    have hnot : p.1 ∉ d.map Prod.fst := by
      intro hm
      rw [List.map_append, List.map_cons, List.nodup_append] at hd
      exact hd.2.2 p.1 hm p.1 List.mem_cons_self rfl
    rw [List.foldl_cons, odictSet_new _ _ _ hnot, ih _ (by simpa using hd)]
    simp

theorem odictGet_mem (d : List (κ × ν)) (h : (d.map Prod.fst).Nodup) (k : κ) (v : ν) (hm : (k, v) ∈ d) :
    odictGet d k = .ok v := by
  induction d with
  | nil => cases hm
  | cons p d ih =>
    obtain ⟨k', v'⟩ := p
    rw [List.map_cons, List.nodup_cons] at h
    unfold odictGet
    rcases List.mem_cons.mp hm with e | hm
    · cases e; rw [if_pos rfl]
    · rw [if_neg, ih h.2 hm]
      rintro rfl
      exact h.1 (List.mem_map.mpr ⟨_, hm, rfl⟩)

theorem odictGet_not_mem (d : List (κ × ν)) (k : κ) (h : k ∉ d.map Prod.fst) :
    odictGet d k = .error .keyError := by
  induction d with
  | nil => rfl
  | cons p d ih =>
    obtain ⟨k', v'⟩ := p
    simp only [List.map_cons, List.mem_cons, not_or] at h
    unfold odictGet
    rw [if_neg (fun e => h.1 e.symm), ih h.2]

theorem odictContains_eq (d : List (κ × ν)) (k : κ) : odictContains d k = decide (k ∈ d.map Prod.fst) := by
  unfold odictContains
  rw [Bool.eq_iff_iff, List.any_eq_true, decide_eq_true_iff, List.mem_map]
  simp only [decide_eq_true_iff]

end OD

/-! ## Duplicate detection after sorting -/

theorem containsDuplicates_of_sorted {α β : Type} [DecidableEq α] [LinearOrder β] (f : α → β)
    (hf : Function.Injective f) (l : List α) (hne : l ≠ []) (h : (l.map f).Pairwise (· ≤ ·)) :
    containsDuplicates l = .ok (decide (¬ l.Nodup)) := by
  have h1 := Props.C57_duplicates (l.map f) (by simpa using hne) h
  cases l with
  | nil => exact absurd rfl hne
  | cons a l =>
    simp only [containsDuplicates, pairwise, bind, Except.bind, pure, Except.pure, List.map_cons] at h1 ⊢
    rw [Except.ok.injEq] at h1 ⊢
    have e : List.zip (f a :: l.map f) (l.map f) = (List.zip (a :: l) l).map (Prod.map f f) := by
      rw [← List.map_cons, List.zip_map]
    rw [e, List.any_map] at h1
    have e2 : (fun p : α × α => decide (p.1 = p.2)) = (fun p : β × β => decide (p.1 = p.2)) ∘ Prod.map f f := by
      funext p
      simp only [Function.comp, Prod.map, decide_eq_decide]
      exact hf.eq_iff.symm
    rw [e2, h1, decide_eq_decide, ← List.map_cons, List.nodup_map_iff hf]

/-! ## Regular key lists -/

section Reg
variable {ks : List Int} {d : Int} (hc : ks.IsChain (fun a b => b - a = d)) (hd : 0 < d) (h0 : 0 < ks.length)
include hc hd h0

omit hd in
theorem reg_last : ks[ks.length - 1] = ks[0] + ((ks.length : Int) - 1) * d := by
  have := chain_getElem hc h0 (ks.length - 1) (by omega)
  rw [this]
  have e : (((ks.length - 1 : Nat)) : Int) = (ks.length : Int) - 1 := by omega
  rw [e]

theorem reg_le : ks[0] ≤ ks[ks.length - 1] := by
  rw [reg_last hc h0]
  have : (0 : Int) ≤ (ks.length : Int) - 1 := by omega
  nlinarith

theorem reg_mod : pyMod (ks[ks.length - 1] - ks[0]) d = .ok 0 := by
  unfold pyMod
  rw [if_neg hd.ne', reg_last hc h0]
  congr 1
  rw [add_sub_cancel_left]
  exact Int.mul_fmod_left _ _

theorem reg_div : pyFloorDiv (ks[ks.length - 1] - ks[0]) d = .ok ((ks.length : Int) - 1) := by
  unfold pyFloorDiv
  rw [if_neg hd.ne', reg_last hc h0, add_sub_cancel_left]
  congr 1
  exact Int.mul_fdiv_cancel _ hd.ne'

theorem reg_mem (k : Int) (hk : k ∈ ks) : ∃ i : Nat, ∃ hi : i < ks.length, ks[i] = k ∧
    ks[0] ≤ k ∧ k ≤ ks[ks.length - 1] ∧ pyMod (k - ks[0]) d = .ok 0 ∧ pyFloorDiv (k - ks[0]) d = .ok i ∧
    k - ks[0] = i * d := by
  obtain ⟨i, hi, rfl⟩ := List.mem_iff_getElem.mp hk
  have e := chain_getElem hc h0 i hi
  have hl := reg_last hc h0
  have hi1 : (i : Int) ≤ (ks.length : Int) - 1 := by omega
  have hi0 : (0 : Int) ≤ i := by omega
  have e2 : ks[i] - ks[0] = i * d := by rw [e]; ring
  refine ⟨i, hi, rfl, ?_, ?_, ?_, ?_, e2⟩
  · rw [e]; nlinarith
  · rw [e, hl]; nlinarith
  · unfold pyMod
    rw [if_neg hd.ne', e2, Int.mul_fmod_left]
  · unfold pyFloorDiv
    rw [if_neg hd.ne', e2, Int.mul_fdiv_cancel _ hd.ne']

theorem reg_not_mem (k : Int) (hk : k ∉ ks) (h1 : ks[0] ≤ k) (h2 : k ≤ ks[ks.length - 1]) :
    ∃ r, pyMod (k - ks[0]) d = .ok r ∧ r ≠ 0 := by
  unfold pyMod
  rw [if_neg hd.ne']
  refine ⟨_, rfl, ?_⟩
  intro hm
  apply hk
  have h3 := Int.fmod_add_mul_fdiv (k - ks[0]) d
  rw [hm, zero_add] at h3
  set q := (k - ks[0]).fdiv d with hq
  have hl := reg_last hc h0
  have hq0 : 0 ≤ q := by
    by_contra hneg
    have : d * q < 0 := mul_neg_of_pos_of_neg hd (by omega)
    omega
  have hq1 : q < ks.length := by
    by_contra hge
    have : (ks.length : Int) ≤ q := by omega
    have : d * (ks.length : Int) ≤ d * q := by nlinarith
    rw [hl] at h2
    nlinarith
  have e := chain_getElem hc h0 q.toNat (by omega)
  have e1 : ((q.toNat : Nat) : Int) = q := by omega
  rw [e1] at e
  have e2 : ks[q.toNat]'(by omega) = k := by rw [e]; linarith [mul_comm d q]
  rw [← e2]
  exact List.getElem_mem _

theorem reg_inRegular (k : Int) : Catalog1.inRegular ks[0] ks[ks.length - 1] d k = .ok (decide (k ∈ ks)) := by
  unfold Catalog1.inRegular
  by_cases hk : k ∈ ks
  · obtain ⟨i, hi, e, h1, h2, h3, _⟩ := reg_mem hc hd h0 k hk
    rw [if_pos ⟨h1, h2⟩, h3]
    simp [hk, bind, Except.bind, pure, Except.pure]
  · by_cases hb : ks[0] ≤ k ∧ k ≤ ks[ks.length - 1]
    · obtain ⟨r, h1, h2⟩ := reg_not_mem hc hd h0 k hk hb.1 hb.2
      rw [if_pos hb, h1]
      simp [hk, h2, bind, Except.bind, pure, Except.pure]
    · rw [if_neg hb]; simp [hk]

theorem reg_range : ∃ r, PyRange.make ks[0] (ks[ks.length - 1] + 1) d = .ok r ∧ r.toList = ks := by
  unfold PyRange.make
  rw [dif_neg hd.ne']
  refine ⟨_, rfl, ?_⟩
  set r : PyRange := ⟨ks[0], ks[ks.length - 1] + 1, d, hd.ne'⟩ with hr
  have hl := reg_last hc h0
  have hlt : ∀ i : Nat, i < r.len ↔ i < ks.length := by
    intro i
    rw [PyRange.lt_len_iff]
    simp only [hr, hd, true_and, show ¬ d < 0 by omega, false_and, or_false]
    rw [hl]
    constructor
    · intro h
      by_contra hcn
      have : (ks.length : Int) ≤ i := by omega
      nlinarith
    · intro h
      have : (i : Int) ≤ (ks.length : Int) - 1 := by omega
      nlinarith
  have hlen : r.len = ks.length := by
    apply le_antisymm
    · by_contra hcn; have := (hlt ks.length).mp (by omega); omega
    · by_contra hcn; have := (hlt r.len).mpr (by omega); omega
  apply List.ext_getElem
  · simp [hlen]
  · intro i h1 h2
    rw [PyRange.getElem_toList, chain_getElem hc h0 i h2]

end Reg

/-! ## Refinement of one-dimensional catalogs -/

theorem Refines1.perm {l m : List (Int × Int)} {c : Catalog1} (h : Refines1 l c) (p : l.Perm m) : Refines1 m c := by
  have pm := (p.map Prod.fst)
  refine ⟨?_, ?_, ?_, ?_, ?_⟩
  · intro k v hm; exact h.lookup k v (p.mem_iff.mpr hm)
  · intro k hm; exact h.missing k (fun hc => hm (pm.mem_iff.mp hc))
  · intro k; rw [h.contains k, decide_eq_decide.mpr pm.mem_iff]
  · rw [h.len, p.length_eq]
  · obtain ⟨ks, h1, h2, h3⟩ := h.iter
    exact ⟨ks, h1, h2, fun k => (h3 k).trans pm.mem_iff⟩

theorem refines_dictionary (l : List (Int × Int)) (h : (l.map Prod.fst).Pairwise (· < ·)) :
    Refines1 l (Catalog1.makeDictionary l) := by
  have hn := SortedFrozenSet.sorted_nodup h
  unfold Catalog1.makeDictionary
  rw [odictOf_nodup l hn]
  refine ⟨?_, ?_, ?_, rfl, ?_⟩
  · intro k v hm; exact odictGet_mem l hn k v hm
  · intro k hm; exact odictGet_not_mem l k hm
  · intro k; exact congrArg Except.ok (odictContains_eq l k)
  · exact ⟨_, rfl, h, fun _ => Iff.rfl⟩

theorem chain_pos_of_sorted {ks : List Int} {d : Int} (hc : ks.IsChain (fun a b => b - a = d))
    (hs : ks.Pairwise (· < ·)) (h2 : 2 ≤ ks.length) : 0 < d := by
  have h : ks[1] - ks[0] = d := (List.isChain_iff_getElem.mp hc) 0 (by omega)
  have h3 := (List.pairwise_iff_getElem.mp hs) 0 1 (by omega) (by omega) (by omega)
  omega

theorem createCatalog1_refines (l : List (Int × Int)) (hs : (l.map Prod.fst).Pairwise (· < ·)) :
    ∃ c, createCatalog1 l = .ok c ∧ Refines1 l c := by
  unfold createCatalog1
  by_cases hlen : l.length ≤ 1
  · rw [if_pos hlen]; exact ⟨_, rfl, refines_dictionary l hs⟩
  rw [if_neg hlen]
  have h0 : 0 < l.length := by omega
  have hne : l ≠ [] := List.length_pos_iff.mp h0
  rw [pyGet_zero l h0, pyGet_last l h0]
  obtain ⟨oi, hoi⟩ := measureStrideList_total (l.map Prod.fst) (by simpa using hne)
  obtain ⟨ov, hov⟩ := measureStrideList_total (l.map Prod.snd) (by simpa using hne)
  simp only [bind, Except.bind, hoi, hov]
  have hI := measureStrideList_eq (l.map Prod.fst) (by simpa using hne)
  have hV := measureStrideList_eq (l.map Prod.snd) (by simpa using hne)
  rw [hoi] at hI
  rw [hov] at hV
  simp only [List.length_map] at hI hV
  set ks := l.map Prod.fst with hks
  have hkl : ks.length = l.length := by rw [hks, List.length_map]
  have hk0 : l[0].1 = ks[0] := by simp [hks]
  have hkn : l[l.length - 1].1 = ks[ks.length - 1] := by simp [hks]
  -- constant values
  have hconst : ov = some 0 → ∀ p ∈ l, p.2 = l[0].2 := by
    intro h p hp
    obtain ⟨_, hvc⟩ := (hV 0).mp (by rw [h])
    obtain ⟨i, hi, rfl⟩ := List.mem_iff_getElem.mp hp
    have := chain_getElem hvc (by simpa using h0) i (by simpa using hi)
    simpa using this
  cases oi with
  | none =>
    simp only [reduceCtorEq, if_false]
    cases ov with
    | none => simp only [reduceCtorEq, if_false]; exact ⟨_, rfl, refines_dictionary l hs⟩
    | some v =>
      by_cases hv0 : v = 0
      · subst hv0
        have hcv := hconst rfl
        have hend : l[l.length - 1].2 = l[0].2 := hcv _ (List.getElem_mem _)
        simp only [hend, ne_eq, not_true_eq_false, if_false, if_true]
        refine ⟨_, rfl, ?_⟩
        unfold Catalog1.makeConstant
        have hit := SortedFrozenSet.ofList_of_sorted hs
        have hcont : ∀ k, (SortedFrozenSet.ofList ks).contains k = .ok (decide (k ∈ ks)) := by
          intro k
          rw [SortedFrozenSet.contains_eq (SortedFrozenSet.ofList_sorted ks), hit]
        refine ⟨?_, ?_, ?_, ?_, ?_⟩
        · intro k w hm
          have hk : k ∈ ks := List.mem_map.mpr ⟨_, hm, rfl⟩
          simp only [Catalog1.get, Catalog1.contains, hcont, bind, Except.bind, hk, decide_true, Bool.not_true,
            Bool.false_eq_true, if_false, pure, Except.pure]
          rw [← hcv _ hm]
        · intro k hk
          simp only [Catalog1.get, Catalog1.contains, hcont, bind, Except.bind]
          rw [decide_eq_false hk]
          rfl
        · intro k; exact hcont k
        · show Except.ok (((SortedFrozenSet.ofList ks).items.length : Nat) : Int) = _
          rw [hit, hkl]
        · refine ⟨_, rfl, ?_, ?_⟩
          · show (SortedFrozenSet.ofList ks).items.Pairwise _; rw [hit]; exact hs
          · intro k; show k ∈ (SortedFrozenSet.ofList ks).items ↔ _; rw [hit]
      · have hv1 : (some v : Option Int) ≠ some 0 := by simpa using hv0
        rw [if_neg hv1]
        exact ⟨_, rfl, refines_dictionary l hs⟩
  | some d =>
    obtain ⟨_, hc⟩ := (hI d).mp rfl
    have hd := chain_pos_of_sorted hc hs (by omega)
    have hk0' : 0 < ks.length := by omega
    have hdne : (some d : Option Int) ≠ some 0 := by simp; omega
    rw [if_neg hdne]
    obtain ⟨r, hr1, hr2⟩ := reg_range hc hd hk0'
    have hreg := reg_inRegular hc hd hk0'
    have hle := reg_le hc hd hk0'
    have hmod := reg_mod hc hd hk0'
    have hdiv := reg_div hc hd hk0'
    -- position of an entry
    have hpos : ∀ k v, (k, v) ∈ l → ∃ i : Nat, ∃ hi : i < l.length, l[i] = (k, v) ∧ ks[0] ≤ k ∧
        k ≤ ks[ks.length - 1] ∧ pyMod (k - ks[0]) d = .ok 0 ∧ pyFloorDiv (k - ks[0]) d = .ok i ∧ k - ks[0] = i * d := by
      intro k v hm
      obtain ⟨j, hj, e⟩ := List.mem_iff_getElem.mp hm
      have hkm : k ∈ ks := List.mem_map.mpr ⟨_, hm, rfl⟩
      obtain ⟨i, hi, e1, h⟩ := reg_mem hc hd hk0' k hkm
      have hjk : ks[j]'(by omega) = k := by simp [hks, e]
      have : i = j := (List.Nodup.getElem_inj_iff (SortedFrozenSet.sorted_nodup hs)).mp (e1.trans hjk.symm)
      subst this
      exact ⟨i, by omega, e, h⟩
    have hkeys : ∃ kk, (do return (← PyRange.make ks[0] (ks[ks.length - 1] + 1) d).toList : Res (List Int)) = .ok kk ∧
        kk.Pairwise (· < ·) ∧ ∀ k, k ∈ kk ↔ k ∈ ks := by
      refine ⟨ks, ?_, hs, fun _ => Iff.rfl⟩
      rw [hr1]; exact congrArg Except.ok hr2
    have hlenk : (do return 1 + (← pyFloorDiv (ks[ks.length - 1] - ks[0]) d) : Res Int) = .ok (l.length : Int) := by
      rw [hdiv]
      show Except.ok (1 + ((ks.length : Int) - 1)) = _
      rw [hkl]; congr 1; ring
    cases ov with
    | none =>
      -- RegularCatalog
      simp only
      unfold Catalog1.makeRegular
      rw [hk0, hkn, if_neg (by omega)]
      simp only [bind, Except.bind, hmod, hdiv, ne_eq, not_true_eq_false, if_false]
      rw [if_neg (by rw [hkl, List.length_map]; omega)]
      refine ⟨_, rfl, ?_, ?_, ?_, ?_, ?_⟩
      · intro k v hm
        obtain ⟨i, hi, e, h1, h2, h3, h4, _⟩ := hpos k v hm
        simp only [Catalog1.get, h1, h2, and_self, not_true_eq_false, if_false, bind, Except.bind, h3, h4, ne_eq]
        rw [pyGet_nat _ _ (by simpa using hi)]
        simp [e]
      · intro k hk
        simp only [Catalog1.get]
        by_cases hb : ks[0] ≤ k ∧ k ≤ ks[ks.length - 1]
        · obtain ⟨w, h1, h2⟩ := reg_not_mem hc hd hk0' k hk hb.1 hb.2
          simp only [hb, and_self, not_true_eq_false, if_false, bind, Except.bind, h1, ne_eq, h2, not_false_eq_true,
            if_true]
        · rw [if_pos hb]
      · intro k; exact hreg k
      · show Except.ok (((l.map Prod.snd).length : Nat) : Int) = _
        rw [List.length_map]
      · exact hkeys
    | some v =>
      obtain ⟨_, hvc⟩ := (hV v).mp rfl
      by_cases hv0 : v = 0
      · subst hv0
        have hcv := hconst rfl
        have hend : l[l.length - 1].2 = l[0].2 := hcv _ (List.getElem_mem _)
        simp only [hend, ne_eq, not_true_eq_false, if_false, if_true]
        unfold Catalog1.makeRegularConstant
        rw [hk0, hkn, if_neg (by omega)]
        simp only [bind, Except.bind, hmod, ne_eq, not_true_eq_false, if_false]
        refine ⟨_, rfl, ?_, ?_, ?_, ?_, ?_⟩
        · intro k w hm
          have hk : k ∈ ks := List.mem_map.mpr ⟨_, hm, rfl⟩
          simp only [Catalog1.get, Catalog1.contains, hreg, bind, Except.bind, hk, decide_true, Bool.not_true,
            Bool.false_eq_true, if_false, pure, Except.pure]
          rw [← hcv _ hm]
        · intro k hk
          simp only [Catalog1.get, Catalog1.contains, hreg, bind, Except.bind]
          rw [decide_eq_false hk]
          rfl
        · intro k; exact hreg k
        · exact hlenk
        · exact hkeys
      · -- LinearRegularCatalog
        have hval : ∀ i (hi : i < l.length), l[i].2 = l[0].2 + i * v := by
          intro i hi
          have := chain_getElem hvc (by simpa using h0) i (by simpa using hi)
          simpa using this
        have hvl : l[l.length - 1].2 - l[0].2 = ((l.length : Int) - 1) * v := by
          rw [hval _ (by omega)]
          have e : (((l.length - 1 : Nat)) : Int) = (l.length : Int) - 1 := by omega
          rw [e]; ring
        have hvmod : pyMod (l[l.length - 1].2 - l[0].2) v = .ok 0 := by
          unfold pyMod; rw [if_neg hv0, hvl, Int.mul_fmod_left]
        have hvdiv : pyFloorDiv (l[l.length - 1].2 - l[0].2) v = .ok ((l.length : Int) - 1) := by
          unfold pyFloorDiv; rw [if_neg hv0, hvl, Int.mul_fdiv_cancel _ hv0]
        have hklast := reg_last hc hk0'
        have hlt : ks[0] < ks[ks.length - 1] := by
          rw [hklast, hkl]
          have : (1 : Int) ≤ (l.length : Int) - 1 := by omega
          nlinarith
        simp only [hv0, if_false]
        unfold Catalog1.makeLinear
        rw [hk0, hkn, if_neg (by omega), if_neg (by omega)]
        simp only [bind, Except.bind, hmod, hdiv, hvmod, hvdiv, ne_eq, not_true_eq_false, if_false, hv0]
        rw [if_neg (by rw [hkl]; simp)]
        refine ⟨_, rfl, ?_, ?_, ?_, ?_, ?_⟩
        · intro k w hm
          obtain ⟨i, hi, e, h1, h2, h3, h4, h5⟩ := hpos k w hm
          have hw : w = l[0].2 + i * v := by rw [← hval i hi, e]
          have hq : ((l[l.length - 1].2 - l[0].2 : Int) : ℚ) / ((ks[ks.length - 1] - ks[0] : Int) : ℚ) *
              ((k - ks[0] : Int) : ℚ) + (l[0].2 : ℚ) = ((w : Int) : ℚ) := by
            rw [hvl, h5, hklast, add_sub_cancel_left, hkl, hw]
            push_cast
            have hn : ((l.length : ℚ) - 1) ≠ 0 := by
              have : (2 : ℚ) ≤ l.length := by exact_mod_cast (by omega : 2 ≤ l.length)
              intro h; linarith
            have hdq : (d : ℚ) ≠ 0 := by exact_mod_cast hd.ne'
            field_simp
            ring
          simp only [Catalog1.get, h1, h2, and_self, not_true_eq_false, if_false, bind, Except.bind, h3, ne_eq, hq]
          simp [pure, Except.pure]
        · intro k hk
          simp only [Catalog1.get]
          by_cases hb : ks[0] ≤ k ∧ k ≤ ks[ks.length - 1]
          · obtain ⟨w, h1, h2⟩ := reg_not_mem hc hd hk0' k hk hb.1 hb.2
            simp only [hb, and_self, not_true_eq_false, if_false, bind, Except.bind, h1, ne_eq, h2,
              not_false_eq_true, if_true]
          · rw [if_pos hb]
        · intro k; exact hreg k
        · exact hlenk
        · exact hkeys

end Segpy
