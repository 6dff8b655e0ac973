import Verif.Lemmas.Catalog

/-! # Lemmas about two-dimensional catalogs -/

namespace Segpy

/-- Class invariant of the sorted containers: their items are strictly increasing. -/
def PyIter.WF : PyIter → Prop
  | .sfs s => s.items.Pairwise (· < ·)
  | .rev s => s.items.Pairwise (· < ·)
  | _ => True

theorem indexLoop_spec (x : Int) : ∀ (l : List Int) (k : Nat),
    (∀ i (hi : i < l.length), l.Nodup → l[i] = x → indexLoop x k l = .ok ((k + i : Nat) : Int)) ∧
    (x ∉ l → indexLoop x k l = .error .valueError)
  | [], k => by simp [indexLoop]
  | y :: l, k => by
    obtain ⟨h1, h2⟩ := indexLoop_spec x l (k + 1)
    constructor
    · intro i hi hn e
      unfold indexLoop
      cases i with
      | zero => rw [if_pos (by simpa using e)]; rfl
      | succ i =>
        rw [List.nodup_cons] at hn
        have hne : y ≠ x := by
          rintro rfl
          exact hn.1 (by rw [← e]; exact List.getElem_mem _)
        rw [if_neg hne, h1 i (by simpa using hi) hn.2 (by simpa using e)]
        congr 2; omega
    · intro hm
      simp only [List.mem_cons, not_or] at hm
      unfold indexLoop
      rw [if_neg (fun e => hm.1 e.symm), h2 hm.2]

theorem rev_index (l : List Int) (hn : l.Nodup) (x : Int) :
    (∀ i (hi : i < l.reverse.length), l.reverse[i] = x → (PySeq.rev (.list l)).index x = .ok (i : Int)) ∧
    (x ∉ l → (PySeq.rev (.list l)).index x = .error .valueError) := by
  constructor
  · intro i hi e
    have hx : x ∈ l := by rw [← e]; exact List.mem_reverse.mp (List.getElem_mem _)
    have hcount : l.count x = 1 := List.count_eq_one_of_mem hn hx
    unfold PySeq.index
    simp only [PySeq.count, hcount, if_true]
    rw [List.getElem_reverse] at e
    have h := (indexLoop_spec x l 0).1 _ (by simp at hi; omega) hn e
    simp only [PySeq.index, h, bind, Except.bind]
    simp only [List.length_reverse] at hi
    unfold PySeq.reverseIndex PySeq.len
    have h1 : ¬ (((0 + (l.length - 1 - i) : Nat) : Int) < 0) := by omega
    have h2 : (0 : Int) ≤ ((0 + (l.length - 1 - i) : Nat) : Int) := by omega
    have h3 : ((0 + (l.length - 1 - i) : Nat) : Int) < l.length := by omega
    simp only [h1, h2, h3, if_false, decide_true, Bool.and_self, Bool.not_true, Bool.false_eq_true]
    congr 1; omega
  · intro hx
    have hcount : l.count x = 0 := List.count_eq_zero.mpr hx
    unfold PySeq.index
    simp only [PySeq.count, hcount, PySeq.toList, bind, Except.bind]
    exact (indexLoop_spec x l.reverse 0).2 (fun h => hx (List.mem_reverse.mp h))

namespace PyIter

theorem contains_eq (it : PyIter) (hw : it.WF) (x : Int) : it.contains x = .ok (decide (x ∈ it.toList)) := by
  cases it with
  | list l => rfl
  | gen l => rfl
  | range r =>
    show Except.ok (r.contains x) = _
    congr 1
    rw [Bool.eq_iff_iff, PyRange.contains_iff, decide_eq_true_iff]
    rfl
  | sfs s => exact SortedFrozenSet.contains_eq hw x
  | rev s =>
    show s.contains x = _
    rw [SortedFrozenSet.contains_eq hw x]
    simp [toList]

theorem index_ok (it : PyIter) (hw : it.WF) (hn : it.toList.Nodup) (i : Nat) (hi : i < it.toList.length) :
    it.index it.toList[i] = .ok (i : Int) := by
  cases it with
  | list l =>
    have h := (indexLoop_spec l[i] l 0).1 i hi hn rfl
    rw [Nat.zero_add] at h
    exact h
  | gen l =>
    have h := (indexLoop_spec l[i] l 0).1 i hi hn rfl
    rw [Nat.zero_add] at h
    exact h
  | range r =>
    have hi' : i < r.toList.length := hi
    have e : (range r).toList[i]'hi = r.start + i * r.step := PyRange.getElem_toList r i hi'
    refine (congrArg _ e).trans ?_
    show (do return (((← r.index (r.start + i * r.step)) : Nat) : Int)) = _
    rw [PyRange.index_of_mem r i (by simpa using hi')]
    rfl
  | sfs s =>
    show (do return (((← s.index s.items[i]) : Nat) : Int)) = _
    rw [SortedFrozenSet.index_ok hw i hi]
    rfl
  | rev s => exact (rev_index s.items (SortedFrozenSet.sorted_nodup hw) _).1 i hi rfl

theorem index_error (it : PyIter) (hw : it.WF) (x : Int) (hx : x ∉ it.toList) :
    it.index x = .error .valueError := by
  cases it with
  | list l => exact (indexLoop_spec x l 0).2 hx
  | gen l => exact (indexLoop_spec x l 0).2 hx
  | range r =>
    show (do return (((← r.index x) : Nat) : Int)) = _
    rw [PyRange.index_of_not_mem r x hx]
    rfl
  | sfs s =>
    show (do return (((← s.index x) : Nat) : Int)) = _
    rw [SortedFrozenSet.index_error hw x hx]
    rfl
  | rev s => exact (rev_index s.items (SortedFrozenSet.sorted_nodup hw) _).2 (fun h => hx (List.mem_reverse.mpr h))

theorem isSorted_true (it : PyIter) (hw : it.WF) (h : isSorted it id false true = .ok true) :
    it.toList.Pairwise (· < ·) := by
  have gen : ∀ l : List Int, (do
      let ps ← pairwise (l.map id)
      return ps.all fun p => sortOp false true p.1 p.2 : Res Bool) = .ok true → l.Pairwise (· < ·) := by
    intro l hl
    by_cases hne : l = []
    · subst hne; exact List.Pairwise.nil
    · rw [List.map_id] at hl
      have := pairwise_all (fun a b : Int => a < b) l hne
      have e : (do
        let ps ← pairwise l
        return ps.all fun p => sortOp false true p.1 p.2 : Res Bool) = .ok (decide (l.IsChain (· < ·))) := by
        rw [← this]; rfl
      rw [e] at hl
      have : decide (l.IsChain (· < ·)) = true := by simpa using hl
      exact List.isChain_iff_pairwise.mp (of_decide_eq_true this)
  cases it with
  | list l => exact gen l h
  | gen l => exact gen l h
  | range r =>
    rcases lt_or_gt_of_ne r.step_ne with hs | hs
    · have : (do
        let ps ← pairwise (r.toList.map id)
        return ps.all fun p => sortOp false true p.1 p.2 : Res Bool) = .ok true := by
        rw [← h]
        unfold isSorted
        simp only [PyIter.toList]
        rw [if_neg (by omega)]
      exact gen r.toList this
    · exact range_sorted_pos r hs
  | sfs s => exact hw
  | rev s => exact gen s.items.reverse h

/-- Sorted, distinct and non-empty containers pass the check of `Catalog2D`. -/
theorem isSorted_of (it : PyIter) (hne : it.toList ≠ []) (hs : it.toList.Pairwise (· < ·)) :
    isSorted it id false true = .ok true := by
  have gen : (do
      let ps ← pairwise (it.toList.map id)
      return ps.all fun p => sortOp false true p.1 p.2 : Res Bool) = .ok true := by
    rw [List.map_id]
    have := pairwise_all (fun a b : Int => a < b) it.toList hne
    rw [decide_eq_true (List.isChain_iff_pairwise.mpr hs)] at this
    rw [← this]; rfl
  cases it with
  | list l => exact gen
  | gen l => exact gen
  | range r =>
    unfold isSorted
    simp only
    split
    · rfl
    · exact gen
  | sfs s => rfl
  | rev s => exact gen

end PyIter

theorem msd_asc (xs : List Int) (hne : xs ≠ []) :
    ∃ out, makeSortedDistinctSequence (.gen xs) (some .ascending) = .ok out ∧ out.WF ∧
      out.toList = (SortedFrozenSet.ofList xs).items := by
  have hs := SortedFrozenSet.ofList_sorted xs
  have hne2 : (SortedFrozenSet.ofList xs).items ≠ [] := by
    intro h
    obtain ⟨a, ha⟩ := List.exists_mem_of_ne_nil _ hne
    have := (SortedFrozenSet.mem_ofList xs a).mpr ha
    rw [h] at this; cases this
  obtain ⟨out, h1, h2, _, h4⟩ := compress_spec (.sfs (SortedFrozenSet.ofList xs)) hne2 rfl
    (SortedFrozenSet.sorted_nodup hs)
  refine ⟨out, h1, ?_, h2⟩
  cases hr : out.isRange with
  | true => cases out <;> simp [PyIter.isRange] at hr; trivial
  | false => rw [h4 hr]; exact hs

/-- A strictly monotone value list is kept as it is. -/
theorem msd_none (vs : List Int) (hne : vs ≠ []) (h : vs.Pairwise (· < ·) ∨ vs.Pairwise (· > ·)) :
    ∃ out, makeSortedDistinctSequence (.list vs) none = .ok out ∧ out.toList = vs := by
  obtain ⟨out, h1, h2⟩ := Props.C15_list vs hne none
  refine ⟨out, h1, ?_⟩
  by_cases hd : vs.Pairwise (· > ·)
  · have hs := h2.sorted
    simp only [hd, decide_true, if_true] at hs
    have e := strictSorted_ext (List.pairwise_reverse.mpr hs) (List.pairwise_reverse.mpr hd)
      (by intro a; rw [List.mem_reverse, List.mem_reverse]; exact h2.mem a)
    exact List.reverse_injective e
  · have hs := h2.sorted
    simp only [hd, decide_false, Bool.false_eq_true, if_false] at hs
    rcases h with h | h
    · exact strictSorted_ext hs h h2.mem
    · exact absurd h hd

/-! ## Grids -/

/-- `itertools.product(I, J)`. -/
def grid (I J : List Int) : List (Int × Int) := I.flatMap fun i => J.map fun j => (i, j)

theorem length_grid (I J : List Int) : (grid I J).length = I.length * J.length := by
  induction I with
  | nil => simp [grid]
  | cons a I ih =>
    have : grid (a :: I) J = J.map (fun j => (a, j)) ++ grid I J := rfl
    rw [this, List.length_append, ih, List.length_map, List.length_cons]
    ring

theorem mem_grid (I J : List Int) (k : Int × Int) : k ∈ grid I J ↔ k.1 ∈ I ∧ k.2 ∈ J := by
  obtain ⟨i, j⟩ := k
  simp only [grid, List.mem_flatMap, List.mem_map, Prod.mk.injEq]
  constructor
  · rintro ⟨a, ha, b, hb, rfl, rfl⟩; exact ⟨ha, hb⟩
  · rintro ⟨ha, hb⟩; exact ⟨i, ha, j, hb, rfl, rfl⟩

theorem getElem_grid (I J : List Int) (a b : Nat) (ha : a < I.length) (hb : b < J.length) :
    (grid I J)[a * J.length + b]? = some (I[a], J[b]) := by
  induction I generalizing a with
  | nil => simp at ha
  | cons x I ih =>
    have e : grid (x :: I) J = J.map (fun j => (x, j)) ++ grid I J := rfl
    rw [e]
    cases a with
    | zero => rw [List.getElem?_append_left (by simpa using hb)]; simp [hb]
    | succ a =>
      rw [List.getElem?_append_right (by rw [List.length_map]; nlinarith)]
      rw [List.length_map, show (a + 1) * J.length + b - J.length = a * J.length + b by
        rw [Nat.add_mul]; omega, ih a (by simpa using ha)]
      simp

theorem sorted_grid {I J : List Int} (hI : I.Pairwise (· < ·)) (hJ : J.Pairwise (· < ·)) :
    ((grid I J).map toLex).Pairwise (· < ·) := by
  induction I with
  | nil => simp [grid]
  | cons x I ih =>
    have e : grid (x :: I) J = J.map (fun j => (x, j)) ++ grid I J := rfl
    rw [List.pairwise_cons] at hI
    rw [e, List.map_append, List.pairwise_append]
    refine ⟨?_, ih hI.2, ?_⟩
    · rw [List.map_map, List.pairwise_map]
      apply hJ.imp
      intro a b hab
      exact Prod.Lex.toLex_lt_toLex.mpr (Or.inr ⟨rfl, hab⟩)
    · intro p hp q hq
      simp only [List.mem_map] at hp hq
      obtain ⟨p', ⟨j, _, rfl⟩, rfl⟩ := hp
      obtain ⟨q', hq', rfl⟩ := hq
      exact Prod.Lex.toLex_lt_toLex.mpr (Or.inl (hI.1 _ ((mem_grid I J q').mp hq').1))

/-- Distinct lexicographically sorted pairs that fill the grid of their components are that grid. -/
theorem eq_grid (ks : List (Int × Int)) (hs : (ks.map toLex).Pairwise (· < ·))
    (hc : (SortedFrozenSet.ofList (ks.map Prod.fst)).items.length *
      (SortedFrozenSet.ofList (ks.map Prod.snd)).items.length = ks.length) :
    ks = grid (SortedFrozenSet.ofList (ks.map Prod.fst)).items (SortedFrozenSet.ofList (ks.map Prod.snd)).items := by
  set I := (SortedFrozenSet.ofList (ks.map Prod.fst)).items with hI
  set J := (SortedFrozenSet.ofList (ks.map Prod.snd)).items with hJ
  have hn : ks.Nodup := by
    have := SortedFrozenSet.sorted_nodup hs
    exact List.Nodup.of_map _ this
  have hsub : ks ⊆ grid I J := by
    intro k hk
    rw [mem_grid, hI, hJ, SortedFrozenSet.mem_ofList, SortedFrozenSet.mem_ofList]
    exact ⟨List.mem_map_of_mem hk, List.mem_map_of_mem hk⟩
  have hp : ks.Perm (grid I J) := by
    apply List.Subperm.perm_of_length_le (List.Nodup.subperm hn hsub)
    rw [length_grid, hc]
  have hg := sorted_grid (SortedFrozenSet.ofList_sorted (ks.map Prod.fst)) (SortedFrozenSet.ofList_sorted (ks.map Prod.snd))
  rw [← hI, ← hJ] at hg
  have e := strictSorted_ext hs hg (by intro a; exact (hp.map toLex).mem_iff)
  exact List.map_injective_iff.mpr toLex.injective e

/-! ## Refinement of two-dimensional catalogs -/

theorem Refines2.perm {l m : List ((Int × Int) × Int)} {c : Catalog2} (h : Refines2 l c) (p : l.Perm m) :
    Refines2 m c := by
  have pm := (p.map Prod.fst)
  have hex : ∀ P : ((Int × Int) × Int) → Prop, (∃ e ∈ l, P e) → ∃ e ∈ m, P e :=
    fun P ⟨e, h1, h2⟩ => ⟨e, p.mem_iff.mp h1, h2⟩
  have hall : ∀ P : ((Int × Int) × Int) → Prop, (∀ e ∈ l, P e) → ∀ e ∈ m, P e :=
    fun P h e h1 => h e (p.mem_iff.mpr h1)
  have hex' : ∀ P : ((Int × Int) × Int) → Prop, (∃ e ∈ l, P e) ↔ ∃ e ∈ m, P e :=
    fun P => ⟨hex P, fun ⟨e, h1, h2⟩ => ⟨e, p.mem_iff.mpr h1, h2⟩⟩
  refine ⟨?_, ?_, ?_, ?_, ?_, ?_, ?_, ?_, ?_, ⟨h.iRange.1, fun a => (h.iRange.2 a).trans (hex' _)⟩,
    ⟨h.jRange.1, fun a => (h.jRange.2 a).trans (hex' _)⟩⟩
  · intro k v hm; exact h.lookup k v (p.mem_iff.mpr hm)
  · intro k hm; exact h.missing k (fun hc => hm (pm.mem_iff.mp hc))
  · intro k; rw [h.contains k, decide_eq_decide.mpr pm.mem_iff]
  · rw [h.len, p.length_eq]
  · exact ⟨h.iter.1, fun k => (h.iter.2 k).trans pm.mem_iff⟩
  · obtain ⟨a, h1, h2, h3⟩ := h.iMin; exact ⟨a, h1, hex _ h2, hall _ h3⟩
  · obtain ⟨a, h1, h2, h3⟩ := h.iMax; exact ⟨a, h1, hex _ h2, hall _ h3⟩
  · obtain ⟨a, h1, h2, h3⟩ := h.jMin; exact ⟨a, h1, hex _ h2, hall _ h3⟩
  · obtain ⟨a, h1, h2, h3⟩ := h.jMax; exact ⟨a, h1, hex _ h2, hall _ h3⟩

theorem range_of_sorted (it : PyIter) {β : Type} (l : List β) (f : β → Int)
    (h : it.toList = (SortedFrozenSet.ofList (l.map f)).items) :
    it.toList.Pairwise (· < ·) ∧ ∀ a, a ∈ it.toList ↔ ∃ e ∈ l, f e = a := by
  rw [h]
  refine ⟨SortedFrozenSet.ofList_sorted _, fun a => ?_⟩
  rw [SortedFrozenSet.mem_ofList, List.mem_map]

theorem min_max_of_sorted (it : PyIter) (xs : List Int) (hne : xs ≠ [])
    (h : it.toList = (SortedFrozenSet.ofList xs).items) :
    (∃ a, it.get 0 = .ok a ∧ a ∈ xs ∧ ∀ x ∈ xs, a ≤ x) ∧ (∃ a, it.get (-1) = .ok a ∧ a ∈ xs ∧ ∀ x ∈ xs, x ≤ a) := by
  have hs := SortedFrozenSet.ofList_sorted xs
  set S := (SortedFrozenSet.ofList xs).items with hS
  have hmem : ∀ a, a ∈ S ↔ a ∈ xs := SortedFrozenSet.mem_ofList xs
  have hpos : 0 < S.length := by
    obtain ⟨a, ha⟩ := List.exists_mem_of_ne_nil _ hne
    exact List.length_pos_of_mem ((hmem a).mpr ha)
  have hmono : ∀ i j (hi : i < S.length) (hj : j < S.length), i ≤ j → S[i] ≤ S[j] := by
    intro i j hi hj hij
    rcases Nat.lt_or_ge i j with h1 | h1
    · exact le_of_lt ((List.pairwise_iff_getElem.mp hs) i j hi hj h1)
    · have : i = j := by omega
      subst this; exact le_refl _
  constructor
  · refine ⟨S[0], ?_, (hmem _).mp (List.getElem_mem _), ?_⟩
    · rw [PyIter.get_eq, h, pyGet_zero _ hpos]
    · intro x hx
      obtain ⟨i, hi, rfl⟩ := List.mem_iff_getElem.mp ((hmem x).mpr hx)
      exact hmono 0 i hpos hi (by omega)
  · refine ⟨S[S.length - 1], ?_, (hmem _).mp (List.getElem_mem _), ?_⟩
    · rw [PyIter.get_eq, h, pyGet_last _ hpos]
    · intro x hx
      obtain ⟨i, hi, rfl⟩ := List.mem_iff_getElem.mp ((hmem x).mpr hx)
      exact hmono i (S.length - 1) hi (by omega) (by omega)

theorem mem_map_of_entry {l : List ((Int × Int) × Int)} {k : Int × Int} (h : k ∈ l.map Prod.fst) :
    ∃ v, (k, v) ∈ l := by
  obtain ⟨e, he, rfl⟩ := List.mem_map.mp h
  exact ⟨e.2, he⟩

/-- The two grid catalogs, on the grid of their keys. -/
theorem quickest_get (i j v : PyIter) (hi : i.WF) (hj : j.WF)
    (hin : i.toList.Nodup) (hjn : j.toList.Nodup) :
    (∀ a b (ha : a < i.toList.length) (hb : b < j.toList.length),
      (Catalog2.lastQuickest i j v).get (i.toList[a], j.toList[b]) = v.get ((a * j.toList.length + b : Nat) : Int) ∧
      (Catalog2.firstQuickest i j v).get (i.toList[a], j.toList[b]) = v.get ((b * i.toList.length + a : Nat) : Int)) ∧
    (∀ k : Int × Int, ¬ (k.1 ∈ i.toList ∧ k.2 ∈ j.toList) →
      (Catalog2.lastQuickest i j v).get k = .error .keyError ∧
      (Catalog2.firstQuickest i j v).get k = .error .keyError) ∧
    (∀ k : Int × Int, Catalog2.containsIJ i j k.1 k.2 = .ok (decide (k.1 ∈ i.toList ∧ k.2 ∈ j.toList))) := by
  have hc : ∀ k : Int × Int, Catalog2.containsIJ i j k.1 k.2 = .ok (decide (k.1 ∈ i.toList ∧ k.2 ∈ j.toList)) := by
    intro k
    unfold Catalog2.containsIJ
    rw [PyIter.contains_eq i hi]
    by_cases h : k.1 ∈ i.toList
    · simp only [h, decide_true, bind, Except.bind, if_true, true_and]
      exact PyIter.contains_eq j hj k.2
    · simp [h, bind, Except.bind, pure, Except.pure]
  refine ⟨?_, ?_, hc⟩
  · intro a b ha hb
    have h1 := hc (i.toList[a], j.toList[b])
    simp only [List.getElem_mem, and_self, decide_true] at h1
    have h2 := PyIter.index_ok i hi hin a ha
    have h3 := PyIter.index_ok j hj hjn b hb
    constructor
    · simp only [Catalog2.get, h1, h2, h3, bind, Except.bind, Bool.not_true, Bool.false_eq_true, if_false,
        PyIter.len_eq]
      push_cast; rfl
    · simp only [Catalog2.get, h1, h2, h3, bind, Except.bind, Bool.not_true, Bool.false_eq_true, if_false,
        PyIter.len_eq]
      push_cast; rfl
  · intro k hk
    have h1 := hc k
    rw [decide_eq_false hk] at h1
    simp [Catalog2.get, h1, bind, Except.bind]

/-- Outcome of `make_sorted_ranges` on a non-empty list. -/
theorem makeSortedRanges_spec (l : List ((Int × Int) × Int)) (hne : l ≠ []) :
    (∃ o, makeSortedRanges l = .ok o) ∧
    ∀ i j v, makeSortedRanges l = .ok (some (i, j, v)) →
      i.WF ∧ j.WF ∧ i.toList = (SortedFrozenSet.ofList (l.map fun e => e.1.1)).items ∧
      j.toList = (SortedFrozenSet.ofList (l.map fun e => e.1.2)).items ∧ v.toList = l.map Prod.snd ∧
      i.toList.length * j.toList.length = l.length ∧ v.isRange = true := by
  obtain ⟨i, hi1, hi2, hi3⟩ := msd_asc (l.map fun e => e.1.1) (by simpa using hne)
  obtain ⟨j, hj1, hj2, hj3⟩ := msd_asc (l.map fun e => e.1.2) (by simpa using hne)
  have hvne : (l.map fun e => e.2) ≠ [] := by simpa using hne
  obtain ⟨_, _, hup, hdown⟩ := Props.C57_is_sorted (l.map fun e => e.2) hvne id
  rw [List.map_id] at hup hdown
  unfold makeSortedRanges
  simp only [hi1, hj1, bind, Except.bind, pure, Except.pure, hup, hdown, PyIter.len_eq]
  by_cases hcard : i.toList.length * j.toList.length ≠ l.length
  · rw [if_pos hcard]
    exact ⟨⟨_, rfl⟩, fun _ _ _ h => by cases h⟩
  rw [if_neg hcard]
  push Not at hcard
  by_cases hmono : (l.map fun e => e.2).Pairwise (· < ·) ∨ (l.map fun e => e.2).Pairwise (· > ·)
  · obtain ⟨v, hv1, hv2⟩ := msd_none _ hvne hmono
    have hord : ∀ (X Y : Res (Option (PyIter × PyIter × PyIter))),
        (if decide ((l.map fun e => e.2).Pairwise (· < ·)) = true then
          if (!true) = true then X else Y
        else if (!decide ((l.map fun e => e.2).Pairwise (· > ·))) = true then X else Y) = Y := by
      intro X Y
      rcases hmono with h | h
      · simp [h]
      · split
        · simp
        · simp [h]
    rw [hord]
    simp only [hv1]
    by_cases hr : (i.isRange && j.isRange && v.isRange) = true
    · simp only [hr, Bool.not_true, Bool.false_eq_true, if_false]
      refine ⟨⟨_, rfl⟩, ?_⟩
      intro i' j' v' h
      cases h
      simp only [Bool.and_eq_true] at hr
      exact ⟨hi2, hj2, hi3, hj3, hv2, hcard, hr.2⟩
    · simp only [hr, Bool.not_false, if_true]
      exact ⟨⟨_, rfl⟩, fun _ _ _ h => by cases h⟩
  · push Not at hmono
    simp only [hmono.1, hmono.2, decide_false, Bool.false_eq_true, if_false, Bool.not_false, if_true]
    exact ⟨⟨_, rfl⟩, fun _ _ _ h => by cases h⟩

theorem PyIter.wf_of_range {v : PyIter} (h : v.isRange = true) : v.WF ∧ v.toList.Nodup := by
  cases v <;> simp [PyIter.isRange] at h
  exact ⟨trivial, PyRange.nodup_toList _⟩

theorem checkRanges_ok (i j : PyIter) (hi : i.toList ≠ []) (hj : j.toList ≠ []) (hsi : i.toList.Pairwise (· < ·))
    (hsj : j.toList.Pairwise (· < ·)) : Catalog2.checkRanges i j = .ok () := by
  unfold Catalog2.checkRanges
  rw [PyIter.isSorted_of i hi hsi, PyIter.isSorted_of j hj hsj]
  rfl

/-- Common part of the two grid catalogs: `ks` is the list of keys in the order of the values. -/
theorem refines_grid (l : List ((Int × Int) × Int)) (hne : l ≠ []) (i j v : PyIter) (c : Catalog2)
    (hc : c = .lastQuickest i j v ∨ c = .firstQuickest i j v)
    (hi : i.WF) (hj : j.WF) (hiL : i.toList = (SortedFrozenSet.ofList (l.map fun e => e.1.1)).items)
    (hjL : j.toList = (SortedFrozenSet.ofList (l.map fun e => e.1.2)).items)
    (hlen : i.toList.length * j.toList.length = l.length)
    (hkeys : ∀ k, k ∈ l.map Prod.fst ↔ k.1 ∈ i.toList ∧ k.2 ∈ j.toList)
    (hnd : (c.keys).Nodup)
    (hget : ∀ k w, (k, w) ∈ l → c.get k = .ok w) : Refines2 l c := by
  have hin : i.toList.Nodup := by rw [hiL]; exact SortedFrozenSet.sorted_nodup (SortedFrozenSet.ofList_sorted _)
  have hjn : j.toList.Nodup := by rw [hjL]; exact SortedFrozenSet.sorted_nodup (SortedFrozenSet.ofList_sorted _)
  obtain ⟨_, hmiss, hcont⟩ := quickest_get i j v hi hj hin hjn
  obtain ⟨mi, ma⟩ := min_max_of_sorted i (l.map fun e => e.1.1) (by simpa using hne) hiL
  obtain ⟨mj, mb⟩ := min_max_of_sorted j (l.map fun e => e.1.2) (by simpa using hne) hjL
  have hir : c.iRange = i := by rcases hc with rfl | rfl <;> rfl
  have hjr : c.jRange = j := by rcases hc with rfl | rfl <;> rfl
  refine ⟨hget, ?_, ?_, ?_, ⟨hnd, ?_⟩, ?_, ?_, ?_, ?_, by rw [hir]; exact range_of_sorted i l _ hiL,
    by rw [hjr]; exact range_of_sorted j l _ hjL⟩
  · intro k hk
    have := hmiss k (fun h => hk ((hkeys k).mpr h))
    rcases hc with rfl | rfl
    · exact this.1
    · exact this.2
  · intro k
    have : c.contains k = Catalog2.containsIJ i j k.1 k.2 := by rcases hc with rfl | rfl <;> rfl
    rw [this, hcont k, decide_eq_decide.mpr (hkeys k).symm]
  · have : c.len = i.len * j.len := by rcases hc with rfl | rfl <;> rfl
    rw [this, PyIter.len_eq, PyIter.len_eq, hlen]
  · intro k
    rw [hkeys k]
    rcases hc with rfl | rfl
    · exact mem_grid i.toList j.toList k
    · show k ∈ (j.toList.flatMap fun b => i.toList.map fun a => (a, b)) ↔ _
      obtain ⟨x, y⟩ := k
      simp only [List.mem_flatMap, List.mem_map, Prod.mk.injEq]
      constructor
      · rintro ⟨b, hb, a, ha, rfl, rfl⟩; exact ⟨ha, hb⟩
      · rintro ⟨ha, hb⟩; exact ⟨y, hb, x, ha, rfl, rfl⟩
  · unfold Catalog2.iMin; rw [hir]
    obtain ⟨a, h1, h2, h3⟩ := mi
    simp only [List.mem_map] at h2 h3
    exact ⟨a, h1, h2, fun e he => h3 _ ⟨e, he, rfl⟩⟩
  · unfold Catalog2.iMax; rw [hir]
    obtain ⟨a, h1, h2, h3⟩ := ma
    simp only [List.mem_map] at h2 h3
    exact ⟨a, h1, h2, fun e he => h3 _ ⟨e, he, rfl⟩⟩
  · unfold Catalog2.jMin; rw [hjr]
    obtain ⟨a, h1, h2, h3⟩ := mj
    simp only [List.mem_map] at h2 h3
    exact ⟨a, h1, h2, fun e he => h3 _ ⟨e, he, rfl⟩⟩
  · unfold Catalog2.jMax; rw [hjr]
    obtain ⟨a, h1, h2, h3⟩ := mb
    simp only [List.mem_map] at h2 h3
    exact ⟨a, h1, h2, fun e he => h3 _ ⟨e, he, rfl⟩⟩

theorem nodup_grid {I J : List Int} (hI : I.Pairwise (· < ·)) (hJ : J.Pairwise (· < ·)) : (grid I J).Nodup :=
  List.Nodup.of_map _ (SortedFrozenSet.sorted_nodup (sorted_grid hI hJ))

theorem swap_grid (I J : List Int) : (J.flatMap fun j => I.map fun i => (i, j)) = (grid J I).map Prod.swap := by
  unfold grid
  rw [List.map_flatMap]
  congr 1; funext j
  rw [List.map_map]; rfl

/-- The row-major catalog built from a lexicographically sorted list refines it. -/
theorem lastQuickest_refines (l : List ((Int × Int) × Int)) (hne : l ≠ [])
    (hs : ((l.map Prod.fst).map toLex).Pairwise (· < ·)) (i j v : PyIter)
    (h : makeSortedRanges l = .ok (some (i, j, v))) :
    Catalog2.makeLastQuickest i j v = .ok (.lastQuickest i j v) ∧ Refines2 l (.lastQuickest i j v) := by
  obtain ⟨hi, hj, hiL, hjL, hvL, hcard, hvr⟩ := (makeSortedRanges_spec l hne).2 i j v h
  have hsi : i.toList.Pairwise (· < ·) := by rw [hiL]; exact SortedFrozenSet.ofList_sorted _
  have hsj : j.toList.Pairwise (· < ·) := by rw [hjL]; exact SortedFrozenSet.ofList_sorted _
  have hlpos : 0 < l.length := List.length_pos_iff.mpr hne
  have hine : i.toList ≠ [] := by intro e; rw [e] at hcard; simp at hcard; omega
  have hjne : j.toList ≠ [] := by intro e; rw [e] at hcard; simp at hcard; omega
  have hg : l.map Prod.fst = grid i.toList j.toList := by
    have e1 : (l.map fun e => e.1.1) = (l.map Prod.fst).map Prod.fst := by rw [List.map_map]; rfl
    have e2 : (l.map fun e => e.1.2) = (l.map Prod.fst).map Prod.snd := by rw [List.map_map]; rfl
    rw [hiL, hjL, e1, e2]
    apply eq_grid _ hs
    rw [← e1, ← e2, ← hiL, ← hjL, hcard, List.length_map]
  refine ⟨?_, ?_⟩
  · unfold Catalog2.makeLastQuickest
    rw [PyIter.len_eq, PyIter.len_eq, PyIter.len_eq, hvL, List.length_map, hcard, checkRanges_ok i j hine hjne hsi hsj]
    simp [bind, Except.bind, pure, Except.pure]
  · apply refines_grid l hne i j v _ (Or.inl rfl) hi hj hiL hjL hcard
    · intro k; rw [hg]; exact mem_grid _ _ k
    · exact nodup_grid hsi hsj
    · intro k w hm
      have hk : k ∈ grid i.toList j.toList := by rw [← hg]; exact List.mem_map.mpr ⟨_, hm, rfl⟩
      obtain ⟨h1, h2⟩ := (mem_grid _ _ k).mp hk
      obtain ⟨a, ha, ea⟩ := List.mem_iff_getElem.mp h1
      obtain ⟨b, hb, eb⟩ := List.mem_iff_getElem.mp h2
      have hkeq : k = (i.toList[a], j.toList[b]) := by rw [ea, eb]
      have hq := ((quickest_get i j v hi hj (SortedFrozenSet.sorted_nodup hsi)
        (SortedFrozenSet.sorted_nodup hsj)).1 a b ha hb).1
      rw [hkeq, hq, PyIter.get_eq, hvL]
      have hidx := getElem_grid i.toList j.toList a b ha hb
      rw [← hg, ← hkeq, List.getElem?_map] at hidx
      -- the entry at that position has key k, hence is (k, w)
      obtain ⟨e, he1, he2⟩ : ∃ e, l[a * j.toList.length + b]? = some e ∧ e.1 = k := by
        simpa [Option.map_eq_some_iff] using hidx
      have hnd : (l.map Prod.fst).Nodup := List.Nodup.of_map _ (SortedFrozenSet.sorted_nodup hs)
      have hem : e ∈ l := List.mem_of_getElem? he1
      have hew : e = (k, w) := List.inj_on_of_nodup_map hnd hem hm he2
      obtain ⟨hlt, hel⟩ := List.getElem?_eq_some_iff.mp he1
      rw [pyGet_nat _ _ (by simpa using hlt)]
      simp [hel, hew]

/-- The column-major catalog built from a list sorted by the swapped key refines it. -/
theorem firstQuickest_refines (l : List ((Int × Int) × Int)) (hne : l ≠ [])
    (hs : (((l.map Prod.fst).map Prod.swap).map toLex).Pairwise (· < ·)) (i j v : PyIter)
    (h : makeSortedRanges l = .ok (some (i, j, v))) :
    Catalog2.makeFirstQuickest i j v = .ok (.firstQuickest i j v) ∧ Refines2 l (.firstQuickest i j v) := by
  obtain ⟨hi, hj, hiL, hjL, hvL, hcard, hvr⟩ := (makeSortedRanges_spec l hne).2 i j v h
  have hsi : i.toList.Pairwise (· < ·) := by rw [hiL]; exact SortedFrozenSet.ofList_sorted _
  have hsj : j.toList.Pairwise (· < ·) := by rw [hjL]; exact SortedFrozenSet.ofList_sorted _
  have hlpos : 0 < l.length := List.length_pos_iff.mpr hne
  have hine : i.toList ≠ [] := by intro e; rw [e] at hcard; simp at hcard; omega
  have hjne : j.toList ≠ [] := by intro e; rw [e] at hcard; simp at hcard; omega
  have hg : (l.map Prod.fst).map Prod.swap = grid j.toList i.toList := by
    have e1 : (l.map fun e => e.1.1) = ((l.map Prod.fst).map Prod.swap).map Prod.snd := by
      rw [List.map_map, List.map_map]; rfl
    have e2 : (l.map fun e => e.1.2) = ((l.map Prod.fst).map Prod.swap).map Prod.fst := by
      rw [List.map_map, List.map_map]; rfl
    rw [hiL, hjL, e1, e2]
    apply eq_grid _ hs
    rw [← e1, ← e2, ← hiL, ← hjL, mul_comm, hcard, List.length_map, List.length_map]
  have hmemk : ∀ k, k ∈ l.map Prod.fst ↔ k.1 ∈ i.toList ∧ k.2 ∈ j.toList := by
    intro k
    have h1 : k ∈ l.map Prod.fst ↔ k.swap ∈ (l.map Prod.fst).map Prod.swap := by
      constructor
      · intro h; exact List.mem_map_of_mem h
      · intro h
        obtain ⟨k', h1, h2⟩ := List.mem_map.mp h
        rw [← Prod.swap_inj.mp h2]; exact h1
    rw [h1, hg, mem_grid]
    exact and_comm
  refine ⟨?_, ?_⟩
  · unfold Catalog2.makeFirstQuickest
    rw [PyIter.len_eq, PyIter.len_eq, PyIter.len_eq, hvL, List.length_map, hcard, checkRanges_ok i j hine hjne hsi hsj]
    simp [bind, Except.bind, pure, Except.pure]
  · apply refines_grid l hne i j v _ (Or.inr rfl) hi hj hiL hjL hcard hmemk
    · show (j.toList.flatMap fun b => i.toList.map fun a => (a, b)).Nodup
      rw [swap_grid]
      exact (List.nodup_map_iff Prod.swap_injective).mpr (nodup_grid hsj hsi)
    · intro k w hm
      obtain ⟨h1, h2⟩ := (hmemk k).mp (List.mem_map.mpr ⟨_, hm, rfl⟩)
      obtain ⟨a, ha, ea⟩ := List.mem_iff_getElem.mp h1
      obtain ⟨b, hb, eb⟩ := List.mem_iff_getElem.mp h2
      have hkeq : k = (i.toList[a], j.toList[b]) := by rw [ea, eb]
      have hq := ((quickest_get i j v hi hj (SortedFrozenSet.sorted_nodup hsi)
        (SortedFrozenSet.sorted_nodup hsj)).1 a b ha hb).2
      rw [hkeq, hq, PyIter.get_eq, hvL]
      have hidx := getElem_grid j.toList i.toList b a hb ha
      rw [← hg, List.getElem?_map, List.getElem?_map] at hidx
      obtain ⟨e, he1, he2⟩ : ∃ e, l[b * i.toList.length + a]? = some e ∧ e.1.swap = (j.toList[b], i.toList[a]) := by
        simp only [Option.map_map, Option.map_eq_some_iff, Function.comp] at hidx
        exact hidx
      have he3 : e.1 = k := by
        rw [hkeq]
        have := congrArg Prod.swap he2
        simpa using this
      have hnd : (l.map Prod.fst).Nodup :=
        List.Nodup.of_map _ (List.Nodup.of_map _ (SortedFrozenSet.sorted_nodup hs))
      have hem : e ∈ l := List.mem_of_getElem? he1
      have hew : e = (k, w) := List.inj_on_of_nodup_map hnd hem hm he3
      obtain ⟨hlt, hel⟩ := List.getElem?_eq_some_iff.mp he1
      rw [pyGet_nat _ _ (by simpa using hlt)]
      simp [hel, hew]

theorem fillDictionary_ok (i j : PyIter) (hi : i.WF) (hj : j.WF) : ∀ (l d : List ((Int × Int) × Int)),
    (∀ e ∈ l, e.1.1 ∈ i.toList ∧ e.1.2 ∈ j.toList) →
    Catalog2.fillDictionary i j d l = .ok (l.foldl (fun d p => odictSet d p.1 p.2) d)
  | [], d, _ => rfl
  | (k, w) :: l, d, h => by
    have hk := h (k, w) List.mem_cons_self
    unfold Catalog2.fillDictionary
    rw [PyIter.contains_eq i hi, PyIter.contains_eq j hj, decide_eq_true hk.1, decide_eq_true hk.2]
    exact fillDictionary_ok i j hi hj l _ (fun e he => h e (List.mem_cons_of_mem _ he))

theorem dictionary2_refines (l : List ((Int × Int) × Int)) (hne : l ≠ []) (hnd : (l.map Prod.fst).Nodup) :
    ∃ c, makeDictionaryCatalog2D l = .ok c ∧ Refines2 l c := by
  unfold makeDictionaryCatalog2D
  set s := pySortedBy (fun e : (Int × Int) × Int => toLex (e.1.1, e.1.2)) l with hs
  have hp : s.Perm l := pySortedBy_perm _ l
  have hsne : s ≠ [] := by intro e; rw [e] at hp; exact hne hp.nil_eq.symm
  have hsnd : (s.map Prod.fst).Nodup := (hp.map Prod.fst).nodup_iff.mpr hnd
  obtain ⟨i, hi1, hi2, hi3⟩ := msd_asc (s.map fun e => e.1.1) (by simpa using hsne)
  obtain ⟨j, hj1, hj2, hj3⟩ := msd_asc (s.map fun e => e.1.2) (by simpa using hsne)
  have hmem : ∀ e ∈ s, e.1.1 ∈ i.toList ∧ e.1.2 ∈ j.toList := by
    intro e he
    rw [hi3, hj3, SortedFrozenSet.mem_ofList, SortedFrozenSet.mem_ofList]
    exact ⟨List.mem_map.mpr ⟨e, he, rfl⟩, List.mem_map.mpr ⟨e, he, rfl⟩⟩
  obtain ⟨e0, he0⟩ := List.exists_mem_of_ne_nil _ hsne
  have hine : i.toList ≠ [] := List.ne_nil_of_mem (hmem e0 he0).1
  have hjne : j.toList ≠ [] := List.ne_nil_of_mem (hmem e0 he0).2
  have hsi : i.toList.Pairwise (· < ·) := by rw [hi3]; exact SortedFrozenSet.ofList_sorted _
  have hsj : j.toList.Pairwise (· < ·) := by rw [hj3]; exact SortedFrozenSet.ofList_sorted _
  have hfill : Catalog2.fillDictionary i j [] s = .ok s := by
    rw [fillDictionary_ok i j hi2 hj2 s [] hmem]
    exact congrArg Except.ok (odictOf_nodup s hsnd)
  refine ⟨.dictionary i j s, ?_, ?_⟩
  · simp only [hi1, hj1, bind, Except.bind, Catalog2.makeDictionary, checkRanges_ok i j hine hjne hsi hsj, hfill, pure,
      Except.pure]
  · apply Refines2.perm _ hp
    obtain ⟨mi, ma⟩ := min_max_of_sorted i (s.map fun e => e.1.1) (by simpa using hsne) hi3
    obtain ⟨mj, mb⟩ := min_max_of_sorted j (s.map fun e => e.1.2) (by simpa using hsne) hj3
    refine ⟨?_, ?_, ?_, rfl, ⟨hsnd, fun _ => Iff.rfl⟩, ?_, ?_, ?_, ?_, range_of_sorted i s _ hi3,
      range_of_sorted j s _ hj3⟩
    · intro k w hm; exact odictGet_mem s hsnd k w hm
    · intro k hk; exact odictGet_not_mem s k hk
    · intro k
      refine congrArg Except.ok ((odictContains_eq s k).trans ?_)
      exact decide_eq_decide.mpr Iff.rfl
    · obtain ⟨a, h1, h2, h3⟩ := mi
      simp only [List.mem_map] at h2 h3
      exact ⟨a, h1, h2, fun e he => h3 _ ⟨e, he, rfl⟩⟩
    · obtain ⟨a, h1, h2, h3⟩ := ma
      simp only [List.mem_map] at h2 h3
      exact ⟨a, h1, h2, fun e he => h3 _ ⟨e, he, rfl⟩⟩
    · obtain ⟨a, h1, h2, h3⟩ := mj
      simp only [List.mem_map] at h2 h3
      exact ⟨a, h1, h2, fun e he => h3 _ ⟨e, he, rfl⟩⟩
    · obtain ⟨a, h1, h2, h3⟩ := mb
      simp only [List.mem_map] at h2 h3
      exact ⟨a, h1, h2, fun e he => h3 _ ⟨e, he, rfl⟩⟩

/-- Sorting entries with distinct keys by an injective function of the key gives strictly sorted keys. -/
theorem sorted_keys {κ β : Type} [LinearOrder β] (f : κ → β) (hf : Function.Injective f) (l : List (κ × Int))
    (hnd : (l.map Prod.fst).Nodup) :
    ((pySortedBy (fun e => f e.1) l).map (fun e => f e.1)).Pairwise (· < ·) := by
  have h1 := pySortedBy_pairwise (fun e : κ × Int => f e.1) l
  have hp := pySortedBy_perm (fun e : κ × Int => f e.1) l
  have h2 : ((pySortedBy (fun e => f e.1) l).map (fun e => f e.1)).Nodup := by
    rw [(hp.map _).nodup_iff]
    have : l.map (fun e => f e.1) = (l.map Prod.fst).map f := by rw [List.map_map]; rfl
    rw [this]
    exact (List.nodup_map_iff hf).mpr hnd
  have h3 := List.pairwise_map.mpr h1
  exact (h3.and h2).imp (fun h => lt_of_le_of_ne h.1 h.2)

theorem createCatalog2_refines (l : List ((Int × Int) × Int)) (hne : l ≠ []) (hnd : (l.map Prod.fst).Nodup) :
    ∃ c, createCatalog2 l = .ok c ∧ Refines2 l c := by
  unfold createCatalog2 makeLastIndexVariesQuickest makeFirstIndexVariesQuickest
  set s := pySortedBy (fun e : (Int × Int) × Int => toLex (e.1.1, e.1.2)) l with hs
  have hp : s.Perm l := pySortedBy_perm _ l
  have hsne : s ≠ [] := by intro e; rw [e] at hp; exact hne hp.nil_eq.symm
  have hsnd : (s.map Prod.fst).Nodup := (hp.map Prod.fst).nodup_iff.mpr hnd
  have hss : ((s.map Prod.fst).map toLex).Pairwise (· < ·) := by
    have := sorted_keys (fun k : Int × Int => toLex k) toLex.injective l hnd
    rw [List.map_map]; exact this
  set t := pySortedBy (fun e : (Int × Int) × Int => toLex (e.1.2, e.1.1)) s with ht
  have hpt : t.Perm s := pySortedBy_perm _ s
  have htne : t ≠ [] := by intro e; rw [e] at hpt; exact hsne hpt.nil_eq.symm
  have htnd : (t.map Prod.fst).Nodup := (hpt.map Prod.fst).nodup_iff.mpr hsnd
  have hts : (((t.map Prod.fst).map Prod.swap).map toLex).Pairwise (· < ·) := by
    have := sorted_keys (fun k : Int × Int => toLex k.swap) (toLex.injective.comp Prod.swap_injective) s hsnd
    rw [List.map_map, List.map_map]; exact this
  have hlenpos : 0 < l.length := List.length_pos_iff.mpr hne
  -- second and third alternatives
  have hrest : ∃ c, (do
      let x ← (do
        match ← makeSortedRanges t with
        | none => return (none, t)
        | some (i, j, v) => return (some (← Catalog2.makeFirstQuickest i j v), t) :
          Res (Option Catalog2 × List ((Int × Int) × Int)))
      match truthy x.1 with
      | some c => return c
      | none => makeDictionaryCatalog2D x.2 : Res Catalog2) = .ok c ∧ Refines2 l c := by
    obtain ⟨o, ho⟩ := (makeSortedRanges_spec t htne).1
    cases o with
    | none =>
      obtain ⟨c, h1, h2⟩ := dictionary2_refines t htne htnd
      exact ⟨c, by simp only [ho, bind, Except.bind, pure, Except.pure, truthy]; exact h1,
        (h2.perm hpt).perm hp⟩
    | some x =>
      obtain ⟨i, j, v⟩ := x
      obtain ⟨h1, h2⟩ := firstQuickest_refines t htne hts i j v ho
      refine ⟨_, ?_, (h2.perm hpt).perm hp⟩
      have hl : (Catalog2.firstQuickest i j v).len ≠ 0 := by
        rw [h2.len, (hpt.trans hp).length_eq]; omega
      simp only [ho, bind, Except.bind, pure, Except.pure, h1, truthy, hl, ne_eq, not_false_eq_true, if_true]
  obtain ⟨o, ho⟩ := (makeSortedRanges_spec s hsne).1
  cases o with
  | none =>
    simp only [ho, bind, Except.bind, pure, Except.pure, truthy] at hrest ⊢
    exact hrest
  | some x =>
    obtain ⟨i, j, v⟩ := x
    obtain ⟨h1, h2⟩ := lastQuickest_refines s hsne hss i j v ho
    have hl : (Catalog2.lastQuickest i j v).len ≠ 0 := by
      rw [h2.len, hp.length_eq]; omega
    refine ⟨_, ?_, h2.perm hp⟩
    simp only [ho, bind, Except.bind, pure, Except.pure, h1, truthy, hl, ne_eq, not_false_eq_true, if_true]

/-- `List.insertionSort` results are determined by the multiset when keys are distinct. -/
theorem pySortedBy_eq_of_perm {κ β : Type} [LinearOrder β] (f : κ → β) (hf : Function.Injective f)
    {l m : List (κ × Int)} (p : l.Perm m) (hnd : (l.map Prod.fst).Nodup) :
    pySortedBy (fun e => f e.1) l = pySortedBy (fun e => f e.1) m := by
  have h1 := sorted_keys f hf l hnd
  have h2 := sorted_keys f hf m ((p.map Prod.fst).nodup_iff.mp hnd)
  have hp : (pySortedBy (fun e => f e.1) l).Perm (pySortedBy (fun e => f e.1) m) :=
    ((pySortedBy_perm _ l).trans p).trans (pySortedBy_perm _ m).symm
  rw [List.pairwise_map] at h1 h2
  exact List.Perm.eq_of_pairwise (fun a b _ _ h1 h2 => absurd (lt_trans h1 h2) (lt_irrefl _)) h1 h2 hp

end Segpy
