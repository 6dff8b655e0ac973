import Verif.Lemmas.Extract

/-! # Lemmas about extracting arrays: selections and rows -/

namespace Segpy

open FileM Spec

/-! ## Selections -/

/-- The sequence is an ascending range or an ascending `SortedFrozenSet`. -/
def Rising : PyIter → Prop
  | .range r => 0 < r.step
  | .sfs s => s.items.Pairwise (· < ·)
  | _ => False

theorem PySlice.indices_nonneg {s : PySlice} {n : Nat} {i : PyRange} (h : s.indices n = .ok i) (hs : 0 < s.step.getD 1) :
    0 ≤ i.start ∧ 0 ≤ i.stop ∧ i.step = s.step.getD 1 := by
  unfold PySlice.indices PyRange.make at h
  simp only at h
  split at h
  · cases h
  injection h with h
  rw [← h]
  have hneg : ¬ s.step.getD 1 < 0 := by omega
  simp only [hneg, if_false]
  refine ⟨?_, ?_, trivial⟩
  · split
    · omega
    · unfold PySlice.adjust; split <;> omega
  · split
    · omega
    · unfold PySlice.adjust; split <;> omega

theorem toSfs_spec {it : PyIter} (hw : it.toList.Pairwise (· < ·) ∨ ∀ s, it ≠ .sfs s) :
    it.toSfs.items.Pairwise (· < ·) ∧ ∀ x, x ∈ it.toSfs.items ↔ x ∈ it.toList := by
  cases it with
  | sfs s =>
    rcases hw with h | h
    · exact ⟨h, fun _ => Iff.rfl⟩
    · exact absurd rfl (h s)
  | _ => exact ⟨SortedFrozenSet.ofList_sorted _, SortedFrozenSet.mem_ofList _⟩

/-- A range is a chain. -/
theorem PyRange.chain (r : PyRange) : r.toList.IsChain fun a b => b = a + r.step := by
  rw [List.isChain_iff_getElem]
  intro i h
  rw [PyRange.getElem_toList, PyRange.getElem_toList]
  push_cast
  ring

/-- What is known of selected sample numbers. -/
def SampleSelection : PyIter → Prop
  | .range r => 0 < r.step ∧ 0 ≤ r.start ∧ 0 ≤ r.stop
  | .sfs s => s.items.Pairwise (· < ·) ∧ s.items ≠ []
  | _ => False

theorem PyRange.bounds_of_mem {r : PyRange} (hs : 0 < r.step) (hne : r.toList ≠ []) (h : ∀ x ∈ r.toList, 0 ≤ x) :
    0 ≤ r.start ∧ 0 ≤ r.stop := by
  obtain ⟨x, hx⟩ := List.exists_mem_of_ne_nil _ hne
  have hpos : 0 < r.len := by rw [← PyRange.length_toList]; exact List.length_pos_of_mem hx
  have h0 := h r.start ((PyRange.mem_toList _ _).mpr ⟨0, hpos, by simp⟩)
  have hc := (PyRange.contains_iff r x).mpr hx
  unfold PyRange.contains at hc
  rw [if_pos hs] at hc
  simp only [Bool.and_eq_true, decide_eq_true_iff] at hc
  exact ⟨h0, by omega⟩

/-- A selection that is meaningful is not refused. -/
theorem ensure_chooses (sup : PyIter) (hsup : Canonical sup) (sel : Selection) (X : List Int)
    (h : Chooses sup.toList sel X) :
    ∃ out, ensureSuperset sup sel = .ok out ∧ out.toList = X ∧ Rising out ∧
      ∀ m : Int, 0 ≤ m → sup = .range (PyRange.make1 0 m) → SampleSelection out := by
  cases sel with
  | all =>
    have hX : X = sup.toList := h
    refine ⟨sup, rfl, hX.symm, ?_, ?_⟩
    · cases sup with
      | range r => exact hsup.1
      | sfs s => exact hsup
      | _ => exact hsup.elim
    · rintro m hm rfl
      exact ⟨Int.one_pos, le_refl _, hm⟩
  | slice s =>
    obtain ⟨hs, hX⟩ : 0 < s.step.getD 1 ∧ pySliceList sup.toList s = .ok X := h
    cases sup with
    | range r =>
      have hX' : pySliceList r.toList s = .ok X := hX
      rw [← PyRange.slice_eq] at hX'
      have hsl : ∃ o : PyRange, r.slice s = .ok o ∧ 0 < o.step ∧ ∀ m : Int, 0 ≤ m → r = PyRange.make1 0 m →
          0 ≤ o.start ∧ 0 ≤ o.stop := by
        unfold PyRange.slice at hX' ⊢
        cases hi : s.indices r.len with
        | error e => rw [hi] at hX'; cases hX'
        | ok i =>
          obtain ⟨h1, h2, h3⟩ := PySlice.indices_nonneg hi hs
          have hne := mul_ne_zero i.step_ne r.step_ne
          refine ⟨_, dif_neg hne, ?_, ?_⟩
          · have hr : 0 < r.step := hsup.1
            exact mul_pos (by omega) hr
          · rintro m hm rfl
            simp only [PyRange.make1]
            constructor <;> omega
      obtain ⟨o, ho, hpos, hb⟩ := hsl
      rw [ho] at hX'
      injection hX' with hX'
      refine ⟨.range o, ?_, hX', hpos, ?_⟩
      · show (do return .range (← r.slice s) : Res PyIter) = _
        rw [ho]; rfl
      · intro m hm heq
        injection heq with heq
        exact ⟨hpos, hb m hm heq⟩
    | sfs x =>
      have hX' : pySliceList x.items s = .ok X := hX
      refine ⟨.sfs (SortedFrozenSet.ofList X), ?_, ?_, SortedFrozenSet.ofList_sorted X, ?_⟩
      · show (do return .sfs (SortedFrozenSet.ofList (← pySliceList x.items s)) : Res PyIter) = _
        rw [hX']; rfl
      · exact strictSorted_ext (SortedFrozenSet.ofList_sorted X)
          (List.Pairwise.sublist (pySliceList_sublist hX' hs) hsup) (SortedFrozenSet.mem_ofList X)
      · intro m hm heq; cases heq
    | _ => exact hsup.elim
  | items it =>
    obtain ⟨hne, ⟨hsort, hmem⟩, hsub, hone, hsfs⟩ : X ≠ [] ∧ Arranges it.toList X ∧ (∀ x ∈ X, x ∈ sup.toList) ∧
      (X.length = 1 → ¬ Strided sup.toList) ∧ ∀ s, it = .sfs s → s.items.Pairwise (· < ·) := h
    have hstep : X.length = 1 → ∀ p, sup = .range p → p.step = 1 := by
      rintro hl p rfl
      by_contra hc
      have h1 := hsup.1
      by_cases hp : p.len = 1
      · exact hc (hsup.2 hp)
      · refine hone hl ⟨?_, p.step, by omega, p.chain⟩
        obtain ⟨x, hx⟩ := List.exists_mem_of_ne_nil _ hne
        have := List.length_pos_of_mem (hsub x hx)
        show 2 ≤ p.toList.length
        have h3 : 0 < p.toList.length := this
        rw [PyRange.length_toList] at h3 ⊢
        omega
    have hnn : ∀ m : Int, sup = .range (PyRange.make1 0 m) → ∀ x ∈ X, 0 ≤ x := by
      rintro m rfl x hx
      have := hsub x hx
      have := (PyRange.contains_iff (PyRange.make1 0 m) x).mpr this
      simp [PyRange.contains, PyRange.make1] at this
      exact of_decide_eq_true this.1
    by_cases hir : it.isRange = true
    · cases it with
      | range r =>
        have hlen : r.toList.length = X.length := by
          have e1 : r.toList.Nodup := PyRange.nodup_toList r
          have e2 : X.Nodup := hsort.imp (fun h => ne_of_lt h)
          exact ((List.perm_ext_iff_of_nodup e1 e2).mpr (fun a => (hmem a).symm)).length_eq
        have hrne : r.toList ≠ [] := by
          rw [← List.length_pos_iff, hlen]; exact List.length_pos_iff.mpr hne
        rcases ensure_range sup hsup r hrne (fun hl p hp => by rw [hstep (by omega) p hp]; exact one_dvd _) with
          ⟨out, h1, h2, h3, h4, h5⟩ | ⟨-, hbad⟩
        · have hout : out.toList = X := strictSorted_ext h4 hsort (fun a => (h5 a).trans (hmem a).symm)
          refine ⟨.range out, h1, hout, h2, ?_⟩
          intro m hm heq
          refine ⟨h2, PyRange.bounds_of_mem h2 (by rw [hout]; exact hne) ?_⟩
          rw [hout]
          exact hnn m heq
        · exact absurd (fun x hx => hsub x ((hmem x).mpr hx)) hbad
      | _ => simp [PyIter.isRange] at hir
    · obtain ⟨t1, t2⟩ := toSfs_spec (it := it) (by
        by_cases hx : ∃ s, it = .sfs s
        · obtain ⟨s, rfl⟩ := hx
          exact Or.inl (hsfs s rfl)
        · exact Or.inr fun s hs => hx ⟨s, hs⟩)
      have hitems : it.toSfs.items = X := strictSorted_ext t1 hsort (fun a => (t2 a).trans (hmem a).symm)
      rcases ensure_items sup it hsup (by simpa using hir) t1 (by rw [hitems]; exact hne) with
        ⟨out, h1, h2, h3, -, -⟩ | ⟨-, hbad⟩
      · rw [hitems] at h2
        refine ⟨out, h1, h2, ?_, ?_⟩
        · cases out with
          | range r => exact h3.1
          | sfs s => exact h3
          | _ => exact h3.elim
        · intro m hm heq
          cases out with
          | range r =>
            have h2' : r.toList = X := h2
            exact ⟨h3.1, PyRange.bounds_of_mem h3.1 (by rw [h2']; exact hne) (by rw [h2']; exact hnn m heq)⟩
          | sfs s =>
            have h2' : s.items = X := h2
            exact ⟨h3, by rw [h2']; exact hne⟩
          | _ => exact h3.elim
      · rw [hitems] at hbad
        rcases hbad with hbad | ⟨hl, r, hr, hn⟩
        · exact absurd hsub hbad
        · exact absurd (hstep hl r hr) hn

/-! ## Rows -/

/-- Slicing a list by the numbers of an ascending range that has none beyond the end. -/
theorem pySliceList_range {α : Type} (l : List α) (r : PyRange) (h : 0 < r.step) (h0 : 0 ≤ r.start) (h1 : 0 ≤ r.stop)
    (hb : ∀ k ∈ r.toList, k < l.length) :
    pySliceList l ⟨some r.start, some (min r.stop l.length), some r.step⟩ =
      .ok (r.toList.filterMap fun i => l[i.toNat]?) := by
  have hi : PySlice.indices ⟨some r.start, some (min r.stop l.length), some r.step⟩ l.length =
      .ok ⟨min r.start l.length, min r.stop l.length, r.step, r.step_ne⟩ := by
    unfold PySlice.indices PyRange.make PySlice.adjust
    simp only [Option.getD_some]
    rw [dif_neg r.step_ne, if_neg (by omega), if_neg (by omega), if_neg (by omega)]
    congr 2
    omega
  unfold pySliceList
  rw [hi]
  simp only [bind, Except.bind, pure, Except.pure]
  congr 2
  refine strictSorted_ext (range_sorted_pos _ h) (range_sorted_pos r h) (fun x => ?_)
  have hstart : r.start < r.stop → r.start < l.length := by
    intro hlt
    apply hb
    rw [← PyRange.contains_iff]
    unfold PyRange.contains
    rw [if_pos h]
    simp [hlt]
  have hx := hb x
  rw [← PyRange.contains_iff] at hx
  rw [← PyRange.contains_iff, ← PyRange.contains_iff]
  unfold PyRange.contains at hx ⊢
  simp only [h, if_true, Bool.and_eq_true, decide_eq_true_iff] at hx ⊢
  by_cases hlt : r.start < r.stop
  · have := hstart hlt
    rw [min_eq_left (by omega)]
    constructor
    · rintro ⟨⟨a, b⟩, c⟩; exact ⟨⟨a, by omega⟩, c⟩
    · intro hh; have := hx hh; exact ⟨⟨hh.1.1, by omega⟩, hh.2⟩
  · constructor
    · rintro ⟨⟨a, b⟩, c⟩; omega
    · rintro ⟨⟨a, b⟩, c⟩; omega

theorem filterMap_cast {d : DType} {l : List PyNum} {P : Nat → Scalar → Prop}
    (hcast : ∀ k v, l[k]? = some v → ∃ x, d.cast v = .ok x ∧ P k x) (ks : List Int)
    (hb : ∀ k ∈ ks, 0 ≤ k ∧ k < l.length) :
    ∃ xs, (ks.filterMap fun i => l[i.toNat]?).mapM d.cast = .ok xs ∧ List.Forall₂ (fun k x => P k.toNat x) ks xs := by
  induction ks with
  | nil => exact ⟨[], rfl, .nil⟩
  | cons k ks ih =>
    obtain ⟨h0, h1⟩ := hb k List.mem_cons_self
    obtain ⟨xs, h2, h3⟩ := ih fun x hx => hb x (List.mem_cons_of_mem _ hx)
    have hlt : k.toNat < l.length := by omega
    obtain ⟨x, h4, h5⟩ := hcast _ _ (List.getElem?_eq_getElem hlt)
    refine ⟨x :: xs, ?_, .cons h5 h3⟩
    rw [List.filterMap_cons_some (f := fun i : Int => l[i.toNat]?) (List.getElem?_eq_getElem hlt), List.mapM_cons, h4, h2]
    rfl

theorem reads_traceSamples (r : Reader) (native : Endian) (i : Int) (start stop : Option Int) :
    (r.traceSamples native i start stop).Reads := by
  intro s
  rw [traceSamples_eq]
  cases r.locateSamples i start stop with
  | error e => exact ⟨s.pos, rfl⟩
  | ok x => exact reads_values _ _ _ _ _ s

/-- Sub-ranges of the samples of a trace. -/
theorem traceSamples_sub {r : Reader} {native : Endian} {i : Int} {s : FileH} {l : List PyNum}
    (h : (r.traceSamples native i none none).Yields s l) :
    r.numTraceSamples i = .ok l.length ∧ ∀ a b : Nat, a ≤ b → b ≤ l.length →
      (r.traceSamples native i (some a) (some b)).Yields s ((l.take b).drop a) := by
  have hpos : ∀ pos, (r.traceSamples native i none none { s with pos := pos }).1 = .ok l := by
    intro pos
    obtain ⟨k, hk⟩ := h pos
    rw [hk]
  refine ⟨(Props.C45_subrange r native i _ l (hpos 0)).1, fun a b hab hb => ?_⟩
  exact FileM.Yields.of_reads (reads_traceSamples _ _ _ _ _)
    fun pos => (Props.C45_subrange r native i _ l (hpos pos)).2.1 a b hab hb

/-- The row of a trace that is there and has all the samples asked for. -/
theorem sectionRow_present {r : Reader} {native : Endian} {s : FileH} {k : Int × Int} {i : Int} {l : List PyNum}
    {S : PyIter} {d : DType} {null : Option Scalar} {P : Nat → Scalar → Prop} (hhas : r.hasTraceIndex3 k = .ok true)
    (hidx : r.traceIndex3 k = .ok i) (hl : (r.traceSamples native i none none).Yields s l) (hS : SampleSelection S)
    (hb : ∀ n ∈ S.toList, 0 ≤ n ∧ n < l.length)
    (hcast : ∀ k v, l[k]? = some v → ∃ x, d.cast v = .ok x ∧ P k x) :
    ∃ row, (sectionRow r native k S d null).Yields s row ∧
      List.Forall₂ (fun n x => ∃ y, x = some y ∧ P n.toNat y) S.toList row := by
  obtain ⟨hn, hsub⟩ := traceSamples_sub hl
  cases S with
  | range q =>
    obtain ⟨hq, hq0, hq1⟩ := hS
    obtain ⟨xs, hx1, hx2⟩ := filterMap_cast hcast q.toList hb
    have hsl := pySliceList_range l q hq hq0 hq1 (fun k hk => (hb k hk).2)
    refine ⟨xs.map some, ?_, ?_⟩
    · unfold sectionRow rowOverSampleRange
      refine (FileM.Yields.lift hhas).bind ?_
      rw [if_pos rfl]
      refine (FileM.Yields.lift hidx).bind ((FileM.Yields.lift hn).bind ?_)
      simp only
      refine hl.bind ((FileM.Yields.lift hsl).bind (FileM.Yields.lift ?_))
      rw [hx1]
      simp only [bind, Except.bind]
      unfold assignRow
      rw [if_pos]
      have := hx2.length_eq
      rw [PyRange.length_toList] at this
      simp [blankRow, this]
    · rw [List.forall₂_map_right_iff]
      exact hx2.imp fun n x h => ⟨x, rfl, h⟩
  | sfs q =>
    obtain ⟨hq, hne⟩ := hS
    have hlen : 0 < q.items.length := List.length_pos_iff.mpr hne
    have hget0 : (PyIter.sfs q).get 0 = .ok q.items[0] := by
      rw [PyIter.get_eq]; exact pyGet_zero q.items hlen
    have hget1 : (PyIter.sfs q).get (-1) = .ok q.items[q.items.length - 1] := by
      rw [PyIter.get_eq]; exact pyGet_last q.items hlen
    obtain ⟨f0, f1⟩ := hb q.items[0] (List.getElem_mem hlen)
    obtain ⟨g0, g1⟩ := hb q.items[q.items.length - 1] (List.getElem_mem (by omega : q.items.length - 1 < q.items.length))
    have hmin : min (q.items[q.items.length - 1] + 1) (l.length : Int) = ((q.items[q.items.length - 1].toNat + 1 : Nat) : Int) := by
      omega
    have hle : ∀ x ∈ q.items, q.items[0] ≤ x ∧ x ≤ q.items[q.items.length - 1] := by
      intro x hx
      obtain ⟨j, hj, rfl⟩ := List.mem_iff_getElem.mp hx
      constructor
      · rcases Nat.eq_zero_or_pos j with rfl | h
        · exact le_refl _
        · exact (List.pairwise_iff_getElem.mp hq 0 j hlen hj h).le
      · rcases Nat.lt_or_ge j (q.items.length - 1) with h | h
        · exact (List.pairwise_iff_getElem.mp hq j _ hj (by omega) h).le
        · have : j = q.items.length - 1 := by omega
          subst this
          exact le_refl _
    have hsame : q.items[0] ≤ q.items[q.items.length - 1] := (hle _ (List.getElem_mem hlen)).2
    have hread := hsub q.items[0].toNat (q.items[q.items.length - 1].toNat + 1) (by omega) (by omega)
    rw [Int.toNat_of_nonneg f0, ← hmin] at hread
    have hcells : ∃ row, q.items.mapM (fun n => do
        let v ← pyGet ((l.take (q.items[q.items.length - 1].toNat + 1)).drop q.items[0].toNat) (n - q.items[0])
        return some (← d.cast v) : Int → Res (Option Scalar)) = .ok row ∧
        List.Forall₂ (fun n x => ∃ y, x = some y ∧ P n.toNat y) q.items row := by
      apply res_mapM
      intro n hn
      obtain ⟨e1, e2⟩ := hle n hn
      obtain ⟨n0, n1⟩ := hb n hn
      have hlt : n.toNat < l.length := by omega
      obtain ⟨x, hx1, hx2⟩ := hcast _ _ (List.getElem?_eq_getElem hlt)
      refine ⟨some x, ?_, x, rfl, hx2⟩
      have hj : n - q.items[0] = ((n.toNat - q.items[0].toNat : Nat) : Int) := by omega
      rw [hj, pyGet_nat _ _ (by rw [List.length_drop, List.length_take]; omega)]
      simp only [bind, Except.bind, List.getElem_drop, List.getElem_take]
      have : q.items[0].toNat + (n.toNat - q.items[0].toNat) = n.toNat := by omega
      simp only [this, hx1]
      rfl
    obtain ⟨row, hr1, hr2⟩ := hcells
    refine ⟨row, ?_, hr2⟩
    unfold sectionRow rowNumberedSamples
    refine (FileM.Yields.lift hhas).bind ?_
    rw [if_pos rfl]
    refine (FileM.Yields.lift hidx).bind ((FileM.Yields.lift hn).bind ((FileM.Yields.lift hget0).bind
      ((FileM.Yields.lift hget1).bind ?_)))
    exact hread.bind (FileM.Yields.lift hr1)
  | _ => exact hS.elim

/-- The row of a trace that is not there. -/
theorem sectionRow_absent {r : Reader} {native : Endian} {s : FileH} {k : Int × Int} {S : PyIter} {d : DType}
    {null : Option Scalar} (hhas : r.hasTraceIndex3 k = .ok false) :
    (sectionRow r native k S d null).Yields s (List.replicate S.toList.length null) := by
  have h : ∀ n, n = S.len → List.replicate S.toList.length null = blankRow n null := by
    intro n hn; rw [hn, PyIter.len_eq]; rfl
  cases S with
  | range q =>
    rw [h q.len rfl]
    unfold sectionRow rowOverSampleRange
    exact (FileM.Yields.lift hhas).bind (FileM.Yields.pure s _)
  | _ =>
    rw [h _ rfl]
    unfold sectionRow rowNumberedSamples
    exact (FileM.Yields.lift hhas).bind (FileM.Yields.pure s _)

end Segpy
