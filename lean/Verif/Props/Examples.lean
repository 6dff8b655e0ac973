import Verif.Model.Examples
import Verif.Spec.Examples
import Verif.Lemmas.Extract3
import Verif.Lemmas.ExampleFile
import Verif.Props.Cli

/-! # Properties of the example scripts for time slices and trace positions: C73, C74 -/

namespace Segpy.Props

open Segpy.Spec Segpy.FileM

/-! ## Filling an array element by element -/

private theorem map_set {α : Type} {I : List Int} (hI : I.Nodup) (f : Int → α) (a : Nat) (ha : a < I.length) (v : α) :
    (I.map f).set a v = I.map fun i => if i = I[a] then v else f i := by
  apply List.ext_getElem
  · simp
  · intro n h1 h2
    rw [List.getElem_set, List.getElem_map, List.getElem_map]
    have hn : n < I.length := by simpa using h2
    by_cases h : a = n
    · subst h; simp
    · rw [if_neg h, if_neg]
      intro hc
      exact h ((List.Nodup.getElem_inj_iff hI).mp hc).symm

private theorem assign_table {I X : List Int} (hI : I.Nodup) (hX : X.Nodup) (f : Int × Int → Scalar) (a b : Nat)
    (ha : a < I.length) (hb : b < X.length) (v : Scalar) :
    assignElement (I.map fun i => X.map fun x => f (i, x)) a b v =
      .ok (I.map fun i => X.map fun x => if (i, x) = (I[a], X[b]) then v else f (i, x)) := by
  unfold assignElement
  simp only [Int.toNat_natCast, List.getElem?_map, List.getElem?_eq_getElem ha, Option.map_some, List.length_map]
  rw [if_pos hb, map_set hI _ a ha, map_set hX _ b hb]
  refine congrArg Except.ok (List.map_congr_left fun i _ => ?_)
  by_cases hi : i = I[a]
  · subst hi
    rw [if_pos rfl]
    refine List.map_congr_left fun x _ => ?_
    by_cases hx : x = X[b]
    · rw [if_pos hx, if_pos (by rw [hx])]
    · rw [if_neg hx, if_neg (by simp [hx])]
  · rw [if_neg hi]
    refine List.map_congr_left fun x _ => ?_
    rw [if_neg (by simp [hi])]

private theorem fill_table {I X : List Int} {s : FileH} {step : List (List Scalar) → Int × Int → FileM (List (List Scalar))}
    (val : Int × Int → Scalar) (keys : List (Int × Int))
    (hstep : ∀ k ∈ keys, ∀ f : Int × Int → Scalar,
      (step (I.map fun i => X.map fun x => f (i, x)) k).Yields s
        (I.map fun i => X.map fun x => if (i, x) = k then val k else f (i, x))) :
    ∀ f : Int × Int → Scalar, (keys.foldlM step (I.map fun i => X.map fun x => f (i, x))).Yields s
      (I.map fun i => X.map fun x => if (i, x) ∈ keys then val (i, x) else f (i, x)) := by
  induction keys with
  | nil => intro f; simpa using FileM.Yields.pure s _
  | cons k keys ih =>
    intro f
    rw [List.foldlM_cons]
    refine (hstep k List.mem_cons_self f).bind ?_
    have := ih (fun k hk => hstep k (List.mem_cons_of_mem _ hk)) fun p => if p = k then val k else f p
    refine (congrArg (FileM.Yields _ s) ?_).mp this
    refine List.map_congr_left fun i _ => List.map_congr_left fun x _ => ?_
    by_cases h1 : (i, x) ∈ keys
    · rw [if_pos h1, if_pos (List.mem_cons_of_mem _ h1)]
    · rw [if_neg h1]
      by_cases h2 : (i, x) = k
      · rw [if_pos h2, if_pos (by rw [h2]; exact List.mem_cons_self), h2]
      · rw [if_neg h2, if_neg (by simp [h1, h2])]

private theorem fill_raises {I X : List Int} {s : FileH} {step : List (List Scalar) → Int × Int → FileM (List (List Scalar))}
    (keys : List (Int × Int))
    (hstep : ∀ k ∈ keys, (∀ rows pos, (step rows k { s with pos := pos }).1 = .error .eofError) ∨
      ∃ v, ∀ f : Int × Int → Scalar, (step (I.map fun i => X.map fun x => f (i, x)) k).Yields s
        (I.map fun i => X.map fun x => if (i, x) = k then v else f (i, x)))
    (hsome : ∃ k ∈ keys, ∀ rows pos, (step rows k { s with pos := pos }).1 = .error .eofError) :
    ∀ (f : Int × Int → Scalar) pos,
      (keys.foldlM step (I.map fun i => X.map fun x => f (i, x)) { s with pos := pos }).1 = .error .eofError := by
  induction keys with
  | nil => obtain ⟨k, hk, -⟩ := hsome; cases hk
  | cons k keys ih =>
    intro f pos
    rw [List.foldlM_cons]
    have hraise : (∀ rows pos, (step rows k { s with pos := pos }).1 = .error .eofError) →
        ((step (I.map fun i => X.map fun x => f (i, x)) k >>= fun rows => keys.foldlM step rows) { s with pos := pos }).1 =
          .error .eofError := by
      intro h
      cases hc : step (I.map fun i => X.map fun x => f (i, x)) k { s with pos := pos } with
      | mk x s' =>
        have := h (I.map fun i => X.map fun x => f (i, x)) pos
        rw [hc] at this
        obtain rfl : x = .error .eofError := this
        rw [bind_error hc]
    rcases hstep k List.mem_cons_self with h | ⟨v, h⟩
    · exact hraise h
    · obtain ⟨k0, hk0, h0⟩ := hsome
      rcases List.mem_cons.mp hk0 with rfl | hk0
      · exact hraise h0
      · obtain ⟨k', hk'⟩ := h f pos
        rw [bind_ok hk']
        exact ih (fun k hk => hstep k (List.mem_cons_of_mem _ hk)) ⟨k0, hk0, h0⟩ (fun p => if p = k then v else f p) k'

private theorem canonical_index {it : PyIter} (h : Canonical it) {x : Int} (hx : x ∈ it.toList) :
    ∃ (a : Nat) (ha : a < it.toList.length), it.toList[a] = x ∧ it.index x = .ok (a : Int) := by
  obtain ⟨a, ha, rfl⟩ := List.mem_iff_getElem.mp hx
  refine ⟨a, ha, rfl, PyIter.index_ok it ?_ (h.sorted.imp fun h => ne_of_lt h) a ha⟩
  cases it with
  | range r => trivial
  | sfs s => exact h
  | _ => exact h.elim

private theorem format_inj {t t' : SegYType} {code : Int} (h : formatCode t = some code) (h' : formatCode t' = some code) :
    t = t' := by
  unfold formatCode at h
  split at h <;> cases h <;> (unfold formatCode at h'; split at h' <;> cases h'; rfl)

/-- The element put at the place of a trace. -/
private theorem slice_sample {s : FileH} {t : SegYType} {starts : List Nat} {r : Reader}
    (h : Sectioned fmtTraceHeaderRev1 .big s t starts r) (native : Endian) (n : Nat) {d : DType} (hd : makeDtype t = .ok d)
    (null : Scalar) (k : Int × Int)
    (hw : ∀ p ∈ starts, linesAt fmtTraceHeaderRev1 .big s.data p = k → Whole fmtTraceHeaderRev1 .big s.data t p)
    (hk : k ∈ linePairs fmtTraceHeaderRev1 .big s.data starts) :
    ∃ (i : Nat) (v : Scalar) (l : List PyNum), r.traceIndex3 k = .ok (i : Int) ∧
      (r.traceSamples native i none none).Yields s l ∧
      (match l[n]? with | some v => d.cast v | none => .ok null) = .ok v ∧ SliceCell s.data t starts null n k v := by
  rcases h.cases k with ⟨-, h2⟩ | ⟨i, hi, h1, h2, h3, h4⟩
  · obtain ⟨p, hp, rfl⟩ := List.mem_map.mp hk
    exact absurd rfl (h2 p hp)
  · obtain ⟨l, l1, l2, l3⟩ := h.toReadable.trace native hi (hw _ (List.getElem_mem hi) h3)
    by_cases hn : n < l.length
    · obtain ⟨x, x1, x2⟩ := l3 d hd n _ (List.getElem?_eq_getElem hn)
      refine ⟨i, x, l, h2, l1, ?_, fun p hp hpk => ?_, fun hno => absurd h3 (hno _ (List.getElem_mem hi))⟩
      · rw [List.getElem?_eq_getElem hn]; exact x1
      · rw [h4 p hp hpk]
        exact ⟨fun _ => x2, fun hc => by omega⟩
    · refine ⟨i, null, l, h2, l1, ?_, fun p hp hpk => ?_, fun hno => absurd h3 (hno _ (List.getElem_mem hi))⟩
      · rw [List.getElem?_eq_none (by omega)]
      · rw [h4 p hp hpk]
        exact ⟨fun hc => by omega, fun _ => rfl⟩

/-- `timeslice.py` on any file: what `create_reader` raises, `KeyError` if the survey is not three-dimensional,
`ValueError` if no trace has a sample with this number, `EOFError` if a trace is cut off, and otherwise the table of the
samples with one row for each inline number and one column for each crossline number. -/
theorem C73_timeslice (s : FileH) (hs : s.pos = 0) (native : Endian) (slice_index : Int) (null : Scalar) :
    match createReader none fmtBinaryReelHeader fmtTraceHeaderRev1 .big none s with
    | (.error k, _) => (extractTimeslice native slice_index null s).1 = .error k
    | (.ok (r, _), _) =>
      ∃ code t starts, Survey s.data r.extended_textual_headers.length code starts ∧ formatCode t = some code ∧
        (¬ (surveyLines s.data starts).Nodup → (extractTimeslice native slice_index null s).1 = .error .keyError) ∧
        ((surveyLines s.data starts).Nodup →
          ((slice_index < 0 ∨ ∀ n ∈ surveySamples s.data starts, n ≤ slice_index) →
            (extractTimeslice native slice_index null s).1 = .error .valueError) ∧
          (∀ n : Nat, slice_index = n → (∃ m ∈ surveySamples s.data starts, (n : Int) < m) →
            ((∃ p ∈ starts, ¬ Whole fmtTraceHeaderRev1 .big s.data t p) →
              (extractTimeslice native slice_index null s).1 = .error .eofError) ∧
            ((∀ p ∈ starts, Whole fmtTraceHeaderRev1 .big s.data t p) →
              ∀ inlines xlines, Arranges ((surveyLines s.data starts).map Prod.fst) inlines →
                Arranges ((surveyLines s.data starts).map Prod.snd) xlines →
              ∃ rows, (extractTimeslice native slice_index null s).1 = .ok rows ∧
                Tabulates inlines xlines (fun i x c => SliceCell s.data t starts null n (i, x) c) rows))) := by
  cases hc : createReader none fmtBinaryReelHeader fmtTraceHeaderRev1 .big none s with
  | mk x s' =>
    cases x with
    | error k =>
      show (extractTimeslice native slice_index null s).1 = .error k
      unfold extractTimeslice
      rw [bind_error hc]
    | ok y =>
      obtain ⟨r, progress⟩ := y
      obtain ⟨code, t, starts, h1, h2, h3, h4, h5, -, -, -⟩ := opened_facts hs hc
      obtain ⟨t', starts', g1, g2, -, g3, -⟩ := createReader_sectioned (C43_rev1_cataloguable .big) hc
      obtain rfl : t = t' := Except.ok.inj (h3.symm.trans g1.data_sample_format)
      obtain ⟨t', k1, k2⟩ := h1.traces
      obtain rfl := format_inj h2 k1
      have hss := C61_unique _ _ _ _ _ _ _ k2 g2
      subst hss
      have hroom : ∀ p ∈ starts, p + 240 ≤ s.data.length ∧ 0 ≤ fieldAt fmtTraceHeaderRev1 .big s.data p "num_samples" := by
        intro p hp
        obtain ⟨t'', starts'', ho⟩ := createReader_opened (C43_rev1_cataloguable .big) hc
        obtain rfl : t = t'' := Except.ok.inj (h3.symm.trans ho.format)
        have := C61_unique _ _ _ _ _ _ _ k2 ho.traces
        subst this
        obtain ⟨q1, -, q3⟩ := start_facts (C43_rev1_cataloguable .big) ho hp
        exact ⟨q1, by rw [q3]; exact Int.natCast_nonneg _⟩
      obtain ⟨d, hd⟩ := makeDtype_of_format h3
      obtain ⟨m, r', m1, ⟨p, hp, hm⟩, m3⟩ := h4.max_num_trace_samples
      obtain ⟨k', rfl⟩ := (reads_createReader none fmtBinaryReelHeader fmtTraceHeaderRev1 .big none).ok hc
      have hstart : extractTimeslice native slice_index null s =
          (do
            let dimensionality ← FileM.lift r.dimensionality
            if dimensionality ≠ 3 then FileM.raise .keyError
            else
              let (inline_numbers, _) ← FileM.lift r.inlineNumbers
              let (xline_numbers, _) ← FileM.lift r.xlineNumbers
              let (t_size, _) ← FileM.lift r.maxNumTraceSamples
              if ¬ (0 ≤ slice_index ∧ slice_index < t_size) then FileM.raise .valueError
              else
                let keys ← FileM.lift r.inlineXlineNumbers
                keys.foldlM (timesliceRound r native slice_index d null)
                  (List.replicate inline_numbers.len (List.replicate xline_numbers.len null))) { s with pos := k' } := by
        unfold extractTimeslice
        rw [bind_ok hc]
        simp only
        rw [h3, show (do makeDtype (← (Except.ok t : Res SegYType))) = Except.ok d from hd, bind_ok (lift_apply _ _)]
      refine ⟨code, t, starts, h1, h2, ?_, ?_⟩
      · intro hn
        rw [hstart, h5, bind_ok (lift_apply _ _), if_pos]
        · rfl
        · unfold dimensionOf
          rw [if_neg hn]
          split <;> decide
      · intro hn
        have hdim : r.dimensionality = .ok 3 := by
          rw [h5]
          unfold dimensionOf
          rw [if_pos hn]
        have hsec := g3 hdim hn
        obtain ⟨I, r1, i1, i2⟩ := hsec.finds.inlines
        obtain ⟨X, r2, x1, x2⟩ := hsec.finds.xlines
        obtain ⟨keys, l1, -, l3⟩ := hsec.finds.lines
        have hrun : extractTimeslice native slice_index null s =
          (if ¬ (0 ≤ slice_index ∧ slice_index < m) then FileM.raise .valueError
              else keys.foldlM (timesliceRound r native slice_index d null)
                  (List.replicate I.len (List.replicate X.len null))) { s with pos := k' } := by
          rw [hstart, hdim, bind_ok (lift_apply _ _), if_neg (by decide), i1, bind_ok (lift_apply _ _)]
          simp only
          rw [x1, bind_ok (lift_apply _ _)]
          simp only
          rw [m1, bind_ok (lift_apply _ _)]
          simp only
          split
          · rfl
          · rw [l1, bind_ok (lift_apply _ _)]
        constructor
        · intro hout
          rw [hrun, if_pos]
          · rfl
          · rintro ⟨q1, q2⟩
            rcases hout with hout | hout
            · omega
            · have := hout m (List.mem_map.mpr ⟨p, hp, hm⟩)
              omega
        · rintro n rfl ⟨m', hm', hlt⟩
          obtain ⟨q, hq, rfl⟩ := List.mem_map.mp hm'
          have hq' := m3 q hq
          have hIn : I.toList.Nodup := i2.1.imp fun h => ne_of_lt h
          have hXn : X.toList.Nodup := x2.1.imp fun h => ne_of_lt h
          have hround : ∀ k ∈ keys, ∀ (i : Nat) v (l : List PyNum), r.traceIndex3 k = .ok (i : Int) →
              (r.traceSamples native i none none).Yields s l →
              (match l[n]? with | some v => d.cast v | none => .ok null) = .ok v →
              ∀ f : Int × Int → Scalar,
                (timesliceRound r native (n : Int) d null (I.toList.map fun i => X.toList.map fun x => f (i, x)) k).Yields s
                  (I.toList.map fun i => X.toList.map fun x => if (i, x) = k then v else f (i, x)) := by
            intro k hk i v l a1 a2 a3 f
            have hk' := (l3 k).mp hk
            obtain ⟨a, ha, ea, ia⟩ := canonical_index (hsec.inline_canonical _ _ i1)
              ((i2.2 k.1).mpr (List.mem_map.mpr ⟨k, hk', rfl⟩))
            obtain ⟨b, hb, eb, ib⟩ := canonical_index (hsec.xline_canonical _ _ x1)
              ((x2.2 k.2).mpr (List.mem_map.mpr ⟨k, hk', rfl⟩))
            unfold timesliceRound
            refine (FileM.Yields.lift a1).bind (a2.bind ((FileM.Yields.lift (a := v) ?_).bind
              ((FileM.Yields.lift i1).bind ((FileM.Yields.lift ia).bind ((FileM.Yields.lift x1).bind
                ((FileM.Yields.lift ib).bind (FileM.Yields.lift ?_)))))))
            · rw [Int.toNat_natCast]; exact a3
            · rw [assign_table hIn hXn f a b ha hb, ea, eb]
          have hblank : List.replicate I.len (List.replicate X.len null) =
              I.toList.map fun i => X.toList.map fun x => null := by
            rw [PyIter.len_eq, PyIter.len_eq]; simp
          constructor
          · rintro ⟨p0, hp0, hw0⟩
            rw [hrun, if_neg (by omega), hblank]
            have hcut : ∀ k ∈ keys, ∀ p ∈ starts, linesAt fmtTraceHeaderRev1 .big s.data p = k →
                ¬ Whole fmtTraceHeaderRev1 .big s.data t p →
                ∀ rows pos, (timesliceRound r native (n : Int) d null rows k { s with pos := pos }).1 = .error .eofError := by
              intro k hk p hp hpk hnw rows pos
              rcases hsec.cases k with ⟨-, b2⟩ | ⟨i, hi, b1, b2, b3, b4⟩
              · exact absurd hpk (b2 p hp)
              · obtain rfl := b4 p hp hpk
                obtain ⟨w1, w2⟩ := hroom _ hp
                obtain ⟨w, w3⟩ := Int.eq_ofNat_of_zero_le w2
                have hlong : s.data.length < starts[i] + 240 + w * t.size := by
                  by_contra hcon
                  exact hnw ⟨w, w3, by omega⟩
                have hw0 : 0 < w := by
                  rcases Nat.eq_zero_or_pos w with rfl | h
                  · rw [Nat.zero_mul] at hlong; omega
                  · exact h
                have hnum := h4.num_trace_samples i hi
                rw [w3] at hnum
                have he := (hsec.reads native i hi 0 w pos (Nat.zero_le _) (by rw [w3])).1 hw0 hlong
                unfold timesliceRound
                rw [b2, bind_ok (lift_apply _ _)]
                rw [Nat.cast_zero, ← traceSamples_all r native i (w : Int) hnum] at he
                cases hcx : r.traceSamples native i none none { s with pos := pos } with
                | mk x s'' =>
                  rw [hcx] at he
                  obtain rfl : x = .error .eofError := he
                  rw [bind_error hcx]
            have hk0 : linesAt fmtTraceHeaderRev1 .big s.data p0 ∈ keys := (l3 _).mpr (List.mem_map.mpr ⟨p0, hp0, rfl⟩)
            refine fill_raises (I := I.toList) (X := X.toList) keys ?_ ⟨_, hk0, hcut _ hk0 p0 hp0 rfl hw0⟩ (fun _ => null) k'
            intro k hk
            by_cases hall : ∀ p ∈ starts, linesAt fmtTraceHeaderRev1 .big s.data p = k →
                Whole fmtTraceHeaderRev1 .big s.data t p
            · obtain ⟨i, v, l, a1, a2, a3, -⟩ := slice_sample hsec native n hd null k hall ((l3 k).mp hk)
              exact Or.inr ⟨v, hround k hk i v l a1 a2 a3⟩
            · push Not at hall
              obtain ⟨p, hp, hpk, hnw⟩ := hall
              exact Or.inl (hcut k hk p hp hpk hnw)
          intro hw inlines xlines hin hxn
          have hI : I.toList = inlines := strictSorted_ext i2.1 hin.1 fun a => (i2.2 a).trans (hin.2 a).symm
          have hX : X.toList = xlines := strictSorted_ext x2.1 hxn.1 fun a => (x2.2 a).trans (hxn.2 a).symm
          have hval : ∀ k : Int × Int, ∃ v, k ∈ keys → ∃ (i : Nat) (l : List PyNum), r.traceIndex3 k = .ok (i : Int) ∧
              (r.traceSamples native i none none).Yields s l ∧
              (match l[n]? with | some v => d.cast v | none => .ok null) = .ok v ∧
              SliceCell s.data t starts null n k v := by
            intro k
            by_cases hk : k ∈ keys
            · obtain ⟨i, v, l, a⟩ := slice_sample hsec native n hd null k (fun p hp _ => hw p hp) ((l3 k).mp hk)
              exact ⟨v, fun _ => ⟨i, l, a⟩⟩
            · exact ⟨null, fun h => absurd h hk⟩
          choose val hval using hval
          have hfill := fill_table (I := I.toList) (X := X.toList) (s := s)
            (step := timesliceRound r native (n : Int) d null) val keys (by
              intro k hk f
              obtain ⟨i, l, a1, a2, a3, a4⟩ := hval k hk
              exact hround k hk i _ l a1 a2 a3 f) fun _ => null
          obtain ⟨k2, hk2⟩ := hfill k'
          refine ⟨I.toList.map fun i => X.toList.map fun x => if (i, x) ∈ keys then val (i, x) else null, ?_, ?_⟩
          · rw [hrun, if_neg (by omega), hblank, hk2]
          · rw [← hI, ← hX]
            unfold Tabulates
            rw [List.forall₂_map_right_iff, List.forall₂_same]
            intro i _
            rw [List.forall₂_map_right_iff, List.forall₂_same]
            intro x _
            by_cases hk : (i, x) ∈ keys
            · rw [if_pos hk]
              obtain ⟨_, _, -, -, -, a4⟩ := hval _ hk
              exact a4
            · rw [if_neg hk]
              refine ⟨fun p hp hpk => absurd ((l3 _).mpr ?_) hk, fun _ => rfl⟩
              exact List.mem_map.mpr ⟨p, hp, hpk⟩

/-! ## Trace positions -/

private theorem mapM_raises {α β : Type} {f : α → FileM β} {s : FileH} (l : List α)
    (h : ∀ a ∈ l, (∀ pos, (f a { s with pos := pos }).1 = .error .eofError) ∨ ∃ b, (f a).Yields s b)
    (hsome : ∃ a ∈ l, ∀ pos, (f a { s with pos := pos }).1 = .error .eofError) :
    ∀ pos, (l.mapM f { s with pos := pos }).1 = .error .eofError := by
  induction l with
  | nil => obtain ⟨a, ha, -⟩ := hsome; cases ha
  | cons a l ih =>
    intro pos
    rw [List.mapM_cons]
    have hraise : (∀ pos, (f a { s with pos := pos }).1 = .error .eofError) →
        ((f a >>= fun b => l.mapM f >>= fun bs => pure (b :: bs)) { s with pos := pos }).1 = .error .eofError := by
      intro h
      cases hc : f a { s with pos := pos } with
      | mk x s' =>
        have := h pos
        rw [hc] at this
        obtain rfl : x = .error .eofError := this
        rw [bind_error hc]
    rcases h a List.mem_cons_self with h1 | ⟨b, h1⟩
    · exact hraise h1
    · obtain ⟨a0, ha0, h0⟩ := hsome
      rcases List.mem_cons.mp ha0 with rfl | ha0
      · exact hraise h0
      · obtain ⟨k, hk⟩ := h1 pos
        rw [bind_ok hk]
        have := ih (fun a ha => h a (List.mem_cons_of_mem _ ha)) ⟨a0, ha0, h0⟩ k
        cases hc : l.mapM f { s with pos := k } with
        | mk x s' =>
          rw [hc] at this
          obtain rfl : x = .error .eofError := this
          rw [bind_error hc]

private theorem reads_readerTraceHeader (r : Reader) (i : Int) (packer : Option HeaderPacker) :
    Reads (r.traceHeader i packer) := by
  unfold Reader.traceHeader
  refine reads_bind (reads_lift _) fun _ => ?_
  split
  · exact reads_raise _
  · exact reads_bind (reads_lift _) fun _ => reads_traceHeader _ _

/-- `trace_positions.py` on any file: what `create_reader` raises, `EOFError` if a trace header has a field with a value
its type does not admit, and otherwise the index and the CDP coordinates of each trace. -/
theorem C74_trace_positions (s : FileH) (hs : s.pos = 0) :
    match createReader none fmtBinaryReelHeader fmtTraceHeaderRev1 .big none s with
    | (.error k, _) => (tracePositions s).1 = .error k
    | (.ok (r, _), _) =>
      ∃ code starts, Survey s.data r.extended_textual_headers.length code starts ∧
        ((∃ p ∈ starts, ¬ HeaderValid s.data p) → (tracePositions s).1 = .error .eofError) ∧
        ((∀ p ∈ starts, HeaderValid s.data p) → ∃ l, (tracePositions s).1 = .ok l ∧ l.length = starts.length ∧
          ∀ i (h : i < starts.length), l[i]? = some ((i : Int),
            fieldAt fmtTraceHeaderRev1 .big s.data starts[i] "cdp_x",
            fieldAt fmtTraceHeaderRev1 .big s.data starts[i] "cdp_y")) := by
  cases hc : createReader none fmtBinaryReelHeader fmtTraceHeaderRev1 .big none s with
  | mk x s' =>
    cases x with
    | error k =>
      show (tracePositions s).1 = .error k
      unfold tracePositions
      rw [bind_error hc]
    | ok y =>
      obtain ⟨r, progress⟩ := y
      have hT := C43_rev1_cataloguable .big
      have horder : fmtTraceHeaderRev1.OrderSafe :=
        (shipped_regular (F := fmtTraceHeaderRev1) (n := 240) (by decide +kernel) .big).orderSafe
      obtain ⟨code, t, starts, h1, h2, h3, h4, -, -, -, -⟩ := opened_facts hs hc
      obtain ⟨ta, sa, a1, a2, a3⟩ := C61_trace_header _ _ hT horder _ _ _ _ _ _ _ hc
      obtain ⟨tb, sb, b1, b2, b3⟩ := C61_trace_header_refused _ _ hT horder _ _ _ _ _ _ _ hc
      obtain ⟨t', k1, k2⟩ := h1.traces
      obtain rfl := format_inj h2 k1
      obtain rfl : t = ta := Except.ok.inj (h3.symm.trans a1.data_sample_format)
      obtain rfl : t = tb := Except.ok.inj (h3.symm.trans b1.data_sample_format)
      have e1 := C61_unique _ _ _ _ _ _ _ k2 a2
      subst e1
      have e2 := C61_unique _ _ _ _ _ _ _ k2 b2
      subst e2
      obtain ⟨k', rfl⟩ := (reads_createReader none fmtBinaryReelHeader fmtTraceHeaderRev1 .big none).ok hc
      have hrun : tracePositions s =
          ((List.range starts.length).map fun i : Nat => (i : Int)).mapM (tracePosition r) { s with pos := k' } := by
        unfold tracePositions
        rw [bind_ok hc]
        simp only
        rw [h4.trace_indexes, bind_ok (lift_apply _ _)]
      have hx : (⟨"cdp_x", vtInt32, 181, 0⟩ : Field) ∈ fmtTraceHeaderRev1.fields := by decide +kernel
      have hy : (⟨"cdp_y", vtInt32, 185, 0⟩ : Field) ∈ fmtTraceHeaderRev1.fields := by decide +kernel
      have hgood : ∀ i (hi : i < starts.length), HeaderValid s.data starts[i] →
          (tracePosition r (i : Int)).Yields s ((i : Int), fieldAt fmtTraceHeaderRev1 .big s.data starts[i] "cdp_x",
            fieldAt fmtTraceHeaderRev1 .big s.data starts[i] "cdp_y") := by
        intro i hi hv pos
        obtain ⟨hd, q1, -, q3⟩ := a3 i hi pos hv
        obtain ⟨k, hk⟩ := reads_readerTraceHeader r i none { s with pos := pos }
        refine ⟨k, ?_⟩
        unfold tracePosition
        rw [bind_ok (Prod.ext q1 hk), q3 _ hx, bind_ok (lift_apply _ _), q3 _ hy, bind_ok (lift_apply _ _)]
        rfl
      have hbad : ∀ i (hi : i < starts.length), ¬ HeaderValid s.data starts[i] →
          ∀ pos, (tracePosition r (i : Int) { s with pos := pos }).1 = .error .eofError := by
        intro i hi hv pos
        have := b3 i hi pos hv
        unfold tracePosition
        cases hcx : r.traceHeader i none { s with pos := pos } with
        | mk x s'' =>
          rw [hcx] at this
          obtain rfl : x = .error .eofError := this
          rw [bind_error hcx]
      refine ⟨code, starts, h1, ?_, ?_⟩
      · rintro ⟨p, hp, hv⟩
        obtain ⟨i, hi, rfl⟩ := List.mem_iff_getElem.mp hp
        rw [hrun]
        refine mapM_raises _ ?_ ⟨(i : Int), List.mem_map.mpr ⟨i, List.mem_range.mpr hi, rfl⟩, hbad i hi hv⟩ k'
        intro a ha
        obtain ⟨j, hj, rfl⟩ := List.mem_map.mp ha
        have hj := List.mem_range.mp hj
        by_cases hvj : HeaderValid s.data starts[j]
        · exact Or.inr ⟨_, hgood j hj hvj⟩
        · exact Or.inl (hbad j hj hvj)
      · intro hall
        obtain ⟨l, l1, l2⟩ := FileM.Yields.mapM (s := s) (f := tracePosition r)
          (P := fun a b => ∃ (i : Nat) (hi : i < starts.length), a = (i : Int) ∧ b = ((i : Int),
            fieldAt fmtTraceHeaderRev1 .big s.data starts[i] "cdp_x",
            fieldAt fmtTraceHeaderRev1 .big s.data starts[i] "cdp_y"))
          ((List.range starts.length).map fun i : Nat => (i : Int)) (by
            intro a ha
            obtain ⟨j, hj, rfl⟩ := List.mem_map.mp ha
            have hj := List.mem_range.mp hj
            exact ⟨_, hgood j hj (hall _ (List.getElem_mem hj)), j, hj, rfl, rfl⟩)
        obtain ⟨k2, hk2⟩ := l1 k'
        have hlen : l.length = starts.length := by
          have := l2.length_eq
          simpa using this.symm
        refine ⟨l, by rw [hrun, hk2], hlen, ?_⟩
        intro i hi
        rw [List.getElem?_eq_getElem (by omega)]
        have := (List.forall₂_iff_get.mp l2).2 i (by simpa using hi) (by omega)
        obtain ⟨j, hj, e1, e2⟩ := this
        have hij : i = j := by
          have : ((i : Nat) : Int) = (j : Int) := by simpa using e1
          exact_mod_cast this
        subst hij
        exact congrArg some e2

/-! ## Examples: three traces of an inline each, with one crossline and two, no and one samples -/

example : (extractTimeslice .little 0 (.int 9) sampleFile).1 = .ok [[.int 7], [.int 9], [.int 256]] := by decide +kernel

example : (extractTimeslice .little 2 (.int 9) sampleFile).1 = .error .valueError := by decide +kernel

/-- The file with CDP coordinates (3, -4) in the header of the last trace. -/
private def placedFile : FileH :=
  { data := sampleFile.data.take 4264 ++ [0, 0, 0, 3, 255, 255, 255, 252] ++ sampleFile.data.drop 4272, pos := 0 }

example : (tracePositions placedFile).1 = .ok [(0, 0, 0), (1, 0, 0), (2, 3, -4)] := by decide +kernel

/-- The file with a code for the use of the data of 99 in the header of the first trace. -/
private def oddFile : FileH := { data := sampleFile.data.take 3634 ++ [0, 99] ++ sampleFile.data.drop 3636, pos := 0 }

example : (tracePositions oddFile).1 = .error .eofError := by decide +kernel

end Segpy.Props
