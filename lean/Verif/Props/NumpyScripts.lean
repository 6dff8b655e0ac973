import Verif.Model.NumpyScripts
import Verif.Lemmas.ExampleFile
import Verif.Props.Cli
import Verif.Props.Extract
import Verif.Props.ExtractHeaders

/-! # Properties of the example scripts of segpy_numpy: C87, C88 -/

namespace Segpy.Props

open Segpy.Spec Segpy.FileM

/-! ## Rows that cannot be filled -/

private theorem mapM_fails {α β : Type} {f : α → FileM β} {s : FileH} (l : List α) (hr : ∀ a ∈ l, Reads (f a))
    (hsome : ∃ a ∈ l, ∀ pos, ∃ k, (f a { s with pos := pos }).1 = .error k) :
    ∀ pos, ∃ k, (l.mapM f { s with pos := pos }).1 = .error k := by
  induction l with
  | nil => obtain ⟨a, ha, -⟩ := hsome; cases ha
  | cons a l ih =>
    intro pos
    rw [List.mapM_cons]
    cases hc : f a { s with pos := pos } with
    | mk x s' =>
      cases x with
      | error k => exact ⟨k, by rw [bind_error hc]⟩
      | ok b =>
        obtain ⟨k', rfl⟩ := (hr a List.mem_cons_self).ok hc
        rw [bind_ok hc]
        obtain ⟨a0, ha0, h0⟩ := hsome
        rcases List.mem_cons.mp ha0 with rfl | ha0
        · obtain ⟨k, hk⟩ := h0 pos
          rw [hc] at hk
          cases hk
        · obtain ⟨k, hk⟩ := ih (fun a ha => hr a (List.mem_cons_of_mem _ ha)) ⟨a0, ha0, h0⟩ k'
          refine ⟨k, ?_⟩
          cases hc' : l.mapM f { s with pos := k' } with
          | mk y s'' =>
            rw [hc'] at hk
            obtain rfl : y = .error k := hk
            exact congrArg Prod.fst (bind_error hc')

private theorem reads_rowOverSampleRange (r : Reader) (native : Endian) (k : Int × Int) (q : PyRange) (d : DType)
    (null : Option Scalar) : Reads (rowOverSampleRange r native k q d null) := by
  unfold rowOverSampleRange
  refine reads_bind (reads_lift _) fun _ => reads_ite ?_ (reads_pure _)
  exact reads_bind (reads_lift _) fun _ => reads_bind (reads_lift _) fun _ => reads_bind (reads_traceSamples _ _ _ _ _)
    fun _ => reads_bind (reads_lift _) fun _ => reads_lift _

private theorem length_mapM {α β : Type} {f : α → Res β} : ∀ {l : List α} {l' : List β}, l.mapM f = .ok l' → l'.length = l.length
  | [], l', h => by cases h; rfl
  | a :: l, l', h => by
    rw [List.mapM_cons] at h
    cases ha : f a with
    | error k => rw [ha] at h; cases h
    | ok b =>
      cases hl : l.mapM f with
      | error k => rw [ha] at h; simp only [bind, Except.bind, hl] at h; cases h
      | ok bs =>
        rw [ha] at h
        simp only [bind, Except.bind, hl, pure, Except.pure] at h
        cases h
        simp [length_mapM hl]

/-- A trace with neither all samples nor a single one has no row. -/
private theorem row_short {r : Reader} {native : Endian} {s : FileH} {k : Int × Int} {i : Int} {l : List PyNum} {m : Nat}
    {d : DType} {null : Option Scalar} (hhas : r.hasTraceIndex3 k = .ok true) (hidx : r.traceIndex3 k = .ok i)
    (hl : (r.traceSamples native i none none).Yields s l) (hle : l.length ≤ m) (hm : l.length ≠ m) (h1 : l.length ≠ 1)
    (pos : Nat) : ∃ e, (rowOverSampleRange r native k (PyRange.make1 0 (m : Int)) d null { s with pos := pos }).1 = .error e := by
  obtain ⟨hn, -⟩ := traceSamples_sub hl
  have hb : ∀ j ∈ (PyRange.make1 0 (l.length : Int)).toList, j < l.length := by
    intro j hj
    rw [range_toList] at hj
    obtain ⟨a, ha, rfl⟩ := List.mem_map.mp hj
    have := List.mem_range.mp ha
    omega
  have hsl := pySliceList_range l (PyRange.make1 0 (l.length : Int)) Int.one_pos (le_refl _) (Int.natCast_nonneg _) hb
  have hmin : min (PyRange.make1 0 (m : Int)).stop (l.length : Int) = min (PyRange.make1 0 (l.length : Int)).stop l.length := by
    show min (m : Int) l.length = min (l.length : Int) l.length
    omega
  obtain ⟨k', hk'⟩ := hl pos
  unfold rowOverSampleRange
  rw [hhas, bind_ok (lift_apply _ _), if_pos rfl, hidx, bind_ok (lift_apply _ _), hn, bind_ok (lift_apply _ _)]
  rw [bind_ok hk', hmin]
  have hsl' : pySliceList l ⟨some (PyRange.make1 0 (m : Int)).start,
      some (min (PyRange.make1 0 (l.length : Int)).stop l.length), some (PyRange.make1 0 (m : Int)).step⟩ = _ := hsl
  rw [hsl', bind_ok (lift_apply _ _), lift_apply]
  have hlen : ((PyRange.make1 0 (l.length : Int)).toList.filterMap fun j => l[j.toNat]?).length = l.length := by
    rw [List.length_filterMap_eq_countP, List.countP_eq_length.mpr, range_toList]
    · simp [sampleNumbers]
    · intro j hj
      have := hb j hj
      have h0 : 0 ≤ j := by
        rw [range_toList] at hj
        obtain ⟨a, -, rfl⟩ := List.mem_map.mp hj
        exact Int.natCast_nonneg a
      rw [List.getElem?_eq_getElem (by omega)]
      rfl
  cases hc : ((PyRange.make1 0 (l.length : Int)).toList.filterMap fun j => l[j.toNat]?).mapM d.cast with
  | error e => exact ⟨e, by simp only [bind, Except.bind]⟩
  | ok xs =>
    have hxs := (length_mapM hc).trans hlen
    refine ⟨.valueError, ?_⟩
    simp only [bind, Except.bind]
    unfold assignRow
    have hrow : (blankRow (PyRange.make1 0 (m : Int)).len null).length = m := by
      rw [blankRow, List.length_replicate, ← PyRange.length_toList, range_toList]
      simp [sampleNumbers]
    rw [if_neg (by rw [hrow, hxs]; exact hm)]
    match xs, hxs with
    | [], _ => rfl
    | [x], h => exact absurd h.symm h1
    | _ :: _ :: _, _ => rfl

private theorem format_inj {t t' : SegYType} {code : Int} (h : formatCode t = some code) (h' : formatCode t' = some code) :
    t = t' := by
  unfold formatCode at h
  split at h <;> cases h <;> (unfold formatCode at h'; split at h' <;> cases h'; rfl)

private theorem not_3d {r : Reader} {d : Int} (h : r.dimensionality = .ok d) (hd : d ≠ 3) :
    r.inlineNumbers = .error .attributeError := by
  unfold Reader.dimensionality at h
  unfold Reader.inlineNumbers
  split at h
  · rename_i hk; rw [hk]
  · rename_i hk; rw [hk]
  · cases h; exact absurd rfl hd

/-! ## C87 extract_inline.py -/

/-- `extract_inline.py` with a null value, on any file.  It exits with status 70 and saves nothing if the file cannot be
opened, the survey is not three-dimensional, no trace has the inline number, or a trace with this inline number is cut off
or has fewer samples than the longest trace, but more or less than one.  Otherwise, if all traces with the inline number
have as many samples as the longest trace, it exits with status 0 and saves, row by row, the table with a row for each
crossline number and a column for each sample.
Partial: a trace with a single sample is not padded (see `C87_short_fails`). -/
theorem C87_inline_partial (s : FileH) (hs : s.pos = 0) (native : Endian) (inl : Int) (null : Scalar) :
    match createReader none fmtBinaryReelHeader fmtTraceHeaderRev1 .big none s with
    | (.error _, _) => extractInlineMain native inl (some null) s = (70, none)
    | (.ok (r, _), _) =>
      ∃ code t starts, Survey s.data r.extended_textual_headers.length code starts ∧ formatCode t = some code ∧
        (¬ (surveyLines s.data starts).Nodup → extractInlineMain native inl (some null) s = (70, none)) ∧
        ((surveyLines s.data starts).Nodup →
          (inl ∉ (surveyLines s.data starts).map Prod.fst → extractInlineMain native inl (some null) s = (70, none)) ∧
          ∀ m, MostSamples fmtTraceHeaderRev1 .big s.data starts m →
            ((∃ p ∈ starts, (linesAt fmtTraceHeaderRev1 .big s.data p).1 = inl ∧
                (¬ Whole fmtTraceHeaderRev1 .big s.data t p ∨
                  (fieldAt fmtTraceHeaderRev1 .big s.data p "num_samples" ≠ m ∧
                    fieldAt fmtTraceHeaderRev1 .big s.data p "num_samples" ≠ 1))) →
              extractInlineMain native inl (some null) s = (70, none)) ∧
            (inl ∈ (surveyLines s.data starts).map Prod.fst →
              (∀ p ∈ starts, (linesAt fmtTraceHeaderRev1 .big s.data p).1 = inl →
                Whole fmtTraceHeaderRev1 .big s.data t p ∧ fieldAt fmtTraceHeaderRev1 .big s.data p "num_samples" = m) →
              ∀ xlines, Arranges ((surveyLines s.data starts).map Prod.snd) xlines →
              ∃ rows, extractInlineMain native inl (some null) s = (0, some rows.flatten) ∧
                Tabulates xlines (sampleNumbers m)
                  (fun x n c => CellOf fmtTraceHeaderRev1 .big s.data t starts (some null) (inl, x) n c) rows)) := by
  have hfail : ∀ k, (extractInlineScript native inl (some null) s).1 = .error k →
      extractInlineMain native inl (some null) s = (70, none) := by
    intro k hk
    unfold extractInlineMain
    rw [hk]
    rfl
  cases hc : createReader none fmtBinaryReelHeader fmtTraceHeaderRev1 .big none s with
  | mk x s' =>
    cases x with
    | error k =>
      refine hfail k ?_
      unfold extractInlineScript
      rw [bind_error hc]
    | ok y =>
      obtain ⟨r, progress⟩ := y
      obtain ⟨code, t, starts, h1, h2, h3, h4, h5, -, -, -⟩ := opened_facts hs hc
      obtain ⟨t', starts', g1, g2, -, g3, -⟩ := createReader_sectioned (C43_rev1_cataloguable .big) hc
      obtain rfl : t = t' := Except.ok.inj (h3.symm.trans g1.data_sample_format)
      obtain ⟨t', k1, k2⟩ := h1.traces
      obtain rfl := format_inj h2 k1
      have hss := C61_unique _ _ _ _ _ _ _ k2 g2
      subst hss
      have hroom : ∀ p ∈ starts, p + 240 ≤ s.data.length ∧ 0 ≤ fieldAt fmtTraceHeaderRev1 .big s.data p "num_samples" := by
        intro p hp
        obtain ⟨t'', starts'', ho⟩ := createReader_opened (C43_rev1_cataloguable .big) hc
        obtain rfl : t = t'' := Except.ok.inj (h3.symm.trans ho.format)
        have := C61_unique _ _ _ _ _ _ _ k2 ho.traces
        subst this
        obtain ⟨q1, -, q3⟩ := start_facts (C43_rev1_cataloguable .big) ho hp
        exact ⟨q1, by rw [q3]; exact Int.natCast_nonneg _⟩
      obtain ⟨k', rfl⟩ := (reads_createReader none fmtBinaryReelHeader fmtTraceHeaderRev1 .big none).ok hc
      have hstart : extractInlineScript native inl (some null) s =
          extractInline3d r native inl .all .all (some null) { s with pos := k' } := by
        unfold extractInlineScript
        rw [bind_ok hc]
      refine ⟨code, t, starts, h1, h2, ?_, ?_⟩
      · intro hn
        have hno := not_3d h5 (by
          unfold dimensionOf
          rw [if_neg hn]
          split <;> decide)
        refine hfail .attributeError ?_
        rw [hstart]
        unfold extractInline3d
        rw [hno]
        rfl
      · intro hn
        have hdim : r.dimensionality = .ok 3 := by
          rw [h5]
          unfold dimensionOf
          rw [if_pos hn]
        have hsec := g3 hdim hn
        obtain ⟨t'', starts'', c1, c2, c3⟩ := C64_inline_partial _ .big (C43_rev1_cataloguable .big) none _ none s _ r
          progress hc hdim
        obtain rfl : t = t'' := Except.ok.inj (h3.symm.trans c1.data_sample_format)
        have := C61_unique _ _ _ _ _ _ _ k2 c2
        subst this
        obtain ⟨c4, c5⟩ := c3 hn
        refine ⟨fun hnot => hfail .valueError (by rw [hstart]; exact c4 _ _ _ _ _ _ hnot), fun m hm => ⟨?_, ?_⟩⟩
        · rintro ⟨p, hp, hpi, hbad⟩
          obtain ⟨I, r1, i1, i2⟩ := hsec.finds.inlines
          obtain ⟨X, r2, x1, x2⟩ := hsec.finds.xlines
          obtain ⟨r', so, s1, s2, -, -, -⟩ := samples_ensure hsec.toReadable hm (ssel := .all) (S := sampleNumbers m) rfl
          obtain ⟨d, hd⟩ := makeDtype_of_format h3
          have hpk : (linesAt fmtTraceHeaderRev1 .big s.data p) ∈ surveyLines s.data starts := List.mem_map.mpr ⟨p, hp, rfl⟩
          have hin : I.contains inl = .ok true := by
            rw [(hsec.inline_canonical _ _ i1).contains, decide_eq_true ((i2.2 _).mpr (List.mem_map.mpr ⟨_, hpk, hpi⟩))]
          have hso : so = .range (PyRange.make1 0 (m : Int)) := (Except.ok.inj s2).symm
          subst hso
          have hrow : ∀ pos, ∃ k, (sectionRow r native (inl, (linesAt fmtTraceHeaderRev1 .big s.data p).2)
              (.range (PyRange.make1 0 (m : Int))) d (some null) { s with pos := pos }).1 = .error k := by
            intro pos
            have hk : (inl, (linesAt fmtTraceHeaderRev1 .big s.data p).2) = linesAt fmtTraceHeaderRev1 .big s.data p := by
              rw [← hpi]
            rw [hk]
            rcases hsec.cases (linesAt fmtTraceHeaderRev1 .big s.data p) with ⟨-, b2⟩ | ⟨i, hi, b1, b2, b3, b4⟩
            · exact absurd rfl (b2 p hp)
            · obtain rfl := b4 p hp rfl
              by_cases hw : Whole fmtTraceHeaderRev1 .big s.data t starts[i]
              · obtain ⟨q1, q2⟩ : fieldAt fmtTraceHeaderRev1 .big s.data starts[i] "num_samples" ≠ m ∧
                    fieldAt fmtTraceHeaderRev1 .big s.data starts[i] "num_samples" ≠ 1 := by
                  rcases hbad with hbad | hbad
                  · exact absurd hw hbad
                  · exact hbad
                obtain ⟨l, l1, l2, -⟩ := hsec.toReadable.trace native hi hw
                have hle := hm.2 _ hp
                exact row_short b1 b2 l1 (by omega) (by omega) (by omega) pos
              · obtain ⟨w1, w2⟩ := hroom _ hp
                obtain ⟨w, w3⟩ := Int.eq_ofNat_of_zero_le w2
                have hlong : s.data.length < starts[i] + 240 + w * t.size := by
                  by_contra hcon
                  exact hw ⟨w, w3, by omega⟩
                have hw0 : 0 < w := by
                  rcases Nat.eq_zero_or_pos w with rfl | h
                  · rw [Nat.zero_mul] at hlong; omega
                  · exact h
                have hnum := h4.num_trace_samples i hi
                rw [w3] at hnum
                have he := (hsec.reads native i hi 0 w pos (Nat.zero_le _) (by rw [w3])).1 hw0 hlong
                rw [Nat.cast_zero, ← traceSamples_all r native i (w : Int) hnum] at he
                refine ⟨.eofError, ?_⟩
                unfold sectionRow rowOverSampleRange
                simp only
                rw [b1, bind_ok (lift_apply _ _), if_pos rfl, b2, bind_ok (lift_apply _ _), hnum, bind_ok (lift_apply _ _)]
                cases hcx : r.traceSamples native i none none { s with pos := pos } with
                | mk x s'' =>
                  rw [hcx] at he
                  obtain rfl : x = .error .eofError := he
                  rw [bind_error hcx]
          obtain ⟨k, hk⟩ := mapM_fails (s := s) (f := fun x => sectionRow r native (inl, x)
              (.range (PyRange.make1 0 (m : Int))) d (some null)) X.toList
            (fun x _ => reads_rowOverSampleRange _ _ _ _ _ _)
            ⟨_, (x2.2 _).mpr (List.mem_map.mpr ⟨_, hpk, rfl⟩), hrow⟩ k'
          refine hfail k ?_
          rw [hstart]
          unfold extractInline3d
          rw [i1, bind_ok (lift_apply _ _)]
          simp only
          rw [hin, bind_ok (lift_apply _ _), if_neg (by simp), x1, bind_ok (lift_apply _ _)]
          simp only
          rw [show ensureSuperset X .all = .ok X from rfl, bind_ok (lift_apply _ _), s1, bind_ok (lift_apply _ _)]
          simp only
          rw [s2, bind_ok (lift_apply _ _), h3, show (do makeDtype (← (Except.ok t : Res SegYType))) = Except.ok d from hd,
            bind_ok (lift_apply _ _)]
          exact hk
        · intro hin hall xlines hx
          obtain ⟨rows, k, e1, e2⟩ := c5 native inl .all .all (some null) k' m xlines xlines (sampleNumbers m) hin hx rfl hm
            rfl (by
              intro p hp x _ hpk
              obtain ⟨w1, w2⟩ := hall p hp (by rw [hpk])
              refine ⟨w1, fun n hn => ?_⟩
              obtain ⟨a, ha, rfl⟩ := List.mem_map.mp hn
              have := List.mem_range.mp ha
              omega)
          refine ⟨rows, ?_, e2⟩
          unfold extractInlineMain
          rw [hstart, e1]
          rfl

/-- Without a null value, which is the default, nothing is ever saved: numpy cannot write masked arrays to files. -/
theorem C87_masked_fails (s : FileH) (native : Endian) (inl : Int) : extractInlineMain native inl none s = (70, none) := by
  unfold extractInlineMain
  split
  · rfl
  · rfl

private theorem sample_runs : ∃ r progress s',
    createReader none fmtBinaryReelHeader fmtTraceHeaderRev1 .big none sampleFile = (.ok (r, progress), s') ∧
    (extractInline3d r .big 7 .all .all (some (.int 9)) s').1 = .ok [[some (.int 256), some (.int 256)]] ∧
    (extractInline3d r .big 6 .all .all (some (.int 9)) s').1 = .error .valueError ∧
    (extractInline3d r .big 5 .all .all (some (.int 9)) s').1 = .ok [[some (.int 7), some (.int (-1))]] ∧
    (extractInline3d r .big 8 .all .all (some (.int 9)) s').1 = .error .valueError ∧
    (extractTraceHeaderField3d r [.named "ensemble_num"] .all .all none s').1 =
      .ok (["ensemble_num"], [[[some (.int 1)]], [[some (.int 1)]], [[some (.int 2)]]]) := by
  have key : (match createReader none fmtBinaryReelHeader fmtTraceHeaderRev1 .big none sampleFile with
      | (.error _, _) => false
      | (.ok (r, _), s') =>
        decide ((extractInline3d r .big 7 .all .all (some (.int 9)) s').1 = .ok [[some (.int 256), some (.int 256)]]) &&
        (decide ((extractInline3d r .big 6 .all .all (some (.int 9)) s').1 = .error .valueError) &&
        (decide ((extractInline3d r .big 5 .all .all (some (.int 9)) s').1 = .ok [[some (.int 7), some (.int (-1))]]) &&
        (decide ((extractInline3d r .big 8 .all .all (some (.int 9)) s').1 = .error .valueError) &&
        decide ((extractTraceHeaderField3d r [.named "ensemble_num"] .all .all none s').1 =
          .ok (["ensemble_num"], [[[some (.int 1)]], [[some (.int 1)]], [[some (.int 2)]]]))))) : Bool) = true := by
    decide +kernel
  cases hc : createReader none fmtBinaryReelHeader fmtTraceHeaderRev1 .big none sampleFile with
  | mk x s' =>
    rw [hc] at key
    cases x with
    | error k => cases key
    | ok y =>
      obtain ⟨r, progress⟩ := y
      simp only [Bool.and_eq_true, decide_eq_true_eq] at key
      exact ⟨r, progress, s', rfl, key⟩

private theorem main_saved {native : Endian} {inl : Int} {null : Scalar} {s : FileH} {rows : Rows}
    (h : (extractInlineScript native inl (some null) s).1 = .ok rows) :
    extractInlineMain native inl (some null) s = (0, some rows.flatten) := by
  unfold extractInlineMain; rw [h]; rfl

private theorem main_failed {native : Endian} {inl : Int} {null : Scalar} {s : FileH} {k : Err}
    (h : (extractInlineScript native inl (some null) s).1 = .error k) :
    extractInlineMain native inl (some null) s = (70, none) := by
  unfold extractInlineMain; rw [h]; rfl

private theorem sample_inline {r : Reader} {progress : List ℚ} {s s' : FileH}
    (h : createReader none fmtBinaryReelHeader fmtTraceHeaderRev1 .big none s = (.ok (r, progress), s')) (native : Endian)
    (inl : Int) (null : Option Scalar) :
    extractInlineScript native inl null s = extractInline3d r native inl .all .all null s' := by
  unfold extractInlineScript
  rw [bind_ok h]

/-- The null value is not used for short traces.  The longest trace of this file has two samples, and the trace with inline
number 7 has one, which is then saved twice; and the trace with inline number 6 has none, which makes the program fail. -/
theorem C87_short_fails : extractInlineMain .big 7 (some (.int 9)) sampleFile = (0, some [some (.int 256), some (.int 256)]) ∧
    fieldAt fmtTraceHeaderRev1 .big sampleFile.data 4084 "num_samples" = 1 ∧
    extractInlineMain .big 6 (some (.int 9)) sampleFile = (70, none) := by
  obtain ⟨r, progress, s', h, h7, h6, -⟩ := sample_runs
  refine ⟨?_, by decide +kernel, ?_⟩
  · exact main_saved (by rw [sample_inline h]; exact h7)
  · exact main_failed (by rw [sample_inline h]; exact h6)

-- a section that is saved, and one that is not in the survey
example : extractInlineMain .big 5 (some (.int 9)) sampleFile = (0, some [some (.int 7), some (.int (-1))]) ∧
    extractInlineMain .big 8 (some (.int 9)) sampleFile = (70, none) := by
  obtain ⟨r, progress, s', h, -, -, h5, h8, -⟩ := sample_runs
  constructor
  · exact main_saved (by rw [sample_inline h]; exact h5)
  · exact main_failed (by rw [sample_inline h]; exact h8)

-- the file and its first trace meet the hypotheses (that the greatest number of samples is 2 is shown with C64)
example : sampleFile.pos = 0 ∧ Whole fmtTraceHeaderRev1 .big sampleFile.data (.int .int16) 3600 ∧
    fieldAt fmtTraceHeaderRev1 .big sampleFile.data 3600 "num_samples" = 2 :=
  ⟨rfl, ⟨2, by decide +kernel, by decide +kernel⟩, by decide +kernel⟩

/-! ## C88 extract_trace_header_field.py -/

private theorem getHeaderField_field {f : String} (hf : f ∈ fmtTraceHeaderRev1.orderedFieldNames) :
    getHeaderField f = .ok (.named f) := by
  obtain ⟨g, hg⟩ := Format.attr_of_mem hf
  unfold getHeaderField
  rw [hg]
  rfl

/-- `extract_header_field` of `extract_trace_header_field.py` without a null value, on any file: a name that is no
attribute of the trace header is refused before the file is looked at, an attribute that is no field with `TypeError`, and a
survey that is not three-dimensional with `AttributeError`.  For a field of a signed type, the result has a row for each
inline number, with an element for each crossline number: the value of the field in the header of the trace with these line
numbers, masked if there is none.
Partial: the field must be of a signed type and its values admitted by it (see C65), and the null value does not work (see
`C88_null_fails`). -/
theorem C88_field_partial (s : FileH) (hs : s.pos = 0) (f : String) :
    (f ∉ fmtTraceHeaderRev1.orderedFieldNames → f ∉ fmtTraceHeaderRev1.otherAttributes →
      (extractHeaderFieldScript f none s).1 = .error .attributeError) ∧
    match createReader none fmtBinaryReelHeader fmtTraceHeaderRev1 .big none s with
    | (.error k, _) => f ∈ fmtTraceHeaderRev1.orderedFieldNames → (extractHeaderFieldScript f none s).1 = .error k
    | (.ok (r, _), _) =>
      ∃ code starts, Survey s.data r.extended_textual_headers.length code starts ∧
        (f ∈ fmtTraceHeaderRev1.otherAttributes → f ∉ fmtTraceHeaderRev1.orderedFieldNames →
          (extractHeaderFieldScript f none s).1 = .error .typeError) ∧
        (f ∈ fmtTraceHeaderRev1.orderedFieldNames →
          (¬ (surveyLines s.data starts).Nodup → (extractHeaderFieldScript f none s).1 = .error .attributeError) ∧
          ((surveyLines s.data starts).Nodup → Extractable fmtTraceHeaderRev1 [f] →
            (∀ p ∈ starts, HeldAt fmtTraceHeaderRev1 .big s.data [f] p) →
            ∀ inlines xlines, Arranges ((surveyLines s.data starts).map Prod.fst) inlines →
              Arranges ((surveyLines s.data starts).map Prod.snd) xlines →
            ∃ rows, (extractHeaderFieldScript f none s).1 = .ok ([f], rows) ∧
              Tabulates inlines xlines (fun i x c => FieldsOf fmtTraceHeaderRev1 .big s.data starts none [f] (i, x) c)
                rows)) := by
  have hfield : f ∈ fmtTraceHeaderRev1.orderedFieldNames → getHeaderField f = .ok (.named f) := getHeaderField_field
  have hnone : f ∉ fmtTraceHeaderRev1.orderedFieldNames → fmtTraceHeaderRev1.attr f = none := by
    intro hf
    cases h : fmtTraceHeaderRev1.attr f with
    | none => rfl
    | some g => exact absurd (Format.mem_names_of_attr h) hf
  refine ⟨?_, ?_⟩
  · intro hf ho
    unfold extractHeaderFieldScript
    have : getHeaderField f = .error .attributeError := by
      unfold getHeaderField
      rw [hnone hf, if_neg (by simp), if_neg ho]
    rw [this]
    rfl
  cases hc : createReader none fmtBinaryReelHeader fmtTraceHeaderRev1 .big none s with
  | mk x s' =>
    cases x with
    | error k =>
      intro hf
      unfold extractHeaderFieldScript
      rw [hfield hf, bind_ok (lift_apply _ _), bind_error hc]
    | ok y =>
      obtain ⟨r, progress⟩ := y
      obtain ⟨code, t, starts, h1, h2, h3, h4, h5, -, -, -⟩ := opened_facts hs hc
      obtain ⟨k', rfl⟩ := (reads_createReader none fmtBinaryReelHeader fmtTraceHeaderRev1 .big none).ok hc
      have hstart : ∀ a, getHeaderField f = .ok a → extractHeaderFieldScript f none s =
          extractTraceHeaderField3d r [a] .all .all none { s with pos := k' } := by
        intro a ha
        unfold extractHeaderFieldScript
        rw [ha, bind_ok (lift_apply _ _), bind_ok hc]
      refine ⟨code, starts, h1, ?_, fun hf => ⟨?_, ?_⟩⟩
      · intro ho hf
        have : getHeaderField f = .ok .other := by
          unfold getHeaderField
          rw [hnone hf, if_neg (by simp), if_pos ho]
        rw [hstart _ this]
        rfl
      · intro hn
        have hno := not_3d h5 (by
          unfold dimensionOf
          rw [if_neg hn]
          split <;> decide)
        rw [hstart _ (hfield hf)]
        unfold extractTraceHeaderField3d
        rw [show [FieldArg.named f].mapM extractFieldName = .ok [f] from rfl, bind_ok (lift_apply _ _), hno]
        rfl
      · intro hn hex hheld inlines xlines hin hxn
        have hdim : r.dimensionality = .ok 3 := by
          rw [h5]
          unfold dimensionOf
          rw [if_pos hn]
        obtain ⟨t'', starts'', c1, c2, c3⟩ := C65_field_3d_partial _ .big (C43_rev1_cataloguable .big) none _ none s _ r
          progress hc hdim
        obtain rfl : t = t'' := Except.ok.inj (h3.symm.trans c1.data_sample_format)
        obtain ⟨t', k1, k2⟩ := h1.traces
        obtain rfl := format_inj h2 k1
        have := C61_unique _ _ _ _ _ _ _ k2 c2
        subst this
        obtain ⟨rows, k, e1, e2⟩ := c3 hn [.named f] [f] .all .all none k' inlines xlines inlines xlines
          (List.Forall₂.cons rfl .nil) hex hin rfl hxn rfl fun p hp _ _ _ _ _ => hheld p hp
        refine ⟨rows, ?_, e2⟩
        rw [hstart _ (hfield hf), e1]

/-- Whatever the file and the field, a null value makes the script fail: it is passed in the place of the inline numbers. -/
theorem C88_null_fails (s : FileH) (f : String) (null : Int) :
    (∃ k, (extractHeaderFieldScript f (some null) s).1 = .error k) ∧ extractHeaderFieldMain f (some null) s = (70, none) := by
  have : ∃ k, (extractHeaderFieldScript f (some null) s).1 = .error k := by
    unfold extractHeaderFieldScript
    cases ha : getHeaderField f with
    | error k => exact ⟨k, rfl⟩
    | ok a =>
      rw [bind_ok (lift_apply _ _)]
      cases hc : createReader none fmtBinaryReelHeader fmtTraceHeaderRev1 .big none s with
      | mk x s' =>
        cases x with
        | error k => exact ⟨k, by rw [bind_error hc]⟩
        | ok y =>
          rw [bind_ok hc]
          simp only
          cases hn : extractFieldName a with
          | error k => exact ⟨k, rfl⟩
          | ok n =>
            rw [bind_ok (lift_apply _ _)]
            cases hi : y.1.inlineNumbers with
            | error k => exact ⟨k, rfl⟩
            | ok i => exact ⟨.typeError, rfl⟩
  obtain ⟨k, hk⟩ := this
  refine ⟨⟨k, hk⟩, ?_⟩
  unfold extractHeaderFieldMain
  rw [hk]
  rfl

private theorem sample_field {r : Reader} {progress : List ℚ} {s s' : FileH}
    (h : createReader none fmtBinaryReelHeader fmtTraceHeaderRev1 .big none s = (.ok (r, progress), s')) (f : String)
    (hf : f ∈ fmtTraceHeaderRev1.orderedFieldNames) :
    extractHeaderFieldScript f none s = extractTraceHeaderField3d r [.named f] .all .all none s' := by
  unfold extractHeaderFieldScript
  rw [getHeaderField_field hf, bind_ok (lift_apply _ _), bind_ok h]

private theorem field_done {f : String} {null : Option Int} {s : FileH} {x : List String × List (List (List (Option Scalar)))}
    (h : (extractHeaderFieldScript f null s).1 = .ok x) : extractHeaderFieldMain f null s = (0, none) := by
  unfold extractHeaderFieldMain; rw [h]; rfl

private theorem ensemble_num_field : "ensemble_num" ∈ fmtTraceHeaderRev1.orderedFieldNames := by decide +kernel

/-- The program never writes its output file, even when it exits with status 0. -/
theorem C88_unsaved_fails : (∀ (s : FileH) (f : String) (null : Option Int), (extractHeaderFieldMain f null s).2 = none) ∧
    extractHeaderFieldMain "ensemble_num" none sampleFile = (0, none) := by
  refine ⟨fun s f null => ?_, ?_⟩
  · unfold extractHeaderFieldMain
    split <;> rfl
  · obtain ⟨r, progress, s', h, -, -, -, -, h0⟩ := sample_runs
    exact field_done (by rw [sample_field h "ensemble_num" ensemble_num_field]; exact h0)

-- a field of the traces of a file
example : (extractHeaderFieldScript "ensemble_num" none sampleFile).1 =
    .ok (["ensemble_num"], [[[some (.int 1)]], [[some (.int 1)]], [[some (.int 2)]]]) := by
  obtain ⟨r, progress, s', h, -, -, -, -, h0⟩ := sample_runs
  rw [sample_field h "ensemble_num" ensemble_num_field]
  exact h0

example : "ensemble" ∉ fmtTraceHeaderRev1.orderedFieldNames ∧ "ensemble" ∉ fmtTraceHeaderRev1.otherAttributes ∧
    "LENGTH_IN_BYTES" ∈ fmtTraceHeaderRev1.otherAttributes ∧
    "ensemble_num" ∈ fmtTraceHeaderRev1.orderedFieldNames ∧ Extractable fmtTraceHeaderRev1 ["ensemble_num"] :=
  ⟨by decide +kernel, by decide +kernel, by decide +kernel, ensemble_num_field, ⟨by simp, by decide, by decide +kernel,
    by decide +kernel, by decide +kernel⟩⟩

example : HeldAt fmtTraceHeaderRev1 .big sampleFile.data ["ensemble_num"] 3844 := by
  unfold HeldAt; decide +kernel

end Segpy.Props
