import Verif.Lemmas.Copy
import Verif.Lemmas.Memo

/-! # The copy of a file says the same as the file -/

namespace Segpy

open Spec FileM

theorem traceStart_mono (first : Nat) (t : SegYType) (vss : List (List PyNum)) {i j : Nat} (h : i ≤ j) :
    traceStart first t vss i ≤ traceStart first t vss j := by
  induction h with
  | refl => exact le_refl _
  | step h ih =>
    rename_i m
    refine ih.trans ?_
    by_cases hm : m < vss.length
    · rw [traceStart_succ _ _ _ _ hm]; omega
    · unfold traceStart
      rw [List.take_of_length_le (by omega), List.take_of_length_le (by omega)]

/-- Two readers that return the same samples for a whole trace return the same for every range of samples. -/
theorem samples_any {r r' : Reader} {native : Endian} {i : Int} {s s' : FileH} {l : List PyNum}
    (h : (r.traceSamples native i none none s).1 = .ok l) (h' : (r'.traceSamples native i none none s').1 = .ok l)
    {n : Int} (hn : r.numTraces = .ok n) (hn' : r'.numTraces = .ok n) (start stop : Option Int) :
    (r'.traceSamples native i start stop s').1 = (r.traceSamples native i start stop s).1 := by
  obtain ⟨a1, a2, a3, a4⟩ := Props.C45_subrange r native i s l h
  obtain ⟨b1, b2, b3, b4⟩ := Props.C45_subrange r' native i s' l h'
  by_cases hbad : stop.getD l.length < 0 ∨ (l.length : Int) < stop.getD l.length ∨ start.getD 0 < 0 ∨
      stop.getD l.length < start.getD 0
  · have e1 := Props.C45_invalid r native i n l.length start stop s hn (Or.inl a1) (by omega)
    have e2 := Props.C45_invalid r' native i n l.length start stop s' hn' (Or.inl b1) (by omega)
    rw [e1, e2]
  · push Not at hbad
    obtain ⟨c1, c2, c3, c4⟩ := hbad
    cases start with
    | none =>
      cases stop with
      | none => rw [h, h']
      | some b =>
        simp only [Option.getD_some, Option.getD_none] at c1 c2 c3 c4
        obtain ⟨m, rfl⟩ := Int.eq_ofNat_of_zero_le c1
        rw [a3 m (by omega), b3 m (by omega)]
    | some a =>
      cases stop with
      | none =>
        simp only [Option.getD_some, Option.getD_none] at c1 c2 c3 c4
        obtain ⟨m, rfl⟩ := Int.eq_ofNat_of_zero_le c3
        rw [a4 m (by omega), b4 m (by omega)]
      | some b =>
        simp only [Option.getD_some] at c1 c2 c3 c4
        obtain ⟨m, rfl⟩ := Int.eq_ofNat_of_zero_le c1
        obtain ⟨k, rfl⟩ := Int.eq_ofNat_of_zero_le c3
        rw [a2 k m (by omega) (by omega), b2 k m (by omega) (by omega)]

theorem forall2_eq {t : SegYType} {l w : List PyNum} (h : List.Forall₂ (StoredAs t) l w)
    (hx : ∀ v ∈ l, ∀ w, StoredAs t v w → w = v) : w = l := by
  induction h with
  | nil => rfl
  | cons h1 _ ih =>
    rw [hx _ List.mem_cons_self _ h1, ih fun v hv => hx v (List.mem_cons_of_mem _ hv)]

theorem same_contents {T B : Format} {e e' : Endian} (hT : Cataloguable T e) (hT' : Cataloguable T e')
    (hTr : Regular T e' 240) {encoding asked : Option Encoding} {dim : Option Int} {s s1 c c1 : FileH} {r r' : Reader}
    {p p' : List ℚ} (h : createReader encoding B T e dim s = (.ok (r, p), s1)) {native : Endian} {t : SegYType}
    {starts : List Nat} {hs : List Header} {vss : List (List PyNum)} (hr : Readable T e s t starts r)
    (ho : Opened T e dim s.data (3600 + 3200 * r.extended_textual_headers.length) t starts r)
    (hlen : hs.length = starts.length) (hc : Consistent (r.asDataset native s) r.encoding T e' t hs vss)
    (hbf : r.binary_reel_header.format = B) (hpage : IsPage r.encoding r.textual_reel_header)
    (h' : createReader asked B T e' dim c = (.ok (r', p'), c1))
    (hsize : c.data.length = traceStart (firstTrace (r.asDataset native s)) t vss hs.length)
    (hback : ReadsBack (r.asDataset native s) T t hs vss c.data.length c r') : SameContents T B native r s r' c := by
  obtain ⟨t', starts', hr', ho'⟩ := createReader_all hT' h'
  have hfull : ∀ i < hs.length, traceStart (firstTrace (r.asDataset native s)) t vss (i + 1) ≤ c.data.length := by
    intro i hi
    rw [hsize]
    exact traceStart_mono _ _ _ (by omega)
  have hvl := hc.same_length
  have hfull' : ∀ i < hs.length, traceStart (firstTrace (r.asDataset native s)) t vss i + 240 ≤ c.data.length := by
    intro i hi
    have := hfull i hi
    rw [traceStart_succ _ _ _ _ (by omega)] at this
    omega
  have hnum' : r'.numTraces = .ok hs.length := by
    rw [hback.num_traces, List.filter_eq_self.mpr]
    · simp
    · intro i hi
      simpa using hfull' i (List.mem_range.mp hi)
  have hl' : starts'.length = hs.length := by
    have := hr'.describes.num_traces
    rw [hnum'] at this
    have := Except.ok.inj this
    omega
  have hsamples : ∀ i (hi : i < vss.length), (r.traceSamples native i none none s).1 = .ok vss[i] := hc.trace_samples
  have hsamples' : ∀ i (hi : i < vss.length), (r'.traceSamples native i none none c).1 = .ok vss[i] := by
    intro i hi
    obtain ⟨ws, w1, w2⟩ := hback.trace_samples native i hi c.pos (by omega) (hfull i (by omega))
    rw [w1]
    have := traceSamples_ok hT hr ho (i := i) (by omega) (pos := s.pos) (hsamples i hi)
    rw [forall2_eq w2 fun v hv => (this.2.2 v hv).2]
  have hbin : ∀ f ∈ B.fields, r'.binary_reel_header.get f.name = r.binary_reel_header.get f.name := by
    intro f hf
    refine hback.binary f ?_
    show f ∈ r.binary_reel_header.format.fields
    rw [hbf]; exact hf
  have hheader : ∀ i (hi : i < hs.length) (pos pos' : Nat),
      ∃ hd hd', (r.traceHeader i none { s with pos := pos }).1 = .ok hd ∧
      (r'.traceHeader i none { c with pos := pos' }).1 = .ok hd' ∧ hd.format = T ∧ hd'.format = T ∧
      ∀ f ∈ T.fields, hd'.get f.name = hd.get f.name := by
    intro i hi pos pos'
    obtain ⟨hd', g1, g2, g3⟩ := hback.trace_header i hi pos' (hfull' i hi)
    refine ⟨hs[i], hd', ?_, g1, hc.header_format _ (List.getElem_mem hi), g2, g3⟩
    rw [traceHeader_pos]
    exact hc.trace_header i hi
  have hfields : ∀ i (hi : i < starts.length) (hi' : i < starts'.length), ∀ n ∈ T.orderedFieldNames,
      fieldAt T e' c.data starts'[i] n = fieldAt T e s.data starts[i] n := by
    intro i hi hi' n hn
    obtain ⟨f, hf⟩ := Format.attr_of_mem hn
    have hfn := Format.attr_name hf
    have hfm : f ∈ T.fields := Format.mem_fields.mpr (by rw [hfn]; exact hf)
    obtain ⟨hd, hd', g1, g2, -, -, g3⟩ := hheader i (by omega) s.pos c.pos
    have e1 := (traceHeader_ok hT hTr.orderSafe hr ho hi g1).2.2 f hfm
    have e2 := (traceHeader_ok hT' hTr.orderSafe hr' ho' hi' g2).2.2 f hfm
    rw [g3 f hfm, e1, hfn] at e2
    exact (Except.ok.inj e2).symm
  have hlists : ∀ {α : Type} (g : (String → Int) → α), (∀ x y : String → Int, (∀ n ∈ T.orderedFieldNames, x n = y n) → g x = g y) →
      starts'.map (fun p => g (fieldAt T e' c.data p)) = starts.map (fun p => g (fieldAt T e s.data p)) := by
    intro α g hg
    refine List.ext_getElem (by simp; omega) ?_
    intro i h1 h2
    simp only [List.getElem_map]
    exact hg _ _ (hfields i (by simpa using h2) (by simpa using h1))
  have hlines : linePairs T e' c.data starts' = linePairs T e s.data starts :=
    hlists (fun x => (x "inline_number", x "crossline_number")) fun x y hxy => by
      rw [hxy _ (hT.present _ (by simp)), hxy _ (hT.present _ (by simp))]
  have hens : ensembles T e' c.data starts' = ensembles T e s.data starts :=
    hlists (fun x => x "ensemble_num") fun x y hxy => hxy _ (hT.present _ (by simp))
  have hfind : (r'.dimensionality = r.dimensionality) ∧
      (r.dimensionality = .ok 3 → ∀ k, r'.traceIndex3 k = r.traceIndex3 k) ∧
      (r.dimensionality = .ok 2 → ∀ k, r'.traceIndex2 k = r.traceIndex2 k) := by
    obtain ⟨ta, sa, a1, a2, a3, a4, a5, a6, -, a7⟩ := Props.C49_finds T e hT encoding B dim s s1 r p h
    obtain ⟨tb, sb, b1, b2, b3, b4, b5, b6, -, b7⟩ := Props.C49_finds T e' hT' asked B dim c c1 r' p' h'
    have hta : ta = t := by
      have := a1.data_sample_format
      rw [hr.describes.data_sample_format] at this
      exact (Except.ok.inj this).symm
    have htb : tb = t' := by
      have := b1.data_sample_format
      rw [hr'.describes.data_sample_format] at this
      exact (Except.ok.inj this).symm
    subst hta htb
    have hsa := Props.C61_unique _ _ _ _ _ _ _ a2 ho.traces
    have hsb := Props.C61_unique _ _ _ _ _ _ _ b2 ho'.traces
    subst hsa hsb
    rw [hlines, hens, hl', hlen] at b7
    replace b7 : r'.dimensionality = r.dimensionality := by rw [b7, a7]; cases dim <;> rfl
    refine ⟨b7, ?_, ?_⟩
    · intro h3 k
      rw [hlines] at b3 b5
      by_cases hnd : (linePairs T e s.data sa).Nodup
      · have f1 := a3 h3 hnd
        have f2 := b3 (by rw [b7, h3]) hnd
        by_cases hk : k ∈ linePairs T e s.data sa
        · obtain ⟨i, hi, rfl⟩ := List.mem_iff_getElem.mp hk
          rw [f1.found i hi, f2.found i hi]
        · rw [f1.not_found k hk, f2.not_found k hk]
      · rw [(a5 h3 hnd).not_found, (b5 (by rw [b7, h3]) hnd).not_found]
    · intro h2 k
      rw [hens] at b4 b6
      by_cases hnd : (ensembles T e s.data sa).Nodup
      · have f1 := a4 h2 hnd
        have f2 := b4 (by rw [b7, h2]) hnd
        by_cases hk : k ∈ ensembles T e s.data sa
        · obtain ⟨i, hi, rfl⟩ := List.mem_iff_getElem.mp hk
          rw [f1.found i hi, f2.found i hi]
        · rw [f1.not_found k hk, f2.not_found k hk]
      · rw [(a6 h2 hnd).not_found, (b6 (by rw [b7, h2]) hnd).not_found]
  refine
    { textual := by rw [hback.textual]; exact fortyCards_page hpage
      binary_format := ⟨by rw [hback.binary_format]; exact hbf, hbf⟩
      binary := hbin
      extended := hback.extended
      sample_format := ?_
      num_traces := by rw [hnum', hr.describes.num_traces, hlen]
      trace_indexes := by rw [hr'.describes.trace_indexes, hr.describes.trace_indexes, hl', hlen]
      num_trace_samples := ?_
      trace_header := ?_
      trace_samples := ?_
      dimensionality := hfind.1
      trace_index3 := hfind.2.1
      trace_index2 := hfind.2.2 }
  · have hd := hr.describes.data_sample_format
    unfold Reader.dataSampleFormat at hd ⊢
    cases hg : r.binary_reel_header.get "data_sample_format" with
    | error err => rw [hg] at hd; cases hd
    | ok v =>
      have : r'.binary_reel_header.get "data_sample_format" = .ok v := by
        rw [← hg]
        have hattr : ∃ f, B.attr "data_sample_format" = some f := by
          cases hb : B.attr "data_sample_format" with
          | some f => exact ⟨f, rfl⟩
          | none => unfold Header.get at hg; rw [hbf, hb] at hg; cases hg
        obtain ⟨f, hf⟩ := hattr
        have hfn := Format.attr_name hf
        have := hbin f (Format.mem_fields.mpr (by rw [hfn]; exact hf))
        rw [hfn] at this
        exact this
      rw [this]
  · intro i
    by_cases hi : 0 ≤ i ∧ i < starts.length
    · obtain ⟨k, rfl⟩ := Int.eq_ofNat_of_zero_le hi.1
      have hk : k < starts.length := by omega
      rw [hr.describes.num_trace_samples k hk, hr'.describes.num_trace_samples k (by omega),
        hfields k hk (by omega) _ (hT.present _ (by simp))]
    · rw [hr.describes.no_num_trace_samples i (by omega), hr'.describes.no_num_trace_samples i (by omega)]
  · intro i pos pos'
    by_cases hi : 0 ≤ i ∧ i < starts.length
    · obtain ⟨k, rfl⟩ := Int.eq_ofNat_of_zero_le hi.1
      exact Or.inl (hheader k (by omega) pos pos')
    · right
      rw [traceHeader_eq, traceHeader_eq, hr.describes.num_traces, hr'.describes.num_traces, hl', hlen]
      simp only
      rw [if_pos hi, if_pos hi]
      exact ⟨rfl, rfl⟩
  · intro i start stop pos pos'
    rw [traceSamples_pos r' native i start stop c pos', traceSamples_pos r native i start stop s pos]
    by_cases hi : 0 ≤ i ∧ i < starts.length
    · obtain ⟨k, rfl⟩ := Int.eq_ofNat_of_zero_le hi.1
      refine samples_any (hsamples k (by omega)) (hsamples' k (by omega)) hr.describes.num_traces ?_ start stop
      rw [hnum', hlen]
    · rw [Props.C45_invalid r native i starts.length 0 start stop s hr.describes.num_traces (Or.inr hi) (by omega),
        Props.C45_invalid r' native i starts'.length 0 start stop c hr'.describes.num_traces (Or.inr (by omega)) (by omega)]

end Segpy
