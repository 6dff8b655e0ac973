import Verif.Lemmas.CopyBytes
import Verif.Props.CustomFormats

/-! # C96 the bytes of a copy -/

namespace Segpy.Props

open Segpy.Spec Segpy.FileM

/-- The copy of a file that is made by handing its reader to the writer consists of the bytes of the file, up to the end
of the last trace; only bytes of headers that belong to no field become zero, and samples that are not numbers may be
stored in other bytes. -/
theorem C96_bytes (T B : Format) (e : Endian) (hT : Cataloguable T e) (hTr : Regular T e 240)
    (hB : Regular B e 400) (encoding : Option Encoding) (dim : Option Int) (s s1 : FileH)
    (hs0 : s.pos = 0) (r : Reader) (p : List ℚ) (h : createReader encoding B T e dim s = (.ok (r, p), s1))
    (native : Endian) (hread : AllReadable native r s) :
    ∃ p' c t starts, writeSegy (r.asDataset native s) none T e { data := [], pos := 0 } = (.ok p', c) ∧
      r.dataSampleFormat = .ok t ∧
      Traces T e s.data t.size (3600 + 3200 * r.extended_textual_headers.length) starts ∧
      CopiedBytes T B e t r.extended_textual_headers.length starts s.data c.data := by
  obtain ⟨p', c, t, starts, hw, hfmt, htr, htr', hhead⟩ :=
    C75_headers_copied T B e hT hTr hB encoding dim s s1 hs0 r p h native hread
  refine ⟨p', c, t, starts, hw, hfmt, htr, ?_⟩
  obtain ⟨p2, c2, hw2, htake, r', p'', c1, hopen, hsame⟩ :=
    C67_copy T B e e hT hT hTr hB encoding dim s s1 hs0 r p h native hread
  rw [hw] at hw2
  obtain ⟨-, rfl⟩ := Prod.mk.inj hw2
  clear hw2
  -- the readers of both files
  obtain ⟨t2, starts2, hs, vss, hr, ho, hlen, hcons⟩ := asDataset_consistent hT hT hTr hB h hread
  have ht2 : t2 = t := by
    have := ho.format
    rw [hfmt] at this
    exact (Except.ok.inj this).symm
  subst ht2
  obtain rfl := C61_unique _ _ _ _ _ _ _ ho.traces htr
  obtain ⟨t3, starts3, hr', ho'⟩ := createReader_all hT hopen
  have ht3 : t3 = t2 := by
    have := ho'.format
    rw [hsame.sample_format, hfmt] at this
    exact (Except.ok.inj this).symm
  subst ht3
  have htr3 := ho'.traces
  rw [hsame.extended] at htr3
  obtain rfl := C61_unique _ _ _ _ _ _ _ htr3 htr'
  -- the bytes that were written
  obtain ⟨I, hI⟩ := hcons.image none rfl
  have hfull : c.data = I.full := by
    rw [hI.free { data := [], pos := 0 } rfl rfl rfl] at hw
    have := congrArg (fun x => x.2.data) hw
    simpa using this.symm
  obtain ⟨b1, -⟩ := createReader_binary hB.afterStart hB.orderSafe h
  have hfirst : firstTrace (r.asDataset native s) = 3600 + 3200 * r.extended_textual_headers.length := rfl
  have hbin : (r.asDataset native s).binary_reel_header.format = B := b1
  -- the samples of each trace
  have hsam : ∀ i (hi : i < starts3.length), ∃ vs, (r.traceSamples native i none none s).1 = .ok vs := by
    intro i hi
    obtain ⟨l, hl, hrd⟩ := hread
    rw [hr.describes.trace_indexes] at hl
    obtain rfl := Except.ok.inj hl
    exact (hrd i (List.mem_map.mpr ⟨i, List.mem_range.mpr hi, rfl⟩)).2
  have hvl : ∀ i (hi : i < starts3.length) (hv : i < vss.length), vss[i].length = samplesAt T e s.data starts3[i] := by
    intro i hi hv
    have h1 : (r.traceSamples native (i : Nat) none none s).1 = .ok vss[i] := hcons.trace_samples i hv
    exact (samples_stored hr hi (pos := s.pos) h1).2.1.symm
  obtain ⟨a1, a2, a3, -, -⟩ := C43_tiles _ _ _ _ _ _ htr
  have hstart : ∀ i (hi : i < starts3.length),
      starts3[i] = traceStart (3600 + 3200 * r.extended_textual_headers.length) t3 vss i := by
    intro i
    induction i with
    | zero =>
      intro hi
      rw [if_neg (List.ne_nil_of_length_pos hi), List.head?_eq_getElem?, List.getElem?_eq_getElem hi] at a1
      rw [Option.some.inj a1]
      simp [traceStart]
    | succ i ih =>
      intro hi
      have hv : i < vss.length := by rw [hcons.same_length, hlen]; omega
      rw [a2 i hi, traceStart_succ _ _ _ _ hv, ih (by omega), hvl i (by omega) hv, ih (by omega)]
      omega
  obtain ⟨-, hreel⟩ := C71_reel_headers encoding B T e hB dim s s1 hs0 r p h
  obtain ⟨henc', hreel'⟩ := C71_reel_headers encoding B T e hB dim { c with pos := 0 } c1 rfl r' p'' hopen
  have henc : r'.encoding = r.encoding := by
    obtain ⟨henc, -⟩ := C71_reel_headers encoding B T e hB dim s s1 hs0 r p h
    rw [henc', henc]
    unfold usedEncoding
    rw [htake]
  rw [henc, hsame.textual, hsame.extended] at hreel'
  have hlength : ∀ q, starts3.getLast? = some q → c.data.length = q + 240 + samplesAt T e s.data q * t3.size := by
    intro q hq
    have hne : starts3 ≠ [] := by rintro rfl; simp at hq
    have hpos := List.length_pos_iff.mpr hne
    rw [List.getLast?_eq_getElem?, List.getElem?_eq_getElem (by omega)] at hq
    have hq := Option.some.inj hq
    have hv : starts3.length - 1 < vss.length := by rw [hcons.same_length, hlen]; omega
    rw [hfull, I.full_length, hlen, hfirst]
    have : starts3.length = (starts3.length - 1) + 1 := by omega
    rw [this, traceStart_succ _ _ _ _ hv, ← hstart _ (by omega), hvl _ (by omega) hv, hq]
    omega
  have hend : ∀ i (hi : i < starts3.length), ∀ vs, (r.traceSamples native (i : Nat) none none s).1 = .ok vs →
      starts3[i] + 240 + vs.length * t3.size ≤ s.data.length := by
    intro i hi vs hvs
    rcases (samples_stored hr hi (pos := s.pos) hvs).2.2.1 with rfl | hle
    · have := a3 _ (List.getElem_mem hi)
      simpa using this
    · exact hle
  refine ⟨hlength, ?_, ?_, ?_, ?_, ?_, ?_⟩
  · have hne : starts3 ≠ [] := by
      intro hnil
      rw [hnil] at hlen
      exact hcons.some_trace (List.eq_nil_of_length_eq_zero hlen)
    have hpos := List.length_pos_iff.mpr hne
    have hi : starts3.length - 1 < starts3.length := by omega
    have hq : starts3.getLast? = some starts3[starts3.length - 1] := by
      rw [List.getLast?_eq_getElem?, List.getElem?_eq_getElem hi]
    rw [hlength _ hq]
    obtain ⟨vs, hvs⟩ := hsam _ hi
    rw [(samples_stored hr hi (pos := s.pos) hvs).2.1]
    exact hend _ hi vs hvs
  · intro k hk
    have := page_bytes hreel'.text hreel.text hk
    simpa using this
  · intro k hk
    constructor
    · intro hg
      rw [hfull, I.binary_byte hk]
      exact I.binary_gap (by rw [hbin]; exact hB.afterStart) hk (by rw [hbin]; exact hg)
    · intro hg
      have hfit : ∀ f ∈ B.fields, f.offset - B.startOffset + f.value_type.size ≤ (400 : Nat) := by
        obtain ⟨pk, hpk⟩ := hB.packs
        unfold makeHeaderPacker at hpk
        obtain ⟨x, hx, -⟩ := res_bind_ok hpk
        rw [hB.length] at hx
        exact (accepts_of_ok hx).fits 400 rfl
      have hl : ∀ data : Bytes, 3600 ≤ data.length → ((data.drop 3200).take 400).length = 400 := by
        intro data hd
        rw [List.length_take, List.length_drop]
        omega
      have hb : ∀ data : Bytes, data[3200 + k]? = ((data.drop 3200).take 400)[k]? := by
        intro data
        rw [List.getElem?_take_of_lt hk, List.getElem?_drop]
      rw [hb, hb]
      have l1 : 3600 ≤ s.data.length := by
        by_contra hcon
        have := C50_refused encoding B T e dim s (Or.inl (by omega))
        rw [h] at this
        cases this
      have l2 : 3600 ≤ c.data.length := by
        by_contra hcon
        have := C50_refused encoding B T e dim { c with pos := 0 } (Or.inl (by simp only; omega))
        rw [hopen] at this
        cases this
      refine headerBytes_eq hB.afterStart hfit (hl _ l2) (hl _ l1) (e := e) ?_ k hg
      intro f hf
      have e1 := hreel.fields f hf
      have e2 := hreel'.fields f hf
      rw [hsame.binary f hf, e1] at e2
      exact (Except.ok.inj e2).symm
  · intro k hk
    have hi : k / 3200 < r.extended_textual_headers.length := by
      rw [Nat.div_lt_iff_lt_mul (by norm_num)]; omega
    have := page_bytes (hreel'.pages _ hi) (hreel.pages _ hi) (Nat.mod_lt k (by norm_num))
    have e1 : 3600 + 3200 * (k / 3200) + k % 3200 = 3600 + k := by omega
    rw [e1] at this
    exact this
  · intro q hq k hk
    refine ⟨?_, hhead q hq k hk⟩
    intro hg
    obtain ⟨i, hi, rfl⟩ := List.mem_iff_getElem.mp hq
    have hi' : i < I.ts.length := by rw [I.num, hlen]; exact hi
    have hok := I.ok _ (List.getElem_mem hi')
    have hhd : I.ts[i].header.format = T := by
      refine hcons.header_format _ ?_
      have : I.ts[i].header ∈ I.ts.map Written.header := List.mem_map.mpr ⟨_, List.getElem_mem hi', rfl⟩
      rwa [I.headers] at this
    rw [hfull, hstart i hi, ← hfirst, I.header_byte hi' hk]
    exact (C27_layout T e I.packer _ _ I.packs hT.afterStart ⟨[], by simp [hhd]⟩ hok.pack).2.2 k
      (by rw [hok.header_length]; exact hk) hg
  · intro q hq j hj
    obtain ⟨i, hi, rfl⟩ := List.mem_iff_getElem.mp hq
    obtain ⟨vs, hvs⟩ := hsam i hi
    obtain ⟨-, k2, -, k4⟩ := samples_stored hr hi (pos := s.pos) hvs
    have hvs' : (r'.traceSamples native (i : Nat) none none { c with pos := 0 }).1 = .ok vs := by
      rw [hsame.trace_samples i none none s.pos 0]; exact hvs
    obtain ⟨-, -, g3, g4⟩ := samples_stored hr' hi (pos := 0) hvs'
    have hj' : j < vs.length := by omega
    have hle := hend i hi vs hvs
    have hle' : starts3[i] + 240 + vs.length * t3.size ≤ c.data.length := by
      rcases g3 with rfl | g3
      · simp at hj'
      · exact g3
    exact standsFor_inj (sampleItem_length hle' hj') (sampleItem_length hle hj') (g4 j hj') (k4 j hj')

/-- Every byte from the first trace to the end of the last one is in a trace. -/
private theorem in_trace {first : Nat} {starts : List Nat} {len : Nat → Nat}
    (h0 : starts.head? = if starts = [] then none else some first)
    (hs : ∀ i (hi : i + 1 < starts.length), starts[i + 1] = starts[i] + len starts[i]) {k : Nat} (hk : first ≤ k) :
    ∀ i (hi : i < starts.length), k < starts[i] + len starts[i] → ∃ q ∈ starts, q ≤ k ∧ k < q + len q := by
  intro i
  induction i with
  | zero =>
    intro hi hlt
    rw [if_neg (List.ne_nil_of_length_pos hi), List.head?_eq_getElem?, List.getElem?_eq_getElem hi] at h0
    exact ⟨starts[0], List.getElem_mem hi, by rw [Option.some.inj h0]; exact hk, hlt⟩
  | succ i ih =>
    intro hi hlt
    by_cases hle : starts[i + 1] ≤ k
    · exact ⟨_, List.getElem_mem hi, hle, hlt⟩
    · exact ih (by omega) (by rw [← hs i hi]; omega)

private theorem nan_of {e : Endian} {item : Bytes} {v : PyNum} (hn : NotANumber e item) (h : StandsFor e .float32 item v) :
    v = .float .nan := by
  obtain ⟨f, rfl, h⟩ := h
  rw [if_pos hn.1, if_neg hn.2] at h
  rw [h]

/-- A file that is tidy and has only samples that are numbers is copied byte for byte. -/
theorem C96_identical (T B : Format) (e : Endian) (hT : Cataloguable T e) (hTr : Regular T e 240)
    (hB : Regular B e 400) (encoding : Option Encoding) (dim : Option Int) (s s1 : FileH)
    (hs0 : s.pos = 0) (r : Reader) (p : List ℚ) (h : createReader encoding B T e dim s = (.ok (r, p), s1))
    (native : Endian) (hread : AllReadable native r s)
    (hnan : ∀ (i : Nat) vs, (r.traceSamples native i none none s).1 = .ok vs → .float .nan ∉ vs)
    (t : SegYType) (starts : List Nat) (hfmt : r.dataSampleFormat = .ok t)
    (htr : Traces T e s.data t.size (3600 + 3200 * r.extended_textual_headers.length) starts)
    (htidy : Tidy T B e t starts s.data) :
    ∃ p' c, writeSegy (r.asDataset native s) none T e { data := [], pos := 0 } = (.ok p', c) ∧ c.data = s.data := by
  obtain ⟨p', c, t', starts', hw, hfmt', htr', hc⟩ :=
    C96_bytes T B e hT hTr hB encoding dim s s1 hs0 r p h native hread
  obtain rfl := Except.ok.inj (hfmt'.symm.trans hfmt)
  obtain rfl := C61_unique _ _ _ _ _ _ _ htr' htr
  refine ⟨p', c, hw, ?_⟩
  obtain ⟨t2, starts2, hr, ho⟩ := createReader_all hT h
  have ht2 : t2 = t' := by
    have := ho.format
    rw [hfmt] at this
    exact (Except.ok.inj this).symm
  subst ht2
  obtain rfl := C61_unique _ _ _ _ _ _ _ ho.traces htr
  have hne : starts2 ≠ [] := by
    intro hnil
    obtain ⟨n, h1, h2⟩ := C51_no_empty_reader T e hT encoding B dim s s1 r p h
    rw [hr.describes.num_traces, hnil] at h1
    have := Except.ok.inj h1
    simp at this
    omega
  have hpos := List.length_pos_iff.mpr hne
  have hi : starts2.length - 1 < starts2.length := by omega
  have hq : starts2.getLast? = some starts2[starts2.length - 1] := by
    rw [List.getLast?_eq_getElem?, List.getElem?_eq_getElem hi]
  have hlen : c.data.length = s.data.length := by rw [hc.length _ hq, htidy.length _ hq]
  obtain ⟨a1, a2, a3, -, -⟩ := C43_tiles _ _ _ _ _ _ htr
  refine List.ext_getElem? fun k => ?_
  by_cases h1 : k < 3200
  · exact hc.textual k h1
  by_cases h2 : k < 3600
  · obtain ⟨j, rfl⟩ : ∃ j, k = 3200 + j := ⟨k - 3200, by omega⟩
    by_cases hg : B.Gap j
    · rw [(hc.binary j (by omega)).1 hg, htidy.binary j (by omega) hg]
    · exact (hc.binary j (by omega)).2 hg
  by_cases h3 : k < 3600 + 3200 * r.extended_textual_headers.length
  · obtain ⟨j, rfl⟩ : ∃ j, k = 3600 + j := ⟨k - 3600, by omega⟩
    exact hc.extended j (by omega)
  by_cases h4 : k < s.data.length
  swap
  · rw [List.getElem?_eq_none (by omega), List.getElem?_eq_none (by omega)]
  obtain ⟨q, hqm, q1, q2⟩ := in_trace (len := fun q => 240 + samplesAt T e s.data q * t2.size) a1
    (fun i hi => by rw [a2 i hi]; omega) (Nat.le_of_not_lt h3) _ hi (by rw [htidy.length _ hq] at h4; omega)
  by_cases h5 : k < q + 240
  · obtain ⟨j, rfl⟩ : ∃ j, k = q + j := ⟨k - q, by omega⟩
    by_cases hg : T.Gap j
    · rw [(hc.header q hqm j (by omega)).1 hg, htidy.header q hqm j (by omega) hg]
    · exact (hc.header q hqm j (by omega)).2 hg
  · have hsz := t2.size_pos
    have hj : (k - (q + 240)) / t2.size < samplesAt T e s.data q := by
      rw [Nat.div_lt_iff_lt_mul hsz]
      omega
    have hmod := Nat.mod_lt (k - (q + 240)) hsz
    have hdiv := Nat.div_add_mod (k - (q + 240)) t2.size
    rw [Nat.mul_comm] at hdiv
    have hitem : ∀ data : Bytes,
        (sampleItem t2 data q ((k - (q + 240)) / t2.size))[(k - (q + 240)) % t2.size]? = data[k]? := by
      intro data
      unfold sampleItem
      rw [List.getElem?_take_of_lt hmod, List.getElem?_drop, Nat.add_assoc, hdiv, Nat.add_sub_cancel' (by omega)]
    rcases hc.samples q hqm _ hj with heq | ⟨rfl, -, hn⟩
    · rw [← hitem, heq, hitem]
    · exfalso
      obtain ⟨i, hi, rfl⟩ := List.mem_iff_getElem.mp hqm
      obtain ⟨l, hl, hrd⟩ := hread
      rw [hr.describes.trace_indexes] at hl
      obtain rfl := Except.ok.inj hl
      obtain ⟨-, vs, hvs⟩ := hrd i (List.mem_map.mpr ⟨i, List.mem_range.mpr hi, rfl⟩)
      obtain ⟨-, k2, -, k4⟩ := samples_stored hr hi (pos := s.pos) hvs
      rw [k2] at hj
      have := nan_of hn (k4 _ hj)
      exact hnan i vs hvs (this ▸ List.getElem_mem hj)

/-- Copying a copy gives the same bytes again. -/
theorem C96_again (T B : Format) (e : Endian) (hT : Cataloguable T e) (hTr : Regular T e 240)
    (hB : Regular B e 400) (encoding : Option Encoding) (dim : Option Int) (s s1 : FileH)
    (hs0 : s.pos = 0) (r : Reader) (p : List ℚ) (h : createReader encoding B T e dim s = (.ok (r, p), s1))
    (native : Endian) (hread : AllReadable native r s)
    (hnan : ∀ (i : Nat) vs, (r.traceSamples native i none none s).1 = .ok vs → .float .nan ∉ vs) :
    ∃ p' c, writeSegy (r.asDataset native s) none T e { data := [], pos := 0 } = (.ok p', c) ∧
      ∃ r2 p2 c1, createReader encoding B T e dim { c with pos := 0 } = (.ok (r2, p2), c1) ∧
        ∃ p3 c2, writeSegy (r2.asDataset native { c with pos := 0 }) none T e { data := [], pos := 0 } = (.ok p3, c2) ∧
          c2.data = c.data := by
  obtain ⟨p', c, t, starts, hw, hfmt, htr, hc⟩ :=
    C96_bytes T B e hT hTr hB encoding dim s s1 hs0 r p h native hread
  obtain ⟨q', c', t', starts', hw', hfmt', htr', htc, -⟩ :=
    C75_headers_copied T B e hT hTr hB encoding dim s s1 hs0 r p h native hread
  obtain rfl := Except.ok.inj (hfmt'.symm.trans hfmt)
  obtain rfl := C61_unique _ _ _ _ _ _ _ htr' htr
  rw [hw] at hw'
  obtain ⟨-, rfl⟩ := Prod.mk.inj hw'
  clear hw'
  obtain ⟨q2, c2, hw2, -, r', p'', c1, hopen, hsame⟩ :=
    C67_copy T B e e hT hT hTr hB encoding dim s s1 hs0 r p h native hread
  rw [hw] at hw2
  obtain ⟨-, rfl⟩ := Prod.mk.inj hw2
  clear hw2
  refine ⟨p', c, hw, r', p'', c1, hopen, ?_⟩
  have hread' : AllReadable native r' { c with pos := 0 } := by
    obtain ⟨l, hl, hrd⟩ := hread
    refine ⟨l, by rw [hsame.trace_indexes]; exact hl, fun i hi => ?_⟩
    obtain ⟨⟨hd, h1⟩, vs, h2⟩ := hrd i hi
    refine ⟨?_, vs, by rw [hsame.trace_samples i none none s.pos 0]; exact h2⟩
    rcases hsame.trace_header i s.pos 0 with ⟨x, hd', -, g2, -⟩ | ⟨g1, -⟩
    · exact ⟨hd', g2⟩
    · rw [h1] at g1; cases g1
  have htc' : Traces T e c.data t'.size (3600 + 3200 * r'.extended_textual_headers.length) starts' := by
    rw [hsame.extended]; exact htc
  have hsamp : ∀ q ∈ starts', samplesAt T e c.data q = samplesAt T e s.data q := by
    intro q hq
    obtain ⟨i, hi, rfl⟩ := List.mem_iff_getElem.mp hq
    obtain ⟨t2, starts2, hr, ho⟩ := createReader_all hT h
    obtain rfl := Except.ok.inj (ho.format.symm.trans hfmt)
    obtain rfl := C61_unique _ _ _ _ _ _ _ ho.traces htr
    obtain ⟨t3, starts3, hr', ho'⟩ := createReader_all hT hopen
    have hf3 := ho'.format
    rw [hsame.sample_format] at hf3
    obtain rfl := Except.ok.inj (hf3.symm.trans hfmt)
    obtain rfl := C61_unique _ _ _ _ _ _ _ ho'.traces htc'
    have := hsame.num_trace_samples i
    rw [hr.describes.num_trace_samples i hi, hr'.describes.num_trace_samples i hi] at this
    unfold samplesAt
    rw [Except.ok.inj this]
  refine C96_identical T B e hT hTr hB encoding dim { c with pos := 0 } c1 rfl r' p'' hopen native hread' ?_ t' starts'
    (by rw [hsame.sample_format]; exact hfmt) htc' ?_
  · intro i vs hvs
    rw [hsame.trace_samples i none none s.pos 0] at hvs
    exact hnan i vs hvs
  · exact
      { binary := fun k hk hg => (hc.binary k hk).1 hg
        header := fun q hq k hk hg => (hc.header q hq k hk).1 hg
        length := fun q hq => by
          have hm : q ∈ starts' := List.mem_of_getLast? hq
          show c.data.length = q + 240 + samplesAt T e c.data q * t'.size
          rw [hsamp q hm]
          exact hc.length q hq }

/-! ## Examples -/

/-- All bytes that belong to no field are zero. -/
private def gapsZero (F : Format) (bytes : Bytes) : Bool :=
  bytes.zipIdx.all fun x => x.1 == 0 || F.fields.any fun f =>
    decide (f.offset - F.startOffset ≤ x.2) && decide ((x.2 : Int) < f.offset - F.startOffset + f.value_type.size)

private theorem gapsZero_spec {F : Format} {data : Bytes} {q n : Nat} (hl : ((data.drop q).take n).length = n)
    (h : gapsZero F ((data.drop q).take n) = true) : ∀ k < n, F.Gap k → data[q + k]? = some 0 := by
  intro k hk hg
  have hb : ((data.drop q).take n)[k]? = data[q + k]? := by
    rw [List.getElem?_take_of_lt hk, List.getElem?_drop]
  rw [← hb]
  generalize (data.drop q).take n = bytes at *
  unfold gapsZero at h
  rw [List.all_eq_true] at h
  have hk' : k < bytes.length := by omega
  have := h (bytes[k], k) (List.mem_zipIdx_iff_getElem?.mpr (List.getElem?_eq_getElem hk'))
  simp only [Bool.or_eq_true, beq_iff_eq, List.any_eq_true, Bool.and_eq_true, decide_eq_true_eq] at this
  rcases this with h0 | ⟨f, hf, h1⟩
  · rw [List.getElem?_eq_getElem hk', h0]
  · exact absurd h1 (hg f hf)

private theorem sampleFile_tidy :
    Tidy fmtTraceHeaderRev1 fmtBinaryReelHeader .big (.int .int16) [3600, 3844, 4084] sampleFile.data := by
  refine ⟨gapsZero_spec (by decide +kernel) (by decide +kernel), ?_, ?_⟩
  · intro q hq
    refine gapsZero_spec (n := 240) ?_ ?_
    · revert q; decide +kernel
    · revert q; decide +kernel
  · intro q hq
    have : q = 4084 := by simpa using hq.symm
    subst this
    decide +kernel

/-- The sample file, of 16 bit integers, meets the hypotheses of the theorems; it is copied byte for byte. -/
theorem sampleFile_copied : ∃ r p s1, createReader (some .ebcdic) fmtBinaryReelHeader fmtTraceHeaderRev1 .big none sampleFile = (.ok (r, p), s1) ∧
    AllReadable .little r sampleFile ∧ r.dataSampleFormat = .ok (.int .int16) ∧
    (∀ (i : Nat) vs, (r.traceSamples .little i none none sampleFile).1 = .ok vs → .float .nan ∉ vs) ∧
    ∃ p' c, writeSegy (r.asDataset .little sampleFile) none fmtTraceHeaderRev1 .big { data := [], pos := 0 } = (.ok p', c) ∧
      c.data = sampleFile.data := by
  obtain ⟨r, p, s1, h⟩ := sampleFile_ok none (by simp)
  have hread := sampleFile_readable r p s1 h
  have key : ((createReader (some .ebcdic) fmtBinaryReelHeader fmtTraceHeaderRev1 .big none sampleFile).1.map fun x =>
      (x.1.dataSampleFormat, x.1.numTraces, x.1.extended_textual_headers.length)) = .ok (.ok (.int .int16), .ok 3, 0) := by
    decide +kernel
  rw [h] at key
  simp only [Except.map, Except.ok.injEq, Prod.mk.injEq] at key
  obtain ⟨k1, k2, k3⟩ := key
  obtain ⟨t, starts, hr, ho⟩ := createReader_all (C43_rev1_cataloguable _) h
  obtain rfl := Except.ok.inj (ho.format.symm.trans k1)
  have hnan : ∀ (i : Nat) vs, (r.traceSamples .little i none none sampleFile).1 = .ok vs → .float .nan ∉ vs := by
    intro i vs hvs hmem
    by_cases hi : i < starts.length
    · obtain ⟨-, -, -, k4⟩ := samples_stored hr hi (pos := 0) hvs
      obtain ⟨j, hj, hv⟩ := List.mem_iff_getElem.mp hmem
      have : vs[j] = .int _ := k4 j hj
      rw [hv] at this
      cases this
    · have := C45_invalid r .little i starts.length 0 none none sampleFile hr.describes.num_traces (Or.inr (by omega))
        (Or.inr (Or.inl (by omega)))
      rw [this] at hvs
      cases hvs
  refine ⟨r, p, s1, h, hread, k1, hnan, ?_⟩
  have htr := ho.traces
  have hst : starts = [3600, 3844, 4084] := by
    have hlen : starts.length = 3 := by
      have := Except.ok.inj (hr.describes.num_traces.symm.trans k2)
      exact_mod_cast this
    obtain ⟨a, b, c, rfl⟩ := List.length_eq_three.mp hlen
    obtain ⟨a1, a2, -⟩ := C43_tiles _ _ _ _ _ _ htr
    have e0 : a = 3600 := by rw [k3] at a1; simpa using a1
    have e1 := a2 0 (by simp)
    have e2 := a2 1 (by simp)
    simp only [List.getElem_cons_zero, List.getElem_cons_succ, Nat.zero_add, Nat.reduceAdd] at e1 e2
    subst e0
    have n0 : samplesAt fmtTraceHeaderRev1 .big sampleFile.data 3600 = 2 := by decide +kernel
    have n1 : samplesAt fmtTraceHeaderRev1 .big sampleFile.data 3844 = 0 := by decide +kernel
    have hsz : (SegYType.int .int16).size = 2 := rfl
    rw [n0, hsz] at e1
    have e1 : b = 3844 := e1
    subst e1
    rw [n1, hsz] at e2
    have e2 : c = 4084 := e2
    subst e2
    rfl
  rw [hst] at htr
  exact C96_identical fmtTraceHeaderRev1 fmtBinaryReelHeader .big (C43_rev1_cataloguable _)
    (shipped_regular (by decide +kernel) _) (shipped_regular (by decide +kernel) _) _ none sampleFile s1 rfl r p h .little
    hread hnan _ _ k1 htr sampleFile_tidy

end Segpy.Props
