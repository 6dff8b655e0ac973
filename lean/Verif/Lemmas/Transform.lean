import Verif.Lemmas.Copy2
import Verif.Spec.Transform

/-! # Writing a dataset made from a reader by changing headers or samples -/

namespace Segpy

open Spec FileM

/-- Every range of samples of two readers whose whole traces are related. -/
theorem samples_related {smp : PyNum → PyNum → Prop} {r r' : Reader} {native : Endian} {i : Int} {s s' : FileH}
    {l l' : List PyNum} (h : (r.traceSamples native i none none s).1 = .ok l)
    (h' : (r'.traceSamples native i none none s').1 = .ok l') (hl : List.Forall₂ smp l l') {n : Int}
    (hn : r.numTraces = .ok n) (hn' : r'.numTraces = .ok n) (start stop : Option Int) :
    (∃ vs ws, (r.traceSamples native i start stop s).1 = .ok vs ∧
      (r'.traceSamples native i start stop s').1 = .ok ws ∧ List.Forall₂ smp vs ws) ∨
    ((r.traceSamples native i start stop s).1 = .error .valueError ∧
      (r'.traceSamples native i start stop s').1 = .error .valueError) := by
  obtain ⟨a1, a2, a3, a4⟩ := Props.C45_subrange r native i s l h
  obtain ⟨b1, b2, b3, b4⟩ := Props.C45_subrange r' native i s' l' h'
  have hlen := hl.length_eq
  by_cases hbad : stop.getD l.length < 0 ∨ (l.length : Int) < stop.getD l.length ∨ start.getD 0 < 0 ∨
      stop.getD l.length < start.getD 0
  · right
    rw [Props.C45_invalid r native i n l.length start stop s hn (Or.inl a1) (by omega),
      Props.C45_invalid r' native i n l'.length start stop s' hn' (Or.inl b1) (by rw [← hlen]; omega)]
    exact ⟨rfl, rfl⟩
  · left
    push Not at hbad
    obtain ⟨c1, c2, c3, c4⟩ := hbad
    cases start with
    | none =>
      cases stop with
      | none => exact ⟨l, l', h, h', hl⟩
      | some b =>
        simp only [Option.getD_some, Option.getD_none] at c1 c2 c3 c4
        obtain ⟨m, rfl⟩ := Int.eq_ofNat_of_zero_le c1
        exact ⟨_, _, a3 m (by omega), b3 m (by omega), List.forall₂_take _ hl⟩
    | some a =>
      cases stop with
      | none =>
        simp only [Option.getD_some, Option.getD_none] at c1 c2 c3 c4
        obtain ⟨m, rfl⟩ := Int.eq_ofNat_of_zero_le c3
        exact ⟨_, _, a4 m (by omega), b4 m (by omega), List.forall₂_drop _ hl⟩
      | some b =>
        simp only [Option.getD_some] at c1 c2 c3 c4
        obtain ⟨m, rfl⟩ := Int.eq_ofNat_of_zero_le c1
        obtain ⟨k, rfl⟩ := Int.eq_ofNat_of_zero_le c3
        exact ⟨_, _, a2 k m (by omega) (by omega), b2 k m (by omega) (by omega),
          List.forall₂_drop _ (List.forall₂_take _ hl)⟩

/-- Every sample that is read is what some bytes stand for. -/
theorem samples_standFor {T : Format} {e : Endian} {s : FileH} {t : SegYType} {starts : List Nat} {r : Reader}
    (hr : Readable T e s t starts r) {native : Endian} {i : Nat} (hi : i < starts.length) {vs : List PyNum}
    (h : (r.traceSamples native i none none s).1 = .ok vs) :
    ∀ v ∈ vs, ∃ item : Bytes, item.length = t.size ∧ StandsFor e t item v := by
  have hlen := (Props.C45_subrange r native i _ vs h).1
  rw [hr.describes.num_trace_samples i hi] at hlen
  have hlen' := Except.ok.inj hlen
  obtain ⟨f1, f2⟩ := hr.reads native i hi 0 vs.length s.pos (Nat.zero_le _) (by rw [hlen'])
  have hall := traceSamples_all r native i _ (hr.describes.num_trace_samples i hi) s
  rw [hlen'] at hall
  have hall' : (r.traceSamples native i (some ((0 : Nat) : Int)) (some (vs.length : Int)) s).1 = .ok vs := by
    rw [← h, hall]; rfl
  by_cases hz : vs.length = 0
  · have : vs = [] := List.eq_nil_of_length_eq_zero hz
    subst this
    simp
  by_cases hfit : starts[i] + 240 + vs.length * t.size ≤ s.data.length
  · obtain ⟨l, l1, l2, l3⟩ := f2 (Or.inr hfit)
    rw [hall'] at l1
    cases l1
    intro v hv
    obtain ⟨k, hk, rfl⟩ := List.mem_iff_getElem.mp hv
    refine ⟨_, ?_, l3 k hk⟩
    rw [List.length_take, List.length_drop]
    have hp := t.size_pos
    have : (k + 1) * t.size ≤ vs.length * t.size := Nat.mul_le_mul_right _ (by omega)
    rw [Nat.succ_mul] at this
    omega
  · have := f1 (by omega) (by omega)
    rw [hall'] at this
    cases this

/-- A dataset made from that of a reader: the members it overrides. -/
structure Derived (d0 d : Dataset) (T B : Format) (t' : SegYType) (bin hdr : String → Int → Int)
    (hs hs' : List Header) (vss vss' : List (List PyNum)) : Prop where
  textual : d.textual_reel_header = d0.textual_reel_header
  extended : d.extended_textual_header = d0.extended_textual_header
  encoding : d.encoding = d0.encoding
  num_traces : d.num_traces = d0.num_traces
  indexes : d.trace_indexes = d0.trace_indexes
  binary_format : d.binary_reel_header.format = B
  binary_valid : d.binary_reel_header.Valid
  binary : ∀ f ∈ B.fields, ∃ v, d0.binary_reel_header.get f.name = .ok v ∧
    d.binary_reel_header.get f.name = .ok (bin f.name v)
  kept_binary : ∀ n ∈ ["format_revision_num", "num_extended_textual_headers"], bin n = id
  sample_format : d.dataSampleFormat = .ok t'
  headers_length : hs'.length = hs.length
  trace_header : ∀ i (h : i < hs'.length), d.trace_header i = .ok hs'[i]
  header_format : ∀ h ∈ hs', h.format = T
  header_valid : ∀ h ∈ hs', h.Valid
  header : ∀ i (h : i < hs.length) (h' : i < hs'.length), ∀ f ∈ T.fields, ∃ v, hs[i].get f.name = .ok v ∧
    hs'[i].get f.name = .ok (hdr f.name v)
  kept_header : ∀ n ∈ ["num_samples", "inline_number", "crossline_number", "ensemble_num"], hdr n = id
  samples_length : vss'.length = vss.length
  num_samples : ∀ i (h : i < vss.length) (h' : i < vss'.length), vss'[i].length = vss[i].length
  trace_samples : ∀ i (h : i < vss'.length), d.trace_samples i = .ok vss'[i]
  fits : ∀ vs ∈ vss', ∀ v ∈ vs, Fits t' v

theorem get_of_attr {h : Header} {n : String} {v : Int} (hg : h.get n = .ok v) :
    ∃ f ∈ h.format.fields, f.name = n := by
  cases hb : h.format.attr n with
  | some f => exact ⟨f, Format.mem_fields.mpr (by rw [Format.attr_name hb]; exact hb), Format.attr_name hb⟩
  | none => unfold Header.get at hg; rw [hb] at hg; cases hg

theorem Derived.consistent {d0 d : Dataset} {enc : Encoding} {T B : Format} {e : Endian} {t t' : SegYType}
    {bin hdr : String → Int → Int} {hs hs' : List Header} {vss vss' : List (List PyNum)}
    (hc : Consistent d0 enc T e t hs vss) (hbf : d0.binary_reel_header.format = B)
    (h : Derived d0 d T B t' bin hdr hs hs' vss vss') : Consistent d enc T e t' hs' vss' := by
  have hget : ∀ n v, d0.binary_reel_header.get n = .ok v → d.binary_reel_header.get n = .ok (bin n v) := by
    intro n v hg
    obtain ⟨f, hf, rfl⟩ := get_of_attr hg
    rw [hbf] at hf
    obtain ⟨w, h1, h2⟩ := h.binary f hf
    rw [hg] at h1
    rw [Except.ok.inj h1]
    exact h2
  have hl1 := h.headers_length
  have hl2 := h.samples_length
  refine
    { encoding := hc.encoding
      textual := by rw [h.textual]; exact hc.textual
      binary_format := by rw [h.binary_format, ← hbf]; exact hc.binary_format
      binary_valid := h.binary_valid
      sample_format := h.sample_format
      revision := ?_
      pages := by rw [h.extended]; exact hc.pages
      no_early_stop := by rw [h.extended]; exact hc.no_early_stop
      num_pages := ?_
      some_trace := ?_
      num_traces := by rw [h.num_traces, hc.num_traces, hl1]
      indexes := by rw [h.indexes, hc.indexes, hl1]
      trace_format := hc.trace_format
      cataloguable := hc.cataloguable
      trace_header := h.trace_header
      header_format := h.header_format
      header_valid := h.header_valid
      same_length := by rw [hl1, hl2]; exact hc.same_length
      num_samples := ?_
      trace_samples := h.trace_samples
      fits := h.fits }
  · obtain ⟨v, h1, h2⟩ := hc.revision
    have := hget _ _ h1
    rw [h.kept_binary _ (by simp)] at this
    exact ⟨v, this, h2⟩
  · obtain ⟨v, h1, h2⟩ := hc.num_pages
    have := hget _ _ h1
    rw [h.kept_binary _ (by simp)] at this
    rw [h.extended]
    exact ⟨v, this, h2⟩
  · intro hnil
    rw [hnil] at hl1
    exact hc.some_trace (List.eq_nil_of_length_eq_zero hl1.symm)
  · intro i hi hi'
    have hn := hc.num_samples i (by omega) (by omega)
    obtain ⟨f, hf, hfn⟩ := get_of_attr hn
    rw [hc.header_format _ (List.getElem_mem _)] at hf
    obtain ⟨w, h1, h2⟩ := h.header i (by omega) hi f hf
    rw [hfn] at h1 h2
    rw [hn] at h1
    rw [h.kept_header _ (by simp)] at h2
    rw [h2, ← Except.ok.inj h1, h.num_samples i (by omega) hi']
    rfl

/-- Writing such a dataset and reading the file. -/
theorem derived_contents {T B : Format} {e e' : Endian} (hT : Cataloguable T e) (hT' : Cataloguable T e')
    (hTr : Regular T e' 240) (hB : Regular B e' 400) {encoding : Option Encoding} {dim : Option Int} {s s1 : FileH}
    (hs0 : s.pos = 0) {r : Reader} {p : List ℚ} (h : createReader encoding B T e dim s = (.ok (r, p), s1))
    {native : Endian} {t t' : SegYType} {starts : List Nat} {hs hs' : List Header} {vss vss' : List (List PyNum)}
    (hr : Readable T e s t starts r)
    (ho : Opened T e dim s.data (3600 + 3200 * r.extended_textual_headers.length) t starts r)
    (hlen : hs.length = starts.length) (hc : Consistent (r.asDataset native s) r.encoding T e' t hs vss)
    {d : Dataset} {bin hdr : String → Int → Int} {smp : PyNum → PyNum → Prop}
    (hd : Derived (r.asDataset native s) d T B t' bin hdr hs hs' vss vss')
    (hsmp : ∀ i (hi : i < vss.length) (hi' : i < vss'.length), ∀ ws, List.Forall₂ (StoredAs t') vss'[i] ws →
      List.Forall₂ smp vss[i] ws) :
    ∃ p' c, writeSegy d none T e' { data := [], pos := 0 } = (.ok p', c) ∧
      c.data.take 3200 = s.data.take 3200 ∧
      ∃ r' p'' c1, createReader encoding B T e' dim { c with pos := 0 } = (.ok (r', p''), c1) ∧
        Transformed T B native bin hdr smp r s r' { c with pos := 0 } := by
  obtain ⟨henc, ⟨s2, ht⟩, -⟩ := createReader_reel h
  obtain ⟨hbf, -⟩ := createReader_binary hB.afterStart hB.orderSafe h
  have hpage := (readTextual_page ht).2.1
  have hc' := hd.consistent hc hbf
  have hdf : d.binary_reel_header.format = B := hd.binary_format
  obtain ⟨p', c, h1, hsize, h3⟩ := Props.C47_round_trip _ _ T e' t' hs' vss' hc' none (by
    rw [hd.encoding]; rfl)
  have hdims := ho.dims
  have hcards : fortyCards d.textual_reel_header = r.textual_reel_header := by
    rw [hd.textual]; exact fortyCards_page hpage
  have htake : c.data.take 3200 = s.data.take 3200 := by
    obtain ⟨r', p'', c1, g1, g2⟩ := h3 (some r.encoding) dim rfl hdims
    obtain ⟨-, ⟨c2, k⟩, -⟩ := createReader_reel g1
    obtain ⟨k1, -⟩ := createReader_reel g1
    rw [g2.textual, k1, hcards] at k
    have := readTextual_inj k ht
    rw [hs0] at this
    simpa using this
  refine ⟨p', c, h1, htake, ?_⟩
  have hused : Props.usedEncoding encoding c.data = r.encoding := by
    rw [henc]
    unfold Props.usedEncoding
    rw [htake]
  obtain ⟨r', p'', c1, g1, hback⟩ := h3 encoding dim hused hdims
  rw [hdf] at g1
  refine ⟨r', p'', c1, g1, ?_⟩
  replace hback : ReadsBack d T t' hs' vss' c.data.length { c with pos := 0 } r' := hback
  obtain ⟨t'', starts', hr', ho'⟩ := createReader_all hT' g1
  have hl1 := hd.headers_length
  have hl2 := hd.samples_length
  have hvl := hc.same_length
  have hfull : ∀ i < hs.length, traceStart (firstTrace d) t' vss' (i + 1) ≤ c.data.length := by
    intro i hi
    rw [hsize]
    exact traceStart_mono _ _ _ (by omega)
  have hfull' : ∀ i < hs.length, traceStart (firstTrace d) t' vss' i + 240 ≤ c.data.length := by
    intro i hi
    have := hfull i hi
    rw [traceStart_succ _ _ _ _ (by omega)] at this
    omega
  have hnum' : r'.numTraces = .ok hs.length := by
    rw [hback.num_traces, List.filter_eq_self.mpr]
    · simp [hl1]
    · intro i hi
      have := List.mem_range.mp hi
      simpa using hfull' i (by omega)
  have hl' : starts'.length = hs.length := by
    have := hr'.describes.num_traces
    rw [hnum'] at this
    have := Except.ok.inj this
    omega
  have hsamples : ∀ i (hi : i < vss.length), (r.traceSamples native i none none s).1 = .ok vss[i] := hc.trace_samples
  have hsamples' : ∀ i (hi : i < vss.length), ∃ ws, (r'.traceSamples native i none none { c with pos := 0 }).1 = .ok ws ∧
      List.Forall₂ smp vss[i] ws := by
    intro i hi
    obtain ⟨ws, w1, w2⟩ := hback.trace_samples native i (by omega) 0 (by omega) (hfull i (by omega))
    exact ⟨ws, w1, hsmp i hi (by omega) ws w2⟩
  have hheader : ∀ i (hi : i < hs.length) (pos pos' : Nat),
      ∃ h0 h1, (r.traceHeader i none { s with pos := pos }).1 = .ok h0 ∧
      (r'.traceHeader i none { c with pos := pos' }).1 = .ok h1 ∧ h0.format = T ∧ h1.format = T ∧
      ∀ f ∈ T.fields, ∃ v, h0.get f.name = .ok v ∧ h1.get f.name = .ok (hdr f.name v) := by
    intro i hi pos pos'
    obtain ⟨h1, g1, g2, g3⟩ := hback.trace_header i (by omega) pos' (hfull' i hi)
    refine ⟨hs[i], h1, ?_, g1, hc.header_format _ (List.getElem_mem hi), g2, ?_⟩
    · rw [traceHeader_pos]
      exact hc.trace_header i hi
    · intro f hf
      obtain ⟨v, v1, v2⟩ := hd.header i hi (by omega) f hf
      exact ⟨v, v1, by rw [g3 f hf, v2]⟩
  have hfields : ∀ i (hi : i < starts.length) (hi' : i < starts'.length),
      ∀ n ∈ ["num_samples", "inline_number", "crossline_number", "ensemble_num"], n ∈ T.orderedFieldNames →
      fieldAt T e' c.data starts'[i] n = fieldAt T e s.data starts[i] n := by
    intro i hi hi' n hk hn
    obtain ⟨f, hf⟩ := Format.attr_of_mem hn
    have hfn := Format.attr_name hf
    have hfm : f ∈ T.fields := Format.mem_fields.mpr (by rw [hfn]; exact hf)
    obtain ⟨h0, h1, g1, g2, -, -, g3⟩ := hheader i (by omega) s.pos 0
    have e1 := (traceHeader_ok hT hTr.orderSafe hr ho hi g1).2.2 f hfm
    have e2 := (traceHeader_ok hT' hTr.orderSafe hr' ho' hi' g2).2.2 f hfm
    obtain ⟨v, v1, v2⟩ := g3 f hfm
    rw [v1] at e1
    rw [v2, hfn, hd.kept_header n hk, Except.ok.inj e1, hfn] at e2
    exact (Except.ok.inj e2).symm
  have hlists : ∀ {α : Type} (g : (String → Int) → α), (∀ x y : String → Int,
      (∀ n ∈ ["num_samples", "inline_number", "crossline_number", "ensemble_num"], n ∈ T.orderedFieldNames → x n = y n) →
        g x = g y) →
      starts'.map (fun p => g (fieldAt T e' c.data p)) = starts.map (fun p => g (fieldAt T e s.data p)) := by
    intro α g hg
    refine List.ext_getElem (by simp; omega) ?_
    intro i h1 h2
    simp only [List.getElem_map]
    exact hg _ _ (hfields i (by simpa using h2) (by simpa using h1))
  have hlines : linePairs T e' c.data starts' = linePairs T e s.data starts :=
    hlists (fun x => (x "inline_number", x "crossline_number")) fun x y hxy => by
      rw [hxy _ (by simp) (hT.present _ (by simp)), hxy _ (by simp) (hT.present _ (by simp))]
  have hens : ensembles T e' c.data starts' = ensembles T e s.data starts :=
    hlists (fun x => x "ensemble_num") fun x y hxy => hxy _ (by simp) (hT.present _ (by simp))
  have hfind : (r'.dimensionality = r.dimensionality) ∧
      (r.dimensionality = .ok 3 → ∀ k, r'.traceIndex3 k = r.traceIndex3 k) ∧
      (r.dimensionality = .ok 2 → ∀ k, r'.traceIndex2 k = r.traceIndex2 k) := by
    obtain ⟨ta, sa, a1, a2, a3, a4, a5, a6, -, a7⟩ := Props.C49_finds T e hT encoding B dim s s1 r p h
    obtain ⟨tb, sb, b1, b2, b3, b4, b5, b6, -, b7⟩ := Props.C49_finds T e' hT' encoding B dim _ c1 r' p'' g1
    have hta : ta = t := by
      have := a1.data_sample_format
      rw [hr.describes.data_sample_format] at this
      exact (Except.ok.inj this).symm
    have htb : tb = t'' := by
      have := b1.data_sample_format
      rw [hr'.describes.data_sample_format] at this
      exact (Except.ok.inj this).symm
    subst hta htb
    have hsa := Props.C61_unique _ _ _ _ _ _ _ a2 ho.traces
    have hsb := Props.C61_unique _ _ _ _ _ _ _ b2 ho'.traces
    subst hsa hsb
    simp only at b3 b4 b5 b6 b7
    rw [hlines, hens, hl', hlen] at b7
    replace b7 : r'.dimensionality = r.dimensionality := by rw [b7, a7]; cases dim <;> rfl
    refine ⟨b7, ?_, ?_⟩
    · intro h3 k
      rw [hlines] at b3 b5
      by_cases hnd : (linePairs T e s.data sa).Nodup
      · have f1 := a3 h3 hnd
        have f2 := b3 (by rw [b7, h3]) hnd
        by_cases hk : k ∈ linePairs T e s.data sa
        · obtain ⟨i, hi, rfl⟩ := List.mem_iff_getElem.mp hk
          rw [f1.found i hi, f2.found i hi]
        · rw [f1.not_found k hk, f2.not_found k hk]
      · rw [(a5 h3 hnd).not_found, (b5 (by rw [b7, h3]) hnd).not_found]
    · intro h2 k
      rw [hens] at b4 b6
      by_cases hnd : (ensembles T e s.data sa).Nodup
      · have f1 := a4 h2 hnd
        have f2 := b4 (by rw [b7, h2]) hnd
        by_cases hk : k ∈ ensembles T e s.data sa
        · obtain ⟨i, hi, rfl⟩ := List.mem_iff_getElem.mp hk
          rw [f1.found i hi, f2.found i hi]
        · rw [f1.not_found k hk, f2.not_found k hk]
      · rw [(a6 h2 hnd).not_found, (b6 (by rw [b7, h2]) hnd).not_found]
  refine
    { textual := by rw [hback.textual, hcards]
      binary_format := ⟨by rw [hback.binary_format]; exact hdf, hbf⟩
      binary := ?_
      extended := by rw [hback.extended, hd.extended]; rfl
      num_traces := by rw [hnum', hr.describes.num_traces, hlen]
      trace_indexes := by rw [hr'.describes.trace_indexes, hr.describes.trace_indexes, hl', hlen]
      num_trace_samples := ?_
      trace_header := ?_
      trace_samples := ?_
      dimensionality := hfind.1
      trace_index3 := hfind.2.1
      trace_index2 := hfind.2.2 }
  · intro f hf
    obtain ⟨v, v1, v2⟩ := hd.binary f hf
    refine ⟨v, v1, ?_⟩
    rw [hback.binary f (by rw [hdf]; exact hf), v2]
  · intro i
    by_cases hi : 0 ≤ i ∧ i < starts.length
    · obtain ⟨k, rfl⟩ := Int.eq_ofNat_of_zero_le hi.1
      have hk : k < starts.length := by omega
      rw [hr.describes.num_trace_samples k hk, hr'.describes.num_trace_samples k (by omega),
        hfields k hk (by omega) _ (by simp) (hT.present _ (by simp))]
    · rw [hr.describes.no_num_trace_samples i (by omega), hr'.describes.no_num_trace_samples i (by omega)]
  · intro i pos pos'
    by_cases hi : 0 ≤ i ∧ i < starts.length
    · obtain ⟨k, rfl⟩ := Int.eq_ofNat_of_zero_le hi.1
      exact Or.inl (hheader k (by omega) pos pos')
    · right
      rw [traceHeader_eq, traceHeader_eq, hr.describes.num_traces, hr'.describes.num_traces, hl', hlen]
      simp only
      rw [if_pos hi, if_pos hi]
      exact ⟨rfl, rfl⟩
  · intro i start stop pos pos'
    rw [traceSamples_pos r' native i start stop _ pos', traceSamples_pos r native i start stop s pos]
    by_cases hi : 0 ≤ i ∧ i < starts.length
    · obtain ⟨k, rfl⟩ := Int.eq_ofNat_of_zero_le hi.1
      obtain ⟨ws, w1, w2⟩ := hsamples' k (by omega)
      refine samples_related (hsamples k (by omega)) w1 w2 hr.describes.num_traces ?_ start stop
      rw [hnum', hlen]
    · right
      rw [Props.C45_invalid r native i starts.length 0 start stop s hr.describes.num_traces (Or.inr hi) (by omega),
        Props.C45_invalid r' native i starts'.length 0 start stop _ hr'.describes.num_traces (Or.inr (by omega)) (by omega)]
      exact ⟨rfl, rfl⟩

theorem mapM_related {f : PyNum → Res PyNum} {l : List PyNum} {P : PyNum → PyNum → Prop}
    (h : ∀ v ∈ l, ∃ w, f v = .ok w ∧ P v w) : ∃ l', l.mapM f = .ok l' ∧ List.Forall₂ P l l' := by
  induction l with
  | nil => exact ⟨[], rfl, .nil⟩
  | cons a l ih =>
    obtain ⟨w, h1, h2⟩ := h a List.mem_cons_self
    obtain ⟨l', h3, h4⟩ := ih fun v hv => h v (List.mem_cons_of_mem _ hv)
    exact ⟨w :: l', by rw [List.mapM_cons, h1, h3]; rfl, .cons h2 h4⟩

theorem forall2_comp {P Q R : PyNum → PyNum → Prop} {l l' l'' : List PyNum} (h : List.Forall₂ P l l')
    (h' : List.Forall₂ Q l' l'') (hpq : ∀ a b c, P a b → Q b c → R a c) : List.Forall₂ R l l'' := by
  induction h generalizing l'' with
  | nil => cases h'; exact .nil
  | cons h1 _ ih =>
    cases h' with
    | cons h2 h3 => exact .cons (hpq _ _ _ h1 h2) (ih h3)

theorem forall2_right {P : PyNum → PyNum → Prop} {l l' : List PyNum} (h : List.Forall₂ P l l') {b : PyNum}
    (hb : b ∈ l') : ∃ a ∈ l, P a b := by
  induction h with
  | nil => cases hb
  | cons h1 _ ih =>
    rcases List.mem_cons.mp hb with rfl | hb
    · exact ⟨_, List.mem_cons_self, h1⟩
    · obtain ⟨a, h2, h3⟩ := ih hb
      exact ⟨a, List.mem_cons_of_mem _ h2, h3⟩

theorem forall2_left {P : PyNum → PyNum → Prop} {l l' : List PyNum} (h : List.Forall₂ P l l') {a : PyNum}
    (ha : a ∈ l) : ∃ b ∈ l', P a b := by
  induction h with
  | nil => cases ha
  | cons h1 _ ih =>
    rcases List.mem_cons.mp ha with rfl | ha
    · exact ⟨_, List.mem_cons_self, h1⟩
    · obtain ⟨b, h2, h3⟩ := ih ha
      exact ⟨b, List.mem_cons_of_mem _ h2, h3⟩

theorem res_mapM_rel {f : PyNum → Res PyNum} {l l' : List PyNum} (h : l.mapM f = .ok l') :
    List.Forall₂ (fun v w => f v = .ok w) l l' := by
  induction l generalizing l' with
  | nil => cases h; exact .nil
  | cons a l ih =>
    rw [List.mapM_cons] at h
    cases hf : f a with
    | error err => rw [hf] at h; cases h
    | ok w =>
      cases hl : l.mapM f with
      | error err => rw [hf, hl] at h; cases h
      | ok ws =>
        rw [hf, hl] at h
        cases h
        exact .cons hf (ih hl)

/-- The dataset of a reader with every sample changed by `f`. -/
theorem mapped_contents {T B : Format} {e e' : Endian} (hT : Cataloguable T e) (hT' : Cataloguable T e')
    (hTr : Regular T e' 240) (hB : Regular B e' 400) {encoding : Option Encoding} {dim : Option Int} {s s1 : FileH}
    (hs0 : s.pos = 0) {r : Reader} {p : List ℚ} (h : createReader encoding B T e dim s = (.ok (r, p), s1))
    {native : Endian} (hread : AllReadable native r s) {t' : SegYType} {d : Dataset} {bin : String → Int → Int}
    {smp : PyNum → PyNum → Prop} {binary : Header} {f : PyNum → Res PyNum}
    (hd : d = { r.asDataset native s with
      binary_reel_header := binary
      trace_samples := fun i => do ((← (r.asDataset native s).trace_samples i).mapM f) })
    (hbf : binary.format = B) (hbv : binary.Valid)
    (hbin : ∀ f ∈ B.fields, ∃ v, r.binary_reel_header.get f.name = .ok v ∧ binary.get f.name = .ok (bin f.name v))
    (hkept : ∀ n ∈ ["format_revision_num", "num_extended_textual_headers"], bin n = id)
    (hfmt : d.dataSampleFormat = .ok t')
    (hf : ∀ (i : Nat) vs, (r.traceSamples native i none none s).1 = .ok vs → ∀ v ∈ vs,
      ∃ w, f v = .ok w ∧ Fits t' w ∧ ∀ w', StoredAs t' w w' → smp v w') :
    ∃ p' c, writeSegy d none T e' { data := [], pos := 0 } = (.ok p', c) ∧
      c.data.take 3200 = s.data.take 3200 ∧
      ∃ r' p'' c1, createReader encoding B T e' dim { c with pos := 0 } = (.ok (r', p''), c1) ∧
        Transformed T B native bin (fun _ v => v) smp r s r' { c with pos := 0 } := by
  obtain ⟨t, starts, hs, vss, hr, ho, hlen, hc⟩ := asDataset_consistent hT hT' hTr hB h hread
  have hv : ∀ i (hi : i < vss.length), (r.traceSamples native i none none s).1 = .ok vss[i] := hc.trace_samples
  have hv' : ∀ i < vss.length, ∃ l', ∀ (hi : i < vss.length), vss[i].mapM f = .ok l' ∧
      List.Forall₂ (fun v w => Fits t' w ∧ ∀ w', StoredAs t' w w' → smp v w') vss[i] l' := by
    intro i hi
    obtain ⟨l', h1, h2⟩ := mapM_related (hf i vss[i] (hv i hi))
    exact ⟨l', fun _ => ⟨h1, h2⟩⟩
  obtain ⟨vss', hl', hv'⟩ := exists_list _ hv'
  have hder : Derived (r.asDataset native s) d T B t' bin (fun _ v => v) hs hs vss vss' := by
    refine
      { textual := by rw [hd]
        extended := by rw [hd]
        encoding := by rw [hd]
        num_traces := by rw [hd]
        indexes := by rw [hd]
        binary_format := by rw [hd]; exact hbf
        binary_valid := by rw [hd]; exact hbv
        binary := by rw [hd]; exact hbin
        kept_binary := hkept
        sample_format := hfmt
        headers_length := rfl
        trace_header := by rw [hd]; exact hc.trace_header
        header_format := hc.header_format
        header_valid := hc.header_valid
        header := ?_
        kept_header := by intro n _; rfl
        samples_length := hl'
        num_samples := ?_
        trace_samples := ?_
        fits := ?_ }
    · intro i hi _ g hg
      have hfm := hc.header_format _ (List.getElem_mem hi)
      obtain ⟨v, h1, -⟩ := hc.header_valid _ (List.getElem_mem hi) g (by rw [hfm]; exact hg)
      exact ⟨v, h1, h1⟩
    · intro i hi hi'
      exact ((hv' i hi' hi).2.length_eq).symm
    · intro i hi
      rw [hd]
      show (do ((← (r.asDataset native s).trace_samples i).mapM f)) = _
      rw [hc.trace_samples i (by omega)]
      exact (hv' i hi (by omega)).1
    · intro vs hmem v hvm
      obtain ⟨i, hi, rfl⟩ := List.mem_iff_getElem.mp hmem
      obtain ⟨_, _, h1, _⟩ := forall2_right (hv' i hi (by omega)).2 hvm
      exact h1
  refine derived_contents hT hT' hTr hB hs0 h hr ho hlen hc hder ?_
  intro i hi hi' ws hws
  exact forall2_comp (hv' i hi' hi).2 hws fun a b c h1 h2 => h1.2 c h2

/-- The dataset of a reader with every sample changed by `f`, if some sample is refused: the first such trace raises. -/
theorem mapped_raises {T B : Format} {e e' : Endian} (hT : Cataloguable T e) (hT' : Cataloguable T e')
    (hTr : Regular T e' 240) (hB : Regular B e' 400) {encoding : Option Encoding} {dim : Option Int} {s s1 : FileH}
    {r : Reader} {p : List ℚ} (h : createReader encoding B T e dim s = (.ok (r, p), s1))
    {native : Endian} (hread : AllReadable native r s) {t' : SegYType} {d : Dataset} {bin : String → Int → Int}
    {binary : Header} {f : PyNum → Res PyNum}
    (hd : d = { r.asDataset native s with
      binary_reel_header := binary
      trace_samples := fun i => do ((← (r.asDataset native s).trace_samples i).mapM f) })
    (hbf : binary.format = B) (hbv : binary.Valid)
    (hbin : ∀ f ∈ B.fields, ∃ v, r.binary_reel_header.get f.name = .ok v ∧ binary.get f.name = .ok (bin f.name v))
    (hkept : ∀ n ∈ ["format_revision_num", "num_extended_textual_headers"], bin n = id)
    (hfmt : d.dataSampleFormat = .ok t')
    (hfloat : t' = .float32 → ∀ v w, f v = .ok w → ∃ g, w = .float g)
    (hbad : ∃ (i : Nat) (vs : List PyNum), (r.traceSamples native i none none s).1 = .ok vs ∧
      ∃ v ∈ vs, ¬ ∃ w, f v = .ok w ∧ Fits t' w) :
    ∃ (j : Nat) (vs : List PyNum) (err : Err) (c : FileH), (r.traceSamples native j none none s).1 = .ok vs ∧
      writeSegy d none T e' { data := [], pos := 0 } = (.error err, c) ∧
      (vs.mapM f = .error err ∨ ∃ ws, vs.mapM f = .ok ws ∧ sampleBytes ws t' e' = .error err ∧
        (t' = .float32 → err = .overflowError) ∧ ∀ n, t' = .int n → err = .structError) := by
  classical
  obtain ⟨t, starts, hs, vss, hr, ho, hlen, hc⟩ := asDataset_consistent hT hT' hTr hB h hread
  have hv : ∀ i (hi : i < vss.length), (r.traceSamples native i none none s).1 = .ok vss[i] := hc.trace_samples
  have hvl := hc.same_length
  have hbad' : ∃ i, ∃ hi : i < vss.length, ∃ v ∈ vss[i], ¬ ∃ w, f v = .ok w ∧ Fits t' w := by
    obtain ⟨i, vs, h1, h2⟩ := hbad
    by_cases hi : i < vss.length
    · refine ⟨i, hi, ?_⟩
      rw [hv i hi] at h1
      cases h1
      exact h2
    · rw [Props.C45_invalid r native i starts.length 0 none none s hr.describes.num_traces (Or.inr (by omega))
        (by omega)] at h1
      cases h1
  obtain ⟨hj, hjbad⟩ := Nat.find_spec hbad'
  have hmin := fun i (hi : i < Nat.find hbad') => Nat.find_min hbad' hi
  generalize Nat.find hbad' = j at hj hjbad hmin
  let zero : PyNum := match t' with
    | .int _ => .int 0
    | _ => .float (.fin 0)
  have hzero : Fits t' zero := by
    cases t' with
    | int n => refine ⟨0, rfl, ?_, ?_⟩ <;> cases n <;> decide
    | float32 => exact ⟨_, rfl, by show |(0 : ℚ)| < _; norm_num⟩
    | ibm => exact Or.inl rfl
  let samples : Int → Res (List PyNum) := fun i => if i < j then d.trace_samples i else
    .ok (List.replicate (vss.getD i.toNat []).length zero)
  have hv' : ∀ i < vss.length, ∃ l', ∀ (hi : i < vss.length), samples i = .ok l' ∧ l'.length = vss[i].length ∧
      ∀ w ∈ l', Fits t' w := by
    intro i hi
    by_cases hij : i < j
    · have hgood : ∀ v ∈ vss[i], ∃ w, f v = .ok w ∧ Fits t' w := by
        intro v hvm
        by_contra hn
        exact hmin i hij ⟨hi, v, hvm, hn⟩
      obtain ⟨l', h1, h2⟩ := mapM_related (P := fun _ w => Fits t' w) hgood
      refine ⟨l', fun _ => ⟨?_, h2.length_eq.symm, ?_⟩⟩
      · show (if (i : Int) < j then _ else _) = _
        rw [if_pos (by omega), hd]
        show (do ((← (r.asDataset native s).trace_samples i).mapM f)) = _
        rw [hc.trace_samples i hi]
        exact h1
      · intro w hw
        obtain ⟨_, _, h3⟩ := forall2_right h2 hw
        exact h3
    · refine ⟨List.replicate vss[i].length zero, fun _ => ⟨?_, by simp, ?_⟩⟩
      · show (if (i : Int) < j then _ else _) = _
        rw [if_neg (by omega), Int.toNat_natCast, List.getD_eq_getElem _ _ hi]
      · intro w hw
        rw [List.eq_of_mem_replicate hw]
        exact hzero
  obtain ⟨vss', hl', hv'⟩ := exists_list _ hv'
  have hder : Derived (r.asDataset native s) { d with trace_samples := samples } T B t' bin (fun _ v => v) hs hs vss vss' := by
    refine
      { textual := by rw [hd]
        extended := by rw [hd]
        encoding := by rw [hd]
        num_traces := by rw [hd]
        indexes := by rw [hd]
        binary_format := by rw [hd]; exact hbf
        binary_valid := by rw [hd]; exact hbv
        binary := by rw [hd]; exact hbin
        kept_binary := hkept
        sample_format := hfmt
        headers_length := rfl
        trace_header := by rw [hd]; exact hc.trace_header
        header_format := hc.header_format
        header_valid := hc.header_valid
        header := ?_
        kept_header := by intro n _; rfl
        samples_length := hl'
        num_samples := fun i hi hi' => (hv' i hi' hi).2.1
        trace_samples := fun i hi => (hv' i hi (by omega)).1
        fits := ?_ }
    · intro i hi _ g hg
      have hfm := hc.header_format _ (List.getElem_mem hi)
      obtain ⟨v, h1, -⟩ := hc.header_valid _ (List.getElem_mem hi) g (by rw [hfm]; exact hg)
      exact ⟨v, h1, h1⟩
    · intro vs hmem v hvm
      obtain ⟨i, hi, rfl⟩ := List.mem_iff_getElem.mp hmem
      exact (hv' i hi (by omega)).2.2 v hvm
  obtain ⟨b1, -⟩ := createReader_binary hB.afterStart hB.orderSafe h
  have hcons := hder.consistent hc b1
  obtain ⟨progress, complete, -, -, h2, h3⟩ := Props.C48_dataset_raises _ _ T e' t' hs vss' hcons none
    (by rw [hd]; rfl) j (by omega) d.trace_header d.trace_samples (fun _ _ => rfl) (fun i hi => by
      show _ = (if (i : Int) < j then _ else _)
      rw [if_pos (by omega)])
  have hdj : d.trace_samples j = vss[j].mapM f := by
    rw [hd]
    show (do ((← (r.asDataset native s).trace_samples j).mapM f)) = _
    rw [hc.trace_samples j hj]
    rfl
  cases hm : vss[j].mapM f with
  | error err =>
    obtain ⟨c, h4, -⟩ := h2 err rfl (hdj.trans hm)
    exact ⟨j, vss[j], err, c, hv j hj, h4, Or.inl hm⟩
  | ok ws =>
    have hrel := res_mapM_rel hm
    obtain ⟨v, hvm, hvn⟩ := hjbad
    obtain ⟨w, hw, hfw⟩ := forall2_left hrel hvm
    obtain ⟨err, c, h4, -, h5⟩ := h3 ws rfl (hdj.trans hm) ⟨w, hw, fun hfit => hvn ⟨w, hfw, hfit⟩⟩ (by
      intro ht w hw
      obtain ⟨v, -, hv⟩ := forall2_right hrel hw
      exact hfloat ht v w hv)
    exact ⟨j, vss[j], err, c, hv j hj, h4, Or.inr ⟨ws, hm, h5⟩⟩

end Segpy
