import Verif.Lemmas.Reader
import Verif.Lemmas.TextHeader
import Verif.Props.Scan
import Verif.Spec.Reader

/-! # What an opened reader holds -/

namespace Segpy

open Spec FileM

theorem readTextual_ok {enc : Encoding} {s s' : FileH} {l : List PyStr} (h : readTextualReelHeader enc s = (.ok l, s')) :
    s' = { s with pos := s.pos + 3200 } ∧ s.pos + 3200 ≤ s.data.length := by
  rw [readTextual_apply] at h
  split at h
  · rename_i hl
    simp only [Prod.mk.injEq] at h
    exact ⟨h.2.symm, hl⟩
  · simp at h

theorem until_pos {enc : Encoding} (fuel : Nat) {s s' : FileH} {acc out : List (List PyStr)}
    (h : readExtendedUntilEndLoop enc fuel acc s = (.ok out, s')) :
    acc.length ≤ out.length ∧ s'.pos = s.pos + 3200 * (out.length - acc.length) := by
  induction fuel generalizing acc s with
  | zero => simp [readExtendedUntilEndLoop] at h
  | succ fuel ih =>
    unfold readExtendedUntilEndLoop at h
    obtain ⟨p, s1, h1, h⟩ := bind_eq_ok h
    obtain ⟨rfl, _⟩ := readTextual_ok h1
    obtain ⟨b, s2, h2, h⟩ := bind_eq_ok h
    obtain ⟨_, rfl⟩ := lift_eq_ok h2
    split at h
    · simp only [pure_apply, Prod.mk.injEq, Except.ok.injEq] at h
      obtain ⟨rfl, rfl⟩ := h
      simp
    · obtain ⟨h3, h4⟩ := ih h
      simp only [List.length_append, List.length_singleton] at h3 h4
      refine ⟨by omega, ?_⟩
      rw [h4]
      omega

theorem counted_pos {enc : Encoding} (n left : Nat) {i : Nat} {s s' : FileH} {acc out : List (List PyStr)}
    (h : readExtendedCountedLoop enc n left i acc s = (.ok out, s')) :
    acc.length ≤ out.length ∧ s'.pos = s.pos + 3200 * (out.length - acc.length) := by
  induction left generalizing acc s i with
  | zero =>
    simp only [readExtendedCountedLoop, pure_apply, Prod.mk.injEq, Except.ok.injEq] at h
    obtain ⟨rfl, rfl⟩ := h
    simp
  | succ left ih =>
    unfold readExtendedCountedLoop at h
    obtain ⟨p, s1, h1, h⟩ := bind_eq_ok h
    obtain ⟨rfl, _⟩ := readTextual_ok h1
    obtain ⟨b, s2, h2, h⟩ := bind_eq_ok h
    obtain ⟨_, rfl⟩ := lift_eq_ok h2
    split at h
    · simp at h
    · obtain ⟨h3, h4⟩ := ih h
      simp only [List.length_append, List.length_singleton] at h3 h4
      refine ⟨by omega, ?_⟩
      rw [h4]
      omega

theorem extendedOf_pos {enc : Encoding} {hd : Header} {s s' : FileH} {out : List (List PyStr)}
    (h : readExtendedHeadersOf hd enc s = (.ok out, s')) : s'.pos = 3600 + 3200 * out.length := by
  unfold readExtendedHeadersOf at h
  obtain ⟨n, s1, h1, g⟩ := bind_eq_ok h
  clear h
  obtain ⟨_, rfl⟩ := lift_eq_ok h1
  unfold readExtendedTextualHeaders at g
  rw [bind_ok (show FileM.seek (REEL_HEADER_NUM_BYTES : Nat) _ = _ from seek_apply _ _)] at g
  have h36 : REEL_HEADER_NUM_BYTES = 3600 := rfl
  split at g
  · have := (until_pos _ g).2
    simpa [h36] using this
  · unfold readExtendedHeadersCounted at g
    split at g
    · simp at g
    · have := (counted_pos _ _ g).2
      simpa [h36] using this

/-! ## The reader -/

/-- What a reader opened on a file holds. -/
structure Opened (T : Format) (e : Endian) (dim : Option Int) (data : Bytes) (pos : Nat) (t : SegYType) (starts : List Nat)
    (r : Reader) : Prop where
  some_trace : starts ≠ []
  traces : Traces T e data t.size pos starts
  offset : Refines1 (byNumber starts fun p => (p : Int)) r.trace_offset_catalog
  length : Refines1 (byNumber starts fun p => fieldAt T e data p "num_samples") r.trace_length_catalog
  endian : r.endian = e
  packer : makeHeaderPacker T e = .ok r.trace_header_packer
  format : r.dataSampleFormat = .ok t
  no_max : r.max_num_trace_samples = none
  dims : dim ∈ [none, some 1, some 2, some 3]
  kind : ∃ cdp line,
    ((ensembles T e data starts).Nodup → Refines1 (toNumber starts fun p => fieldAt T e data p "ensemble_num") cdp) ∧
    (¬ (ensembles T e data starts).Nodup → cdp = .dictionary []) ∧
    ((linePairs T e data starts).Nodup → ∃ c, line = some c ∧
      Refines2 (toNumber starts fun p => (fieldAt T e data p "inline_number", fieldAt T e data p "crossline_number")) c) ∧
    (¬ (linePairs T e data starts).Nodup → line = none) ∧
    r.kind = (match dim with
      | none => if (linePairs T e data starts).Nodup then .threeD line none none
          else if (ensembles T e data starts).Nodup then .twoD cdp none else .plain
      | some n => if n = 1 then .plain else if n = 2 then .twoD cdp none else .threeD line none none)

theorem catalogOrEmpty1_refines {l : List (Int × Int)} {c : Catalog1} (h : Refines1 l c) (hl : l ≠ []) :
    catalogOrEmpty1 (some c) = .ok c := by
  unfold catalogOrEmpty1
  simp only [h.len, bind, Except.bind, pure, Except.pure]
  rw [if_pos]
  have := List.length_pos_iff.mpr hl
  omega

theorem catalogOrEmpty2_refines {l : List ((Int × Int) × Int)} {c : Catalog2} (h : Refines2 l c) (hl : l ≠ []) :
    catalogOrEmpty2 (some c) = some c := by
  unfold catalogOrEmpty2
  simp only
  rw [if_pos]
  rw [h.len]
  have := List.length_pos_iff.mpr hl
  omega

theorem byNumber_ne {starts : List Nat} (h : starts ≠ []) (f : Nat → Int) : byNumber starts f ≠ [] := by
  unfold byNumber; simpa using h

theorem toNumber_ne {α : Type} {starts : List Nat} (h : starts ≠ []) (f : Nat → α) : toNumber starts f ≠ [] := by
  unfold toNumber; simpa using h

theorem headerBytesPerSample_ok {h : Header} {bps : Nat} (hb : headerBytesPerSample h = .ok bps) :
    ∃ v t, h.get "data_sample_format" = .ok v ∧ dataSampleFormatToSegYType v = .ok t ∧ bps = t.size := by
  unfold headerBytesPerSample at hb
  cases hg : h.get "data_sample_format" with
  | error e => rw [hg] at hb; cases hb
  | ok v =>
    rw [hg] at hb
    simp only [bind, Except.bind] at hb
    unfold bytesPerSample at hb
    cases hd : dataSampleFormatToSegYType v with
    | error e => rw [hd] at hb; cases hb
    | ok t =>
      rw [hd] at hb
      simp only [Except.ok.injEq] at hb
      exact ⟨v, t, rfl, hd, hb.symm⟩

/-- The end of opening, once the catalogs are known. -/
theorem makeReaderOf_opened {T : Format} {e : Endian} (hT : Cataloguable T e) {dim : Option Int}
    (hdim : dim ∈ [none, some 1, some 2, some 3]) {textual : List PyStr} {binary : Header}
    {extended : List (List PyStr)} {catalogs : Catalogs} {enc : Encoding} {data : Bytes} {pos : Nat} {t : SegYType}
    {starts : List Nat} {v rev : Int} (hne : starts ≠ []) (htr : Traces T e data t.size pos starts)
    (hidx : Indexes T e data starts catalogs.trace_offset catalogs.trace_length catalogs.cdp catalogs.line)
    (hv : binary.get "data_sample_format" = .ok v) (ht : dataSampleFormatToSegYType v = .ok t)
    (hrev : extractRevision binary = .ok rev) :
    ∃ r, makeReaderOf dim textual binary extended catalogs T enc e = .ok r ∧ Opened T e dim data pos t starts r ∧
      r.revision = rev ∧ r.textual_reel_header = textual ∧ r.binary_reel_header = binary ∧
      r.extended_textual_headers = extended ∧ r.encoding = enc := by
  obtain ⟨p, hp⟩ := hT.packs
  obtain ⟨co, hco, ro⟩ := hidx.offset
  obtain ⟨cl, hcl, rl⟩ := hidx.length
  have hbps : headerBytesPerSample binary = .ok t.size := by
    unfold headerBytesPerSample
    rw [hv]
    simp only [bind, Except.bind]
    unfold bytesPerSample
    rw [ht]
  have hcdp : ∃ cdp, catalogOrEmpty1 catalogs.cdp = .ok cdp ∧
      ((ensembles T e data starts).Nodup → Refines1 (toNumber starts fun p => fieldAt T e data p "ensemble_num") cdp) ∧
      (¬ (ensembles T e data starts).Nodup → cdp = .dictionary []) ∧
      (catalogs.cdp ≠ none ↔ (ensembles T e data starts).Nodup) := by
    by_cases hn : (ensembles T e data starts).Nodup
    · obtain ⟨c, h1, h2⟩ := hidx.cdp hn
      refine ⟨c, ?_, fun _ => h2, fun h => absurd hn h, ?_⟩
      · rw [h1, catalogOrEmpty1_refines h2 (toNumber_ne hne _)]
      · rw [h1]; simp [hn]
    · have h1 := hidx.no_cdp hn
      refine ⟨.dictionary [], ?_, fun h => absurd h hn, fun _ => rfl, ?_⟩
      · rw [h1]; rfl
      · rw [h1]; simp [hn]
  obtain ⟨cdp, c1, c2, c3, c4⟩ := hcdp
  have hline : ∃ line, catalogOrEmpty2 catalogs.line = line ∧
      ((linePairs T e data starts).Nodup → ∃ c, line = some c ∧
        Refines2 (toNumber starts fun p => (fieldAt T e data p "inline_number", fieldAt T e data p "crossline_number")) c) ∧
      (¬ (linePairs T e data starts).Nodup → line = none) ∧
      (catalogs.line ≠ none ↔ (linePairs T e data starts).Nodup) := by
    by_cases hn : (linePairs T e data starts).Nodup
    · obtain ⟨c, h1, h2⟩ := hidx.line hn
      refine ⟨some c, ?_, fun _ => ⟨c, rfl, h2⟩, fun h => absurd hn h, ?_⟩
      · rw [h1, catalogOrEmpty2_refines h2 (toNumber_ne hne _)]
      · rw [h1]; simp [hn]
    · have h1 := hidx.no_line hn
      refine ⟨none, ?_, fun h => absurd h hn, fun _ => rfl, ?_⟩
      · rw [h1]; rfl
      · rw [h1]; simp [hn]
  obtain ⟨line, l1, l2, l3, l4⟩ := hline
  have hchoose : chooseDimensionality catalogs.cdp catalogs.line =
      if (linePairs T e data starts).Nodup then 3 else if (ensembles T e data starts).Nodup then 2 else 1 := by
    unfold chooseDimensionality
    by_cases hl : (linePairs T e data starts).Nodup
    · rw [if_neg, if_pos (l4.mpr hl), if_pos hl]
      exact fun h => (l4.mpr hl) h.2
    · have hl' : catalogs.line = none := by by_contra h; exact hl (l4.mp h)
      rw [if_neg hl]
      by_cases hc : (ensembles T e data starts).Nodup
      · rw [if_pos hc, if_pos ⟨c4.mpr hc, hl'⟩]
      · rw [if_neg hc, if_neg (fun h => hc (c4.mp h.1)), if_neg (fun h => h hl')]
  have hk : ∀ kind, ∃ r, Reader.make textual binary extended co cl T enc e kind = .ok r ∧
      r.trace_offset_catalog = co ∧ r.trace_length_catalog = cl ∧ r.endian = e ∧ r.trace_header_packer = p ∧
      r.binary_reel_header = binary ∧ r.max_num_trace_samples = none ∧ r.kind = kind ∧ r.revision = rev ∧
      r.textual_reel_header = textual ∧ r.extended_textual_headers = extended ∧ r.encoding = enc := by
    intro kind
    have : Reader.make textual binary extended co cl T enc e kind = .ok
        { endian := e, encoding := enc, textual_reel_header := textual, binary_reel_header := binary,
          extended_textual_headers := extended, trace_header_packer := p, trace_offset_catalog := co,
          trace_length_catalog := cl, revision := rev, bytes_per_sample := t.size, max_num_trace_samples := none,
          kind } := by
      unfold Reader.make
      simp only [hp, hrev, hbps, bind, Except.bind, pure, Except.pure]
    exact ⟨_, this, rfl, rfl, rfl, rfl, rfl, rfl, rfl, rfl, rfl, rfl, rfl⟩
  have fin : ∀ kind, (kind = (match dim with
      | none => if (linePairs T e data starts).Nodup then .threeD line none none
          else if (ensembles T e data starts).Nodup then .twoD cdp none else .plain
      | some n => if n = 1 then .plain else if n = 2 then .twoD cdp none else .threeD line none none)) →
      makeReaderOf dim textual binary extended catalogs T enc e =
        Reader.make textual binary extended co cl T enc e kind →
      ∃ r, makeReaderOf dim textual binary extended catalogs T enc e = .ok r ∧ Opened T e dim data pos t starts r ∧
      r.revision = rev ∧ r.textual_reel_header = textual ∧ r.binary_reel_header = binary ∧
      r.extended_textual_headers = extended ∧ r.encoding = enc := by
    intro kind hkind hm
    obtain ⟨r, h1, h2, h3, h4, h5, h6, h7, h8, h9, h10, h11, h12⟩ := hk kind
    refine ⟨r, by rw [hm, h1], ⟨hne, htr, h2 ▸ ro, h3 ▸ rl, h4, h5 ▸ hp, ?_, h7, hdim, ?_⟩, h9, h10, h6, h11, h12⟩
    · unfold Reader.dataSampleFormat
      rw [h6, hv]
      exact ht
    · exact ⟨cdp, line, c2, c3, l2, l3, h8.trans hkind⟩
  have hmk : ∀ n : Int, (n = 1 ∨ n = 2 ∨ n = 3) → dim.getD (chooseDimensionality catalogs.cdp catalogs.line) = n →
      makeReaderOf dim textual binary extended catalogs T enc e = Reader.make textual binary extended co cl T enc e
        (if n = 1 then .plain else if n = 2 then .twoD cdp none else .threeD line none none) := by
    intro n hn hd
    unfold makeReaderOf
    simp only [hd]
    rw [if_neg (by omega), hco, catalogOrEmpty1_refines ro (byNumber_ne hne _), hcl,
      catalogOrEmpty1_refines rl (byNumber_ne hne _), c1, l1]
    simp only [bind, Except.bind]
    rcases hn with rfl | rfl | rfl <;> simp
  simp only [List.mem_cons, List.not_mem_nil, or_false] at hdim
  rcases hdim with rfl | rfl | rfl | rfl
  · by_cases hl : (linePairs T e data starts).Nodup
    · refine fin _ rfl ?_
      rw [hmk 3 (by simp) (by simp [hchoose, hl])]
      simp [hl]
    · by_cases hc : (ensembles T e data starts).Nodup
      · refine fin _ rfl ?_
        rw [hmk 2 (by simp) (by simp [hchoose, hl, hc])]
        simp [hl, hc]
      · refine fin _ rfl ?_
        rw [hmk 1 (by simp) (by simp [hchoose, hl, hc])]
        simp [hl, hc]
  · exact fin _ rfl (hmk 1 (by simp) rfl)
  · exact fin _ rfl (hmk 2 (by simp) rfl)
  · exact fin _ rfl (hmk 3 (by simp) rfl)

/-- A reader that was opened. -/
theorem createReader_opened {T : Format} {e : Endian} (hT : Cataloguable T e) {encoding : Option Encoding} {B : Format}
    {dim : Option Int} {s s' : FileH} {r : Reader} {progress : List ℚ}
    (h : createReader encoding B T e dim s = (.ok (r, progress), s')) :
    ∃ t starts, Opened T e dim s.data (3600 + 3200 * r.extended_textual_headers.length) t starts r := by
  obtain ⟨enc, textual, binary, extended, bps, catalogs, k1, k2, k3, k4, _, _, _, h4, h5, h6, h7, _, hdim, _⟩ :=
    createReader_ok h
  obtain ⟨v, t, hv, ht, rfl⟩ := headerBytesPerSample_ok h5
  have hk4 : k4 = 3600 + 3200 * extended.length := extendedOf_pos h4
  obtain ⟨rev, hrev⟩ : ∃ rev, extractRevision binary = .ok rev := by
    cases hx : extractRevision binary with
    | ok rev => exact ⟨rev, rfl⟩
    | error err =>
      exfalso
      have hmake : ∀ a b kind, Reader.make textual binary extended a b T enc e kind ≠ .ok r := by
        intro a b kind hm
        unfold Reader.make at hm
        simp only [bind, Except.bind, hx] at hm
        split at hm <;> cases hm
      unfold makeReaderOf at h7
      simp only [bind, Except.bind] at h7
      repeat' split at h7
      all_goals first
        | cases h7
        | exact hmake _ _ _ h7
  have htr : ∃ starts, starts ≠ [] ∧ Traces T e s.data t.size k4 starts := by
    rcases (Props.C43_traces T e s.data t.size k4).1 with ⟨starts, ht⟩ | ⟨starts, stop, g1, g2, g3⟩
    · by_cases hne : starts = []
      · subst hne
        obtain ⟨k, hk⟩ := Props.C43_no_traces T e hT t.size { s with pos := k4 } ht
        rw [h6] at hk
        cases hk
      · exact ⟨starts, hne, ht⟩
    · obtain ⟨k, hk⟩ := Props.C43_bad_header T e hT t.size { s with pos := k4 } starts stop g1 g2 g3
      rw [h6] at hk
      cases hk
  obtain ⟨starts, hne, htr⟩ := htr
  obtain ⟨c, k, g1, g2⟩ := Props.C43_indexes T e hT t.size { s with pos := k4 } starts htr hne
  rw [h6] at g1
  simp only [Prod.mk.injEq, Except.ok.injEq] at g1
  obtain ⟨rfl, _⟩ := g1
  obtain ⟨r', m1, m2, _, _, _, m3, _⟩ :=
    makeReaderOf_opened hT hdim (textual := textual) (extended := extended) (enc := enc) hne htr g2 hv ht hrev
  rw [h7] at m1
  cases m1
  rw [m3, ← hk4]
  exact ⟨t, starts, m2⟩

end Segpy

namespace Segpy

open Spec FileM

/-! ## Samples -/

theorem decodeSample_standsFor (native e : Endian) (t : SegYType) (item : Bytes) (hl : item.length = t.size) :
    StandsFor e t item (decodeSample native e t item) := by
  cases t with
  | int t =>
    show PyNum.int _ = PyNum.int _
    rw [decodeInt_swap, storedInt_eq]
    cases t <;> rfl
  | float32 =>
    obtain ⟨f, h1, h2⟩ := Props.C42_float32_decodes native e item hl
    have hu := unpackValues_flatten native e .float32 [item] (by decide) (by simpa using hl)
    rw [List.flatten_cons, List.flatten_nil, List.append_nil, h1] at hu
    simp only [List.map_cons, List.map_nil, Except.ok.injEq, List.cons.injEq, and_true] at hu
    refine ⟨f, ?_, ?_⟩
    · rw [hu]; rfl
    · rw [bytesNat_eq]; exact h2
  | ibm =>
    match item, hl with
    | [a, b, c, d], _ => exact ⟨a, b, c, d, rfl, rfl⟩

theorem samplesFrom_length (native e : Endian) (t : SegYType) (data : Bytes) (pos n : Nat) :
    (samplesFrom native e t data pos n).length = n := by unfold samplesFrom; simp

theorem samplesFrom_getElem (native e : Endian) (t : SegYType) (data : Bytes) (pos n k : Nat)
    (h : k < (samplesFrom native e t data pos n).length) : (samplesFrom native e t data pos n)[k] =
      decodeSample native e t ((data.drop (pos + k * t.size)).take t.size) := by
  simp [samplesFrom]

theorem samplesFrom_stored (native e : Endian) (t : SegYType) (data : Bytes) (pos n : Nat)
    (h : pos + n * t.size ≤ data.length ∨ n = 0) : SamplesStored e t data pos (samplesFrom native e t data pos n) := by
  intro k hk
  rw [samplesFrom_getElem]
  rw [samplesFrom_length] at hk
  apply decodeSample_standsFor
  rcases h with h | h
  · have : k * t.size + t.size ≤ n * t.size := by rw [← Nat.succ_mul]; exact Nat.mul_le_mul_right _ hk
    rw [List.length_take, List.length_drop]
    omega
  · omega

theorem samplesFrom_sub (native e : Endian) (t : SegYType) (data : Bytes) (pos n a b : Nat) (hab : a ≤ b) (hb : b ≤ n) :
    samplesFrom native e t data (pos + a * t.size) (b - a) = ((samplesFrom native e t data pos n).take b).drop a := by
  apply List.ext_getElem
  · rw [samplesFrom_length, List.length_drop, List.length_take, samplesFrom_length]; omega
  · intro k h1 h2
    rw [List.getElem_drop, List.getElem_take, samplesFrom_getElem, samplesFrom_getElem, Nat.add_mul, Nat.add_assoc]

/-! ## Numbers of traces -/

theorem byNumber_mem {starts : List Nat} {f : Nat → Int} {i : Nat} (h : i < starts.length) :
    ((i : Int), f starts[i]) ∈ byNumber starts f := by
  unfold byNumber
  rw [List.mem_map]
  exact ⟨(starts[i], i), by rw [List.mem_zipIdx_iff_getElem?]; simp [h], rfl⟩

theorem byNumber_keys (starts : List Nat) (f : Nat → Int) :
    (byNumber starts f).map Prod.fst = (List.range starts.length).map fun i : Nat => (i : Int) := by
  unfold byNumber
  rw [List.map_map]
  show (starts.zipIdx).map ((fun i : Nat => (i : Int)) ∘ Prod.snd) = _
  rw [← List.map_map, List.zipIdx_map_snd, List.range_eq_range']

theorem toNumber_mem {α : Type} {starts : List Nat} {f : Nat → α} {i : Nat} (h : i < starts.length) :
    (f starts[i], (i : Int)) ∈ toNumber starts f := by
  unfold toNumber
  rw [List.mem_map]
  exact ⟨(starts[i], i), by rw [List.mem_zipIdx_iff_getElem?]; simp [h], rfl⟩

theorem toNumber_keys {α : Type} (starts : List Nat) (f : Nat → α) : (toNumber starts f).map Prod.fst = starts.map f :=
  zipIdx_keys f starts 0

theorem toNumber_length {α : Type} (starts : List Nat) (f : Nat → α) : (toNumber starts f).length = starts.length := by
  unfold toNumber; simp

theorem byNumber_length (starts : List Nat) (f : Nat → Int) : (byNumber starts f).length = starts.length := by
  unfold byNumber; simp

theorem range_sorted (n : Nat) : ((List.range n).map fun i : Nat => (i : Int)).Pairwise (· < ·) := by
  rw [List.pairwise_map]
  exact List.pairwise_lt_range.imp fun h => by exact_mod_cast h

theorem Refines1.numbers {starts : List Nat} {f : Nat → Int} {c : Catalog1} (h : Refines1 (byNumber starts f) c) :
    c.keys = .ok ((List.range starts.length).map fun i : Nat => (i : Int)) := by
  obtain ⟨ks, h1, h2, h3⟩ := h.iter
  rw [h1]
  congr 1
  apply strictSorted_ext h2 (range_sorted _)
  intro a
  rw [h3, byNumber_keys]

theorem Refines1.get_number {starts : List Nat} {f : Nat → Int} {c : Catalog1} (h : Refines1 (byNumber starts f) c)
    {i : Nat} (hi : i < starts.length) : c.get i = .ok (f starts[i]) := h.lookup _ _ (byNumber_mem hi)

theorem Refines1.get_out {starts : List Nat} {f : Nat → Int} {c : Catalog1} (h : Refines1 (byNumber starts f) c)
    {i : Int} (hi : i < 0 ∨ starts.length ≤ i) : c.get i = .error .keyError := by
  apply h.missing
  rw [byNumber_keys, List.mem_map]
  rintro ⟨k, hk, rfl⟩
  rw [List.mem_range] at hk
  omega

theorem foldl_max_spec (v : Int) (vs : List Int) :
    (vs.foldl max v = v ∨ vs.foldl max v ∈ vs) ∧ v ≤ vs.foldl max v ∧ ∀ x ∈ vs, x ≤ vs.foldl max v := by
  induction vs generalizing v with
  | nil => simp
  | cons a vs ih =>
    obtain ⟨h1, h2, h3⟩ := ih (max v a)
    rw [List.foldl_cons]
    refine ⟨?_, le_trans (le_max_left _ _) h2, ?_⟩
    · rcases h1 with h1 | h1
      · rcases max_choice v a with h | h
        · left; rw [h1, h]
        · right; rw [h1, h]; exact List.mem_cons_self
      · right; exact List.mem_cons_of_mem _ h1
    · intro x hx
      rcases List.mem_cons.mp hx with rfl | hx
      · exact le_trans (le_max_right _ _) h2
      · exact h3 x hx

theorem traceSamples_eq (r : Reader) (native : Endian) (i : Int) (start stop : Option Int) (s : FileH) :
    r.traceSamples native i start stop s = match r.locateSamples i start stop with
      | .ok (p, t, n) => readBinaryValues native p t n r.endian s
      | .error err => (.error err, s) := by
  unfold Reader.traceSamples
  cases h : r.locateSamples i start stop with
  | ok x => rw [bind_ok (lift_apply _ _)]
  | error err => rw [bind_error (lift_apply _ _)]

end Segpy
