import Verif.Lemmas.ReelUpdate
import Verif.Lemmas.ExampleFile

/-! # Properties of replacing the reel headers of a file in place: C86 -/

namespace Segpy.Props

open Segpy.Spec Segpy.FileM

private theorem known_revision {T : Format} {e : Endian} {encoding : Option Encoding} {B : Format} {dim : Option Int}
    {s s' : FileH} {r : Reader} {progress : List ℚ}
    (h : createReader encoding B T e dim s = (.ok (r, progress), s')) :
    ∃ w, r.binary_reel_header.get "format_revision_num" = .ok w ∧ canonicalizeRevision w = .ok r.revision := by
  obtain ⟨w, hw, hr⟩ := C55_canonical_partial T e encoding B dim s s' r progress h
  refine ⟨w, hw, ?_⟩
  rcases hr with ⟨rfl, hr⟩ | ⟨rfl | rfl | rfl, hr⟩ <;> rw [hr] <;> rfl

/-- A file with other text in its textual header opens. -/
private theorem text_opens {T : Format} {e : Endian} (hT : Cataloguable T e) {encoding : Option Encoding} {B : Format}
    (hB : Regular B e 400) {dim : Option Int} {s s' : FileH} {r : Reader} {progress : List ℚ}
    (h : createReader encoding B T e dim s = (.ok (r, progress), s')) (hpos : s.pos = 0) {bs : Bytes}
    (hbs : bs.length ≤ 3200) {cards : List PyStr}
    (hcards : decodeCards r.encoding (bs ++ (s.data.take 3200).drop bs.length) = .ok cards) :
    (∀ s1 : FileH, s1.data = overwrite s.data 0 bs → SameTraces r s r s1) ∧
    ∀ encoding', usedEncoding encoding' (overwrite s.data 0 bs) = r.encoding →
      ∃ r2 progress2 s2, createReader encoding' B T e dim { s with data := overwrite s.data 0 bs } =
          (.ok (r2, progress2), s2) ∧
        r2.textual_reel_header = cards ∧ r2.encoding = r.encoding ∧
        r2.binary_reel_header = r.binary_reel_header ∧ r2.extended_textual_headers = r.extended_textual_headers ∧
        r2.revision = r.revision ∧
        ∀ s1 : FileH, s1.data = overwrite s.data 0 bs → SameTraces r s r2 s1 := by
  obtain ⟨hsize, hdim, henc, h2, h3, h4, v, t, hv, ht, hfmt⟩ := reel_facts hB h hpos
  obtain ⟨t', starts, ho⟩ := createReader_opened hT h
  have htt : t' = t := by
    have := ho.format
    rw [hfmt] at this
    exact (Except.ok.inj this).symm
  subst htt
  have hp := ho.packer
  generalize hd : overwrite s.data 0 bs = d
  have hlen : d.length = s.data.length := by
    rw [← hd]
    by_cases hb : bs = []
    · subst hb; rfl
    · rw [overwrite_length _ _ _ hb]; omega
  have hslice : ∀ a n, 3200 ≤ a → (d.drop a).take n = (s.data.drop a).take n := by
    intro a n ha
    rw [← hd]
    exact overwrite_slice _ _ _ _ _ (by omega) (by omega)
  have hdrop : d.drop (3600 + 3200 * r.extended_textual_headers.length) =
      s.data.drop (3600 + 3200 * r.extended_textual_headers.length) := by
    have := hslice (3600 + 3200 * r.extended_textual_headers.length) s.data.length (by omega)
    rw [List.take_of_length_le (by rw [List.length_drop]; omega),
      List.take_of_length_le (by rw [List.length_drop]; omega)] at this
    exact this
  refine ⟨?_, ?_⟩
  · intro s1 hs1
    exact same_after (dim2 := dim) hT hp ho (Or.inr rfl) (by rw [hs1]; exact hdrop)
  intro encoding' hused
  have hraw : d.take 3200 = bs ++ (s.data.take 3200).drop bs.length := by
    rw [← hd]
    have e1 := overwrite_drop s.data bs 0
    have e2 := overwrite_after s.data bs 0
    simp only [List.drop_zero, Nat.zero_add] at e1 e2
    rw [← List.take_append_drop bs.length (overwrite s.data 0 bs), e1, e2, List.take_append,
      List.take_of_length_le hbs, List.drop_take]
  obtain ⟨-, -, hbin⟩ := local_binary (n := 400) hB.afterStart hB.length _ _ _ h3
  have hread : HeadersRead encoding' B e { s with data := d } cards r.binary_reel_header
      r.extended_textual_headers t' := by
    refine ⟨by simp only; omega, ⟨{ s with data := d, pos := 3200 }, { s with data := d, pos := 3600 },
      { s with data := d, pos := 3600 + 3200 * r.extended_textual_headers.length }, ?_,
      hbin d (le_of_eq hlen.symm) (hslice _ _ (by simp)), ?_⟩, v, hv, ht⟩
    · simp only [hused]
      rw [readTextual_apply]
      simp only [hpos, List.drop_zero, Nat.zero_add]
      rw [if_pos (by omega), hraw, hcards]
    · simp only [hused]
      exact extended_local h4 d (le_of_eq hlen.symm) (hslice _ _ (by omega))
  obtain ⟨w, hw, hrev⟩ := known_revision h
  have htr := traces_after hT ho hlen hdrop
  obtain ⟨r2, progress2, s2, m1, m2, m3, m4, m5, m6, ho2⟩ := opens_with hT hdim hread ho.some_trace htr hw hrev
  refine ⟨r2, progress2, s2, m1, m3, m2.trans hused, m4, m5, m6, ?_⟩
  intro s1 hs1
  exact same_after (dim2 := dim) hT hp ho (Or.inl (by rw [hs1]; exact ho2)) (by rw [hs1]; exact hdrop)

private theorem replaceTextual_apply {enc : Encoding} {lines : List PyStr} {bs : Bytes}
    (hw : ∀ s, writeTextualReelHeader lines enc s = FileM.write bs s) (s : FileH) (hpos : s.pos = 0) :
    replaceTextual lines enc s = FileM.write bs s := by
  unfold replaceTextual
  rw [bind_ok (show FileM.seek 0 s = (.ok (), { s with pos := 0 }) from seek_apply 0 s), hw]
  congr 1
  rw [← hpos]

/-- The textual header of a file is replaced in place, in the encoding in which it was read.  This does not raise; the
file can be opened again and has the new text in forty cards; the binary and extended headers, the revision, the traces
and all that can be read of them are what they were, for the new reader and for the one that was open. -/
theorem C86_text (T : Format) (e : Endian) (hT : Cataloguable T e) (encoding : Option Encoding)
    (B : Format) (hB : Regular B e 400) (dim : Option Int) (s s' : FileH) (r : Reader) (progress : List ℚ)
    (h : createReader encoding B T e dim s = (.ok (r, progress), s')) (hpos : s.pos = 0) (hlimit : s.limit = none)
    (lines : List PyStr) (hlines : ∀ i < 40, Encodable r.encoding (lines.getD i [])) :
    ∃ s1, replaceTextual lines r.encoding s = (.ok (), s1) ∧ SameTraces r s r s1 ∧
      ∀ encoding', usedEncoding encoding' s1.data = r.encoding →
        ∃ r2 progress2 s2, createReader encoding' B T e dim { s with data := s1.data } = (.ok (r2, progress2), s2) ∧
          r2.textual_reel_header = fortyCards lines ∧ r2.encoding = r.encoding ∧
          r2.binary_reel_header = r.binary_reel_header ∧ r2.extended_textual_headers = r.extended_textual_headers ∧
          r2.revision = r.revision ∧ SameTraces r s r2 s1 := by
  obtain ⟨hsize, -, -, h2, -⟩ := reel_facts hB h hpos
  have hother := (readTextual_page h2).1
  obtain ⟨bss, hc, hl, hw⟩ := writeTextual_writes hother hlines
  have hcards : ∀ c ∈ fortyCards lines, c.length = 80 := by
    intro c hc
    unfold fortyCards at hc
    obtain ⟨i, _, rfl⟩ := List.mem_map.mp hc
    exact card_length _
  have hdec := decodeCards_cards hc hcards
  obtain ⟨k1, k2⟩ := text_opens hT hB h hpos (bs := bss.flatten) (cards := fortyCards lines) (by omega) (by
    rw [List.drop_of_length_le (by rw [List.length_take]; omega), List.append_nil]
    exact hdec)
  refine ⟨_, by rw [replaceTextual_apply hw s hpos, write_apply hlimit], ?_, ?_⟩
  · rw [hpos]; exact k1 _ rfl
  · intro encoding' hused
    simp only [hpos] at hused ⊢
    obtain ⟨r2, progress2, s2, m1, m2, m3, m4, m5, m6, m7⟩ := k2 encoding' hused
    rw [hpos] at m1
    exact ⟨r2, progress2, s2, m1, m2, m3, m4, m5, m6, m7 _ rfl⟩

/-- The device fails after `k` bytes of the new text.  The file can be opened again, with the first `k` characters of
the new text and the old one from there on; everything else is what it was. -/
theorem C86_text_crash (T : Format) (e : Endian) (hT : Cataloguable T e) (encoding : Option Encoding)
    (B : Format) (hB : Regular B e 400) (dim : Option Int) (s s' : FileH) (r : Reader) (progress : List ℚ)
    (h : createReader encoding B T e dim s = (.ok (r, progress), s')) (hpos : s.pos = 0) (k : Nat) (hk : k < 3200)
    (hlimit : s.limit = some k) (lines : List PyStr) (hlines : ∀ i < 40, Encodable r.encoding (lines.getD i [])) :
    ∃ s1, replaceTextual lines r.encoding s = (.error .osError, s1) ∧ SameTraces r s r s1 ∧
      ∀ encoding', usedEncoding encoding' s1.data = r.encoding →
        ∃ r2 progress2 s2, createReader encoding' B T e dim { s with data := s1.data } = (.ok (r2, progress2), s2) ∧
          r2.textual_reel_header.length = 40 ∧ (∀ c ∈ r2.textual_reel_header, c.length = 80) ∧
          r2.textual_reel_header.flatten =
            (fortyCards lines).flatten.take k ++ r.textual_reel_header.flatten.drop k ∧ r2.encoding = r.encoding ∧
          r2.binary_reel_header = r.binary_reel_header ∧ r2.extended_textual_headers = r.extended_textual_headers ∧
          r2.revision = r.revision ∧ SameTraces r s r2 s1 := by
  obtain ⟨hsize, -, -, h2, -⟩ := reel_facts hB h hpos
  have hother := (readTextual_page h2).1
  obtain ⟨bss, hc, hl, hw⟩ := writeTextual_writes hother hlines
  have hcards : ∀ c ∈ fortyCards lines, c.length = 80 := by
    intro c hc
    unfold fortyCards at hc
    obtain ⟨i, _, rfl⟩ := List.mem_map.mp hc
    exact card_length _
  have hnew := (decodeCards_bytes hl).1 _ (decodeCards_cards hc hcards)
  have hold : (s.data.take 3200).mapM (decodeByte r.encoding) = .ok r.textual_reel_header.flatten := by
    rw [readTextual_apply] at h2
    simp only [hpos, List.drop_zero, Nat.zero_add] at h2
    rw [if_pos (by omega)] at h2
    exact (decodeCards_bytes (by rw [List.length_take]; omega)).1 _ (Prod.mk.inj h2).1
  have hkl : (bss.flatten.take k).length = k := by rw [List.length_take]; omega
  obtain ⟨cards, c1, c2, c3, c4⟩ := (decodeCards_bytes (enc := r.encoding)
    (raw := bss.flatten.take k ++ (s.data.take 3200).drop k)
    (by rw [List.length_append, hkl, List.length_drop, List.length_take]; omega)).2 _ (mapM_mixed hnew hold k)
  obtain ⟨k1, k2⟩ := text_opens hT hB h hpos (bs := bss.flatten.take k) (cards := cards) (by omega) (by
    rw [hkl]; exact c1)
  have hwr : FileM.write bss.flatten s = (.error .osError, { s with
      data := overwrite s.data 0 (bss.flatten.take k), pos := k, limit := some 0 }) := by
    unfold FileM.write
    rw [hlimit]
    simp only
    rw [if_neg (by omega)]
    simp only [hpos, hkl, Nat.zero_add]
  refine ⟨_, by rw [replaceTextual_apply hw s hpos, hwr], k1 _ rfl, ?_⟩
  intro encoding' hused
  obtain ⟨r2, progress2, s2, m1, m2, m3, m4, m5, m6, m7⟩ := k2 encoding' hused
  exact ⟨r2, progress2, s2, m1, by rw [m2]; exact c3, by rw [m2]; exact c4, by rw [m2]; exact c2, m3, m4, m5, m6, m7 _ rfl⟩

/-- The binary header of a file is replaced in place by one that gives the same sample format and the same number of
extended headers, and a known revision.  This does not raise; the file can be opened again and has the new header; the
textual and extended headers, the traces and all that can be read of them are what they were, for the new reader and
for the one that was open. -/
theorem C86_binary (T : Format) (e : Endian) (hT : Cataloguable T e) (encoding : Option Encoding)
    (B : Format) (hB : Regular B e 400) (dim : Option Int) (s s' : FileH) (r : Reader) (progress : List ℚ)
    (h : createReader encoding B T e dim s = (.ok (r, progress), s')) (hpos : s.pos = 0) (hlimit : s.limit = none)
    (new : Header) (hf : new.format = B) (hv : new.Valid)
    (hformat : new.get "data_sample_format" = r.binary_reel_header.get "data_sample_format")
    (hnum : new.get "num_extended_textual_headers" = r.binary_reel_header.get "num_extended_textual_headers")
    (w revision : Int) (hw : new.get "format_revision_num" = .ok w) (hrev : canonicalizeRevision w = .ok revision) :
    ∃ s1, replaceBinary new e s = (.ok (), s1) ∧ SameTraces r s r s1 ∧
      ∃ r2 progress2 s2, createReader encoding B T e dim { s with data := s1.data } = (.ok (r2, progress2), s2) ∧
        r2.binary_reel_header.format = B ∧ (∀ f ∈ B.fields, r2.binary_reel_header.get f.name = new.get f.name) ∧
        r2.revision = revision ∧ r2.textual_reel_header = r.textual_reel_header ∧ r2.encoding = r.encoding ∧
        r2.extended_textual_headers = r.extended_textual_headers ∧ SameTraces r s r2 s1 := by
  obtain ⟨hsize, hdim, henc, h2, h3, h4, v, t, hv', ht, hfmt⟩ := reel_facts hB h hpos
  obtain ⟨t', starts, ho⟩ := createReader_opened hT h
  have htt : t' = t := by
    have := ho.format
    rw [hfmt] at this
    exact (Except.ok.inj this).symm
  subst htt
  have hp := ho.packer
  subst hf
  obtain ⟨bs, hbl, hfl, hwr⟩ := writeBinary_writes hB hv
  have hrun : replaceBinary new e s = (.ok (), { s with data := overwrite s.data 3200 bs, pos := 3600 }) := by
    unfold replaceBinary
    rw [bind_ok (show FileM.seek (TEXTUAL_HEADER_NUM_BYTES : Nat) s = _ from seek_apply _ _), hwr,
      write_apply (by exact hlimit), hbl]
    rfl
  generalize hd : overwrite s.data 3200 bs = d at hrun
  have hlen : d.length = s.data.length := by
    rw [← hd, overwrite_length _ _ _ (by rintro rfl; simp at hbl)]; omega
  have hslice : ∀ a n, 3600 ≤ a → (d.drop a).take n = (s.data.drop a).take n := by
    intro a n ha
    rw [← hd]
    exact overwrite_slice _ _ _ _ _ (by omega) (by omega)
  have hdrop : d.drop (3600 + 3200 * r.extended_textual_headers.length) =
      s.data.drop (3600 + 3200 * r.extended_textual_headers.length) := by
    have := hslice (3600 + 3200 * r.extended_textual_headers.length) s.data.length (by omega)
    rw [List.take_of_length_le (by rw [List.length_drop]; omega),
      List.take_of_length_le (by rw [List.length_drop]; omega)] at this
    exact this
  have htext : d.take 3200 = s.data.take 3200 := by
    rw [← hd]; exact overwrite_take _ _ _ (by omega)
  have hbytes : reelHeaderBytes d 3200 = bs := by
    unfold reelHeaderBytes
    rw [← hd, ← hbl, overwrite_drop]
  obtain ⟨p, hpk⟩ := hB.packs
  have hb := C62_read_binary new.format e p hpk hB.afterStart hB.orderSafe hB.length { s with data := d, pos := 3200 }
  simp only [hbytes] at hb
  obtain ⟨binary, b1, b3, b4⟩ : ∃ binary, readBinaryReelHeader new.format e { s with data := d, pos := 3200 } =
      (.ok binary, { s with data := d, pos := 3600 }) ∧ binary.format = new.format ∧
      ∀ f ∈ new.format.fields, binary.get f.name = new.get f.name := by
    rcases hb with ⟨binary, b1, b2, b3, b4⟩ | ⟨k, b1, b2⟩
    · exact ⟨binary, b1, b3, fun f hf => by rw [(b4 f hf).2, (hfl f hf).2]⟩
    · exfalso
      rcases b2 with b2 | ⟨f, hf, b2⟩
      · omega
      · exact b2 (hfl f hf).1
  have hget : ∀ n v, new.get n = .ok v → binary.get n = .ok v := by
    intro n v hn
    obtain ⟨f, hf, rfl⟩ := get_mem_fields hn
    rw [b4 f hf, hn]
  have hused : usedEncoding encoding d = r.encoding := by
    rw [henc]
    unfold usedEncoding
    cases encoding with
    | some _ => rfl
    | none => simp only; rw [htext]
  have hext : readExtendedHeadersOf binary r.encoding { s with data := d, pos := 3600 } =
      (.ok r.extended_textual_headers, { s with data := d, pos := 3600 + 3200 * r.extended_textual_headers.length }) := by
    have := extended_local h4 d (le_of_eq hlen.symm) (hslice _ _ (by omega))
    unfold readExtendedHeadersOf at this ⊢
    cases hn : r.binary_reel_header.get "num_extended_textual_headers" with
    | error err => rw [hn] at this; cases this
    | ok n =>
      rw [hn] at this
      rw [hget _ n (hnum.trans hn)]
      exact this
  have hread : HeadersRead encoding new.format e { s with data := d } r.textual_reel_header binary
      r.extended_textual_headers t' := by
    refine ⟨by simp only; omega, ⟨{ s with data := d, pos := 3200 }, { s with data := d, pos := 3600 },
      { s with data := d, pos := 3600 + 3200 * r.extended_textual_headers.length }, ?_, b1, ?_⟩,
      v, hget _ v (hformat.trans hv'), ht⟩
    · simp only [hused]
      exact (local_text _ _ _ _ h2).2.2 d (le_of_eq hlen.symm) (by simp only [hpos, List.drop_zero]; exact htext)
    · simp only [hused]
      exact hext
  have htr := traces_after hT ho hlen hdrop
  obtain ⟨r2, progress2, s2, m1, m2, m3, m4, m5, m6, ho2⟩ := opens_with hT hdim hread ho.some_trace htr
    (hget _ w hw) hrev
  refine ⟨_, hrun, same_after (dim2 := dim) hT hp ho (Or.inr rfl) hdrop, r2, progress2, s2, m1, by rw [m4]; exact b3,
    by rw [m4]; exact b4, m6, m3, m2.trans hused, m5, same_after (dim2 := dim) hT hp ho (Or.inl ho2) hdrop⟩

private theorem write_any {bs : Bytes} {s s1 : FileH} {res : Res Unit} (h : FileM.write bs s = (res, s1)) :
    ∃ k, s1.data = overwrite s.data s.pos (bs.take k) := by
  unfold FileM.write at h
  cases hl : s.limit with
  | none =>
    rw [hl] at h
    refine ⟨bs.length, ?_⟩
    rw [List.take_of_length_le (le_refl _), ← (Prod.mk.inj h).2]
  | some k =>
    rw [hl] at h
    simp only at h
    split at h
    · refine ⟨bs.length, ?_⟩
      rw [List.take_of_length_le (le_refl _), ← (Prod.mk.inj h).2]
    · exact ⟨k, by rw [← (Prod.mk.inj h).2]⟩

/-- Whatever comes of replacing a reel header, by whatever header, on whatever device: the reader that is open finds the
traces as they were. -/
theorem C86_kept (T : Format) (e : Endian) (hT : Cataloguable T e) (encoding : Option Encoding)
    (B : Format) (hB : Regular B e 400) (dim : Option Int) (s s' : FileH) (r : Reader) (progress : List ℚ)
    (h : createReader encoding B T e dim s = (.ok (r, progress), s')) (hpos : s.pos = 0) (limit : Option Nat)
    (res : Res Unit) (s1 : FileH) :
    (∀ lines enc, replaceTextual lines enc { s with limit := limit } = (res, s1) → SameTraces r s r s1) ∧
    (∀ new : Header, new.format = B → replaceBinary new e { s with limit := limit } = (res, s1) →
      SameTraces r s r s1) := by
  obtain ⟨hsize, -, -, -, -, -, -⟩ := reel_facts hB h hpos
  obtain ⟨t, starts, ho⟩ := createReader_opened hT h
  have hp := ho.packer
  have key : ∀ (bs : Bytes) (at' k : Nat), at' + bs.length ≤ 3600 → at' ≤ 3200 →
      s1.data = overwrite s.data at' (bs.take k) → SameTraces r s r s1 := by
    intro bs at' k hb ha hd
    refine same_after (dim2 := dim) hT hp ho (Or.inr rfl) ?_
    rw [hd]
    have hlen : (overwrite s.data at' (bs.take k)).length = s.data.length := by
      by_cases hb' : bs.take k = []
      · rw [hb']; rfl
      · rw [overwrite_length _ _ _ hb', List.length_take]; omega
    have := overwrite_slice s.data (bs.take k) at' (3600 + 3200 * r.extended_textual_headers.length) s.data.length
      (by omega) (by rw [List.length_take]; omega)
    rw [List.take_of_length_le (l := List.drop _ _) (by rw [List.length_drop]; omega),
      List.take_of_length_le (l := List.drop _ _) (by rw [List.length_drop]; omega)] at this
    exact this
  have same : s1.data = s.data → SameTraces r s r s1 := fun hd => key [] 0 0 (by simp) (by omega) (by rw [hd]; rfl)
  constructor
  · intro lines enc hr
    unfold replaceTextual at hr
    rw [bind_ok (show FileM.seek 0 _ = (.ok (), _) from seek_apply 0 _)] at hr
    unfold writeTextualReelHeader at hr
    by_cases hs : isSupportedEncoding enc = true
    · simp only [hs, Bool.not_true, Bool.false_eq_true, if_false] at hr
      cases hm : (padTo lines [] CARDS_PER_HEADER).mapM (encodeCard enc) with
      | error err =>
        rw [hm, bind_error (lift_apply _ _)] at hr
        exact same (by rw [← (Prod.mk.inj hr).2])
      | ok bss =>
        rw [hm, bind_ok (lift_apply _ _)] at hr
        by_cases hl : bss.flatten.length = TEXTUAL_HEADER_NUM_BYTES
        · rw [if_neg (not_not.mpr hl)] at hr
          obtain ⟨k, hk⟩ := write_any hr
          have h32 : TEXTUAL_HEADER_NUM_BYTES = 3200 := rfl
          exact key bss.flatten 0 k (by omega) (by omega) hk
        · rw [if_pos hl] at hr
          exact same (by rw [← (Prod.mk.inj hr).2])
    · simp only [hs, Bool.not_false, if_true] at hr
      exact same (by rw [← (Prod.mk.inj hr).2])
  · rintro new rfl hr
    unfold replaceBinary at hr
    rw [bind_ok (show FileM.seek (TEXTUAL_HEADER_NUM_BYTES : Nat) _ = _ from seek_apply _ _)] at hr
    obtain ⟨p, hpk⟩ := hB.packs
    unfold writeBinaryReelHeader at hr
    rw [hpk, bind_ok (lift_apply _ _)] at hr
    cases hb : p.pack new with
    | error err =>
      rw [hb, bind_error (lift_apply _ _)] at hr
      exact same (by rw [← (Prod.mk.inj hr).2])
    | ok bs =>
      rw [hb, bind_ok (lift_apply _ _)] at hr
      have hl := (C27_layout new.format e p new bs hpk hB.afterStart ⟨[], by simp⟩ hb).1
      unfold Format.packedLength at hl
      rw [hB.length] at hl
      simp only at hl
      obtain ⟨k, hk⟩ := write_any hr
      exact key bs 3200 k (by omega) (by omega) hk

/-- A binary header with the given job number, for 16-bit samples. -/
private def newBinary (job revision : Int) : Header :=
  { format := fmtBinaryReelHeader
    data := fmtBinaryReelHeader.fields.map fun f => (f.name, if f.name = "job_id_num" then job else
      if f.name = "data_sample_format" then 3 else if f.name = "format_revision_num" then revision else f.default) }

-- the hypotheses hold of the sample file
example : ∃ r progress s', createReader (some .ebcdic) fmtBinaryReelHeader fmtTraceHeaderRev1 .big none sampleFile =
      (.ok (r, progress), s') ∧ sampleFile.pos = 0 ∧ sampleFile.limit = none ∧
    Regular fmtBinaryReelHeader .big 400 ∧ Encodable r.encoding "C 1 NEW".toList ∧
    (newBinary 17 256).format = fmtBinaryReelHeader ∧ (newBinary 17 256).Valid ∧
    (newBinary 17 256).get "data_sample_format" = r.binary_reel_header.get "data_sample_format" ∧
    (newBinary 17 256).get "num_extended_textual_headers" = r.binary_reel_header.get "num_extended_textual_headers" ∧
    (newBinary 17 256).get "format_revision_num" = .ok 256 ∧ canonicalizeRevision 256 = .ok 256 := by
  obtain ⟨r, progress, s', h⟩ := sampleFile_ok none (by simp)
  have key : ((createReader (some .ebcdic) fmtBinaryReelHeader fmtTraceHeaderRev1 .big none sampleFile).1.map fun x =>
      (x.1.encoding, x.1.binary_reel_header.get "data_sample_format",
        x.1.binary_reel_header.get "num_extended_textual_headers")) = .ok (.ebcdic, .ok 3, .ok 0) := by decide +kernel
  rw [h] at key
  obtain ⟨k1, k2⟩ := Prod.mk.inj (Except.ok.inj key)
  obtain ⟨k2, k3⟩ := Prod.mk.inj k2
  simp only at k1 k2 k3
  refine ⟨r, progress, s', h, rfl, rfl, shipped_regular (by decide +kernel) _, ?_, rfl, valid_of (by decide +kernel), ?_, ?_,
    by decide +kernel, by decide +kernel⟩
  · rw [k1]
    exact (encodable_iff .ebcdic (by decide) _).mpr ⟨_, rfl⟩
  · rw [k2]; decide +kernel
  · rw [k3]; decide +kernel

/-- The sample file after a change, opened again: the first card, the job number, the revision and some samples. -/
private def reopened (m : FileM Unit) (limit : Option Nat) : Res Unit × Res (PyStr × Res Int × Int × Res (List PyNum)) :=
  let q := m { sampleFile with limit := limit }
  (q.1, do
    let x ← (createReader (some .ebcdic) fmtBinaryReelHeader fmtTraceHeaderRev1 .big none
      { sampleFile with data := q.2.data }).1
    return ((x.1.textual_reel_header.headD []).take 8, x.1.binary_reel_header.get "job_id_num", x.1.revision,
      (x.1.traceSamples .little 0 none none q.2).1))

-- a new text whose writing fails after two characters, and a new binary header
example : (reopened (replaceTextual ["ABCDEF".toList] .ebcdic) (some 2)).1 = .error .osError ∧
    (reopened (replaceTextual ["ABCDEF".toList] .ebcdic) (some 2)).2.map (fun x => x.1) = .ok "AB      ".toList := by
  decide +kernel
example : (reopened (replaceBinary (newBinary 17 256) .big) none).2.map (fun x => x.2.1) = .ok (.ok 17) ∧
    (reopened (replaceBinary (newBinary 17 256) .big) none).2.map (fun x => x.2.2) =
      .ok (256, .ok [.int 7, .int (-1)]) := by
  decide +kernel

end Segpy.Props
