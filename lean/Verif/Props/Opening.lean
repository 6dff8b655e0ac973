import Verif.Props.Reader

/-! # Properties of opening files: C51, C55, C62 -/

namespace Segpy.Props

open Segpy.Spec Segpy.FileM

/-! ## C62 reading a binary reel header -/

/-- The 400 bytes of a binary reel header at a position. -/
def reelHeaderBytes (data : Bytes) (pos : Nat) : Bytes := (data.drop pos).take 400

/-- A binary reel header is read exactly if 400 bytes remain and all their fields are admissible; it then holds what the
bytes say, and otherwise `ValueError` is raised. -/
theorem C62_read_binary (B : Format) (e : Endian) (p : HeaderPacker) (hp : makeHeaderPacker B e = .ok p)
    (hstart : B.AfterStart) (horder : B.OrderSafe) (hlen : B.lengthInBytes = some 400) (s : FileH) :
    (∃ h, readBinaryReelHeader B e s = (.ok h, { s with pos := s.pos + 400 }) ∧ s.pos + 400 ≤ s.data.length ∧
      h.format = B ∧
      ∀ f ∈ B.fields, f.value_type.Admits (storedInt e f.value_type.segy (B.fieldBytes f (reelHeaderBytes s.data s.pos))) ∧
        h.get f.name = .ok (storedInt e f.value_type.segy (B.fieldBytes f (reelHeaderBytes s.data s.pos)))) ∨
    (∃ k, readBinaryReelHeader B e s = (.error .valueError, { s with pos := k }) ∧
      (s.data.length < s.pos + 400 ∨ ∃ f ∈ B.fields,
        ¬ f.value_type.Admits (storedInt e f.value_type.segy (B.fieldBytes f (reelHeaderBytes s.data s.pos))))) := by
  have hl : B.packedLength (reelHeaderBytes s.data s.pos).length ↔ s.pos + 400 ≤ s.data.length := by
    unfold Format.packedLength reelHeaderBytes
    rw [hlen, List.length_take, List.length_drop]
    simp only
    omega
  unfold readBinaryReelHeader
  rw [bind_ok (s' := s) (a := p) (by rw [lift_apply, hp]), hlen]
  simp only
  rcases C29_unpack B e p (reelHeaderBytes s.data s.pos) hp hstart horder with ⟨h, h1, h2, h3, h4⟩ | ⟨h1, h2⟩
  · left
    have hfit := hl.mp h3
    refine ⟨h, ?_, hfit, h2, h4⟩
    have hr : FileM.read 400 s = (.ok (reelHeaderBytes s.data s.pos), { s with pos := s.pos + 400 }) :=
      read_full hfit
    rw [bind_ok hr, lift_apply, h1]
  · right
    have hr : ∃ k, FileM.read 400 s = (.ok (reelHeaderBytes s.data s.pos), { s with pos := k }) := ⟨_, read_apply 400 s⟩
    obtain ⟨k, hr⟩ := hr
    refine ⟨k, ?_, ?_⟩
    · rw [bind_ok hr, lift_apply, h1]
    · rcases h2 with h2 | h2
      · left; rw [hl] at h2; omega
      · right; exact h2

-- both cases occur: the sample file, and zeros
example : ((readBinaryReelHeader fmtBinaryReelHeader .big { sampleFile with pos := 3200 }).1.map fun h =>
    (h.get "data_sample_format", h.get "format_revision_num")) = .ok (.ok 3, .ok 0) ∧
    ((readBinaryReelHeader fmtBinaryReelHeader .big { data := List.replicate 400 0, pos := 0 }).1.map fun _ => ()) =
      .error .valueError := by
  decide +kernel

/-! ## C51 which files can be opened -/

/-- The encoding in which the textual headers are read: the one asked for, or else the one that the first 3200 bytes
suggest, or else ASCII. -/
def usedEncoding (encoding : Option Encoding) (data : Bytes) : Encoding :=
  match encoding with
  | some enc => enc
  | none => (guessEncoding (data.take 3200) (.fin (1 / 2))).getD .ascii

/-- The three kinds of reel headers can be read one after the other, and the sample format is a known one. -/
structure HeadersRead (encoding : Option Encoding) (B : Format) (e : Endian) (s : FileH) (textual : List PyStr)
    (binary : Header) (extended : List (List PyStr)) (t : SegYType) : Prop where
  size : 3600 ≤ s.data.length
  headers : ∃ s1 s2 s3, readTextualReelHeader (usedEncoding encoding s.data) s = (.ok textual, s1) ∧
    readBinaryReelHeader B e s1 = (.ok binary, s2) ∧
    readExtendedHeadersOf binary (usedEncoding encoding s.data) s2 = (.ok extended, s3)
  format : ∃ v, binary.get "data_sample_format" = .ok v ∧ dataSampleFormatToSegYType v = .ok t

theorem guess_eq (s : FileH) :
    guessTextualHeaderEncoding s = (.ok (guessEncoding (s.data.take 3200) (.fin (1 / 2))), s) := by
  unfold guessTextualHeaderEncoding
  have h0 : FileM.seek 0 s = (.ok (), { s with pos := 0 }) := seek_apply 0 s
  have h32 : TEXTUAL_HEADER_NUM_BYTES = 3200 := rfl
  rw [bind_ok (tell_apply s), bind_ok h0, h32, bind_ok (read_apply 3200 _), bind_ok (seek_apply s.pos _)]
  simp

/-- Opening after the textual header. -/
def afterText (enc : Encoding) (B T : Format) (e : Endian) (dim : Option Int) (textual : List PyStr) :
    FileM (Reader × List ℚ) := do
  let binary ← readBinaryReelHeader B e
  let extended ← readExtendedHeadersOf binary enc
  let bps ← FileM.lift (headerBytesPerSample binary)
  let catalogs ← catalogTraces bps T e
  let reader ← FileM.lift (makeReaderOf dim textual binary extended catalogs T enc e)
  return (reader, catalogs.progress)

theorem create_text {encoding : Option Encoding} {B T : Format} {e : Endian} {dim : Option Int}
    (hdim : dim ∈ [none, some 1, some 2, some 3]) {s s1 : FileH} {textual : List PyStr} (hsize : 3600 ≤ s.data.length)
    (h1 : readTextualReelHeader (usedEncoding encoding s.data) s = (.ok textual, s1)) :
    createReader encoding B T e dim s =
      match afterText (usedEncoding encoding s.data) B T e dim textual s1 with
      | (.error err, s') => (.error err, s')
      | (.ok (r, progress), s') => (.ok (r, progress ++ [1]), s') := by
  have h36 : REEL_HEADER_NUM_BYTES = 3600 := rfl
  have hm : makeReader encoding B T e dim s = afterText (usedEncoding encoding s.data) B T e dim textual s1 := by
    unfold makeReader
    cases encoding with
    | some enc =>
      rw [bind_ok (pure_apply _ s)]
      exact bind_ok h1
    | none =>
      rw [bind_ok (guess_eq s)]
      exact bind_ok h1
  unfold createReader
  rw [bind_ok (show fileLength s = (.ok s.data.length, s) from rfl), if_neg (by omega), if_neg (not_not.mpr hdim),
    bind_apply, hm]
  cases afterText (usedEncoding encoding s.data) B T e dim textual s1 with
  | mk x s' => cases x <;> rfl

/-- Opening up to and including the cataloguing of the traces. -/
theorem create_eq {encoding : Option Encoding} {B T : Format} {e : Endian} {dim : Option Int}
    (hdim : dim ∈ [none, some 1, some 2, some 3]) {s : FileH} {textual : List PyStr} {binary : Header}
    {extended : List (List PyStr)} {t : SegYType} (h : HeadersRead encoding B e s textual binary extended t) :
    createReader encoding B T e dim s =
      match catalogTraces t.size T e { s with pos := 3600 + 3200 * extended.length } with
      | (.error err, s') => (.error err, s')
      | (.ok c, s') =>
        match makeReaderOf dim textual binary extended c T (usedEncoding encoding s.data) e with
        | .error err => (.error err, s')
        | .ok r => (.ok (r, c.progress ++ [1]), s') := by
  obtain ⟨s1, s2, s3, h1, h2, h3⟩ := h.headers
  obtain ⟨v, hv, ht⟩ := h.format
  have hpos := extendedOf_pos h3
  rw [create_text hdim h.size h1]
  obtain ⟨k1, rfl⟩ := (reads_textual _).ok h1
  obtain ⟨k2, rfl⟩ := (reads_binary _ _).ok h2
  obtain ⟨k3, rfl⟩ := (reads_extendedOf _ _).ok h3
  simp only at hpos
  subst hpos
  have hbps : headerBytesPerSample binary = .ok t.size := by
    unfold headerBytesPerSample
    rw [hv]
    simp only [bind, Except.bind]
    unfold bytesPerSample
    rw [ht]
  unfold afterText
  rw [bind_ok h2, bind_ok h3, hbps, bind_ok (lift_apply _ _), bind_apply]
  cases hc : catalogTraces t.size T e { s with pos := 3600 + 3200 * extended.length } with
  | mk x s' =>
    cases x with
    | error err => rfl
    | ok c =>
      simp only [bind_apply, lift_apply]
      cases makeReaderOf dim textual binary extended c T (usedEncoding encoding s.data) e <;> rfl

/-- The full claim would be that a file consisting only of headers can be opened.  What holds: if the headers can be
read, then a file with at least one trace opens and the reader describes it, provided the revision is known; a file
without traces raises `RuntimeError`; and a complete trace header with inadmissible fields raises `ValueError`.  By
`C43_traces` one of the three is the case. -/
theorem C51_opens_partial (T : Format) (e : Endian) (hT : Cataloguable T e) (encoding : Option Encoding) (B : Format)
    (dim : Option Int) (hdim : dim ∈ [none, some 1, some 2, some 3]) (s : FileH) (textual : List PyStr)
    (binary : Header) (extended : List (List PyStr)) (t : SegYType)
    (h : HeadersRead encoding B e s textual binary extended t) :
    (∀ starts revision v, starts ≠ [] → Traces T e s.data t.size (3600 + 3200 * extended.length) starts →
      binary.get "format_revision_num" = .ok v → canonicalizeRevision v = .ok revision →
      ∃ r progress s', createReader encoding B T e dim s = (.ok (r, progress), s') ∧
        Describes T e s.data t starts r ∧ r.textual_reel_header = textual ∧ r.binary_reel_header = binary ∧
        r.extended_textual_headers = extended ∧ r.encoding = usedEncoding encoding s.data ∧ r.revision = revision) ∧
    (Traces T e s.data t.size (3600 + 3200 * extended.length) [] →
      (createReader encoding B T e dim s).1 = .error .runtimeError) ∧
    (∀ starts stop, TraceChain T e s.data t.size (3600 + 3200 * extended.length) starts stop →
      stop + 240 ≤ s.data.length → ¬ Indexable T e s.data stop →
      (createReader encoding B T e dim s).1 = .error .valueError) := by
  have key := create_eq (T := T) hdim h
  refine ⟨?_, ?_, ?_⟩
  · intro starts revision v hne htr hv hrev
    obtain ⟨c, k, g1, g2⟩ := C43_indexes T e hT t.size { s with pos := 3600 + 3200 * extended.length } starts htr hne
    obtain ⟨w, hw, ht⟩ := h.format
    obtain ⟨r, m1, _, m3, m4, m5, m6, m7⟩ := makeReaderOf_opened hT hdim (textual := textual) (extended := extended)
      (enc := usedEncoding encoding s.data) hne htr g2 hw ht (rev := revision)
      (by unfold extractRevision; rw [hv]; exact hrev)
    rw [g1] at key
    simp only [m1] at key
    refine ⟨r, _, _, key, ?_, m4, m5, m6, m7, m3⟩
    obtain ⟨t', starts', _, n1, n2, _⟩ := C61_describes T e hT encoding B dim s _ r _ key
    have htt : t' = t := by
      have := n2.data_sample_format
      unfold Reader.dataSampleFormat at this
      rw [m5, hw] at this
      simp only [bind, Except.bind] at this
      rw [ht] at this
      exact (Except.ok.inj this).symm
    subst htt
    rw [m6] at n1
    have := (C43_traces T e s.data t'.size (3600 + 3200 * extended.length)).2.1 _ _ n1 htr
    subst this
    exact n2
  · intro htr
    obtain ⟨k, hk⟩ := C43_no_traces T e hT t.size { s with pos := 3600 + 3200 * extended.length } htr
    rw [hk] at key
    rw [key]
    have : s.data ≠ [] := by
      intro h0
      have := h.size
      rw [h0] at this
      simp at this
    simp [this]
  · intro starts stop hc hroom hbad
    obtain ⟨k, hk⟩ := C43_bad_header T e hT t.size { s with pos := 3600 + 3200 * extended.length } starts stop hc hroom hbad
    rw [hk] at key
    rw [key]

/-- Whatever the file, an opened reader has at least one trace: files without traces cannot be opened. -/
theorem C51_no_empty_reader (T : Format) (e : Endian) (hT : Cataloguable T e) (encoding : Option Encoding) (B : Format)
    (dim : Option Int) (s s' : FileH) (r : Reader) (progress : List ℚ)
    (h : createReader encoding B T e dim s = (.ok (r, progress), s')) : ∃ n, r.numTraces = .ok n ∧ 1 ≤ n := by
  obtain ⟨t, starts, hne, _, hd, _⟩ := C61_describes T e hT encoding B dim s s' r progress h
  refine ⟨_, hd.num_traces, ?_⟩
  have := List.length_pos_iff.mpr hne
  omega

section Example

private theorem sampleHeaders (rest : Bytes) : ∃ textual binary,
    HeadersRead (some .ebcdic) fmtBinaryReelHeader .big { data := sampleReel ++ rest, pos := 0 } textual binary []
      (.int .int16) ∧ binary.get "format_revision_num" = .ok 0 := by
  have hreel : sampleReel.length = 3600 := by decide +kernel
  have ht : ((readTextualReelHeader .ebcdic { data := sampleReel, pos := 0 }).1.map fun _ => ()) = .ok () := by
    decide +kernel
  have hb : ((readBinaryReelHeader fmtBinaryReelHeader .big { data := sampleReel, pos := 3200 }).1.map fun h =>
      [h.get "data_sample_format", h.get "format_revision_num", h.get "num_extended_textual_headers"]) =
      .ok [.ok 3, .ok 0, .ok 0] := by
    decide +kernel
  have hdrop : ∀ p n, p + n ≤ 3600 → ((sampleReel ++ rest).drop p).take n = (sampleReel.drop p).take n := by
    intro p n hpn
    rw [List.drop_append_of_le_length (by omega), List.take_append_of_le_length (by rw [List.length_drop]; omega)]
  have hT : ∃ textual, readTextualReelHeader .ebcdic { data := sampleReel ++ rest, pos := 0 } =
      (.ok textual, { data := sampleReel ++ rest, pos := 3200 }) := by
    rw [readTextual_apply] at ht ⊢
    rw [if_pos (by simp only [List.length_append]; omega), hdrop 0 3200 (by omega)]
    rw [if_pos (by simp only; omega)] at ht
    simp only at ht ⊢
    cases hd : decodeCards .ebcdic ((sampleReel.drop 0).take 3200) with
    | error err => rw [hd] at ht; cases ht
    | ok l => exact ⟨l, rfl⟩
  obtain ⟨textual, hT⟩ := hT
  have hB : ∃ binary, readBinaryReelHeader fmtBinaryReelHeader .big { data := sampleReel ++ rest, pos := 3200 } =
      (.ok binary, { data := sampleReel ++ rest, pos := 3600 }) ∧ binary.get "data_sample_format" = .ok 3 ∧
      binary.get "format_revision_num" = .ok 0 ∧ binary.get "num_extended_textual_headers" = .ok 0 := by
    have hm : (fmtBinaryReelHeader, 400) ∈ shippedFormats := by decide +kernel
    obtain ⟨⟨p, hp, _⟩, _, _, _, _, h3, _, _⟩ := C34_shipped_formats _ hm .big
    have hread : ∀ d : Bytes, 3600 ≤ d.length → readBinaryReelHeader fmtBinaryReelHeader .big { data := d, pos := 3200 } =
        (p.unpack ((d.drop 3200).take 400), { data := d, pos := 3600 }) := by
      intro d hd
      unfold readBinaryReelHeader
      rw [hp, bind_ok (lift_apply _ _), h3]
      have hr : FileM.read 400 { data := d, pos := 3200 } = (.ok ((d.drop 3200).take 400), { data := d, pos := 3600 }) :=
        read_full (s := { data := d, pos := 3200 }) (n := 400) (by simp only; omega)
      exact bind_ok hr
    rw [hread _ (by omega)] at hb
    rw [hread _ (by rw [List.length_append]; omega), hdrop 3200 400 (by omega)]
    cases hu : p.unpack ((sampleReel.drop 3200).take 400) with
    | error err => rw [hu] at hb; cases hb
    | ok h =>
      rw [hu] at hb
      simp only [Except.map, Except.ok.injEq, List.cons.injEq, and_true] at hb
      exact ⟨h, rfl, hb.1, hb.2.1, hb.2.2⟩
  obtain ⟨binary, hB, hv, hrev, hext⟩ := hB
  refine ⟨textual, binary, ⟨by simp only [List.length_append]; omega, ⟨_, _, { data := sampleReel ++ rest, pos := 3600 },
    hT, hB, ?_⟩, 3, hv, rfl⟩, hrev⟩
  unfold readExtendedHeadersOf
  rw [hext, bind_ok (lift_apply _ _)]
  rfl

-- the reel headers alone, or followed by less than a trace header: `RuntimeError`
example (rest : Bytes) (h : rest.length < 240) :
    (createReader (some .ebcdic) fmtBinaryReelHeader fmtTraceHeaderRev1 .big none
      { data := sampleReel ++ rest, pos := 0 }).1 = .error .runtimeError := by
  obtain ⟨textual, binary, hh, _⟩ := sampleHeaders rest
  refine (C51_opens_partial _ _ (C43_rev1_cataloguable _) _ _ none (by simp) _ _ _ _ _ hh).2.1 ⟨3600, .nil _, ?_⟩
  have hreel : sampleReel.length = 3600 := by decide +kernel
  simp only [List.length_append]
  omega

-- followed by one trace: it opens
example : ∃ r progress s', createReader (some .ebcdic) fmtBinaryReelHeader fmtTraceHeaderRev1 .big none
    { data := sampleReel ++ sampleHeader 1 2 5, pos := 0 } = (.ok (r, progress), s') ∧ r.numTraces = .ok 1 := by
  obtain ⟨textual, binary, hh, hrev⟩ := sampleHeaders (sampleHeader 1 2 5)
  have htr : Traces fmtTraceHeaderRev1 .big (sampleReel ++ sampleHeader 1 2 5) 2 3600 [3600] := by
    have c : samplesAt fmtTraceHeaderRev1 .big (sampleReel ++ sampleHeader 1 2 5) 3600 = 2 := by decide +kernel
    refine ⟨3844, .cons (by decide +kernel) (by decide +kernel) ?_, by decide +kernel⟩
    rw [c]
    exact .nil _
  obtain ⟨r, progress, s', h1, h2, _⟩ := (C51_opens_partial _ _ (C43_rev1_cataloguable _) _ _ none (by simp) _ _ _ _ _
    hh).1 [3600] 0 0 (by simp) htr hrev rfl
  exact ⟨r, progress, s', h1, h2.num_traces⟩

end Example

/-! ## C55 revisions -/

/-- An opened reader reports the canonical form of the revision in its binary header. -/
theorem C55_canonical_partial (T : Format) (e : Endian) (encoding : Option Encoding) (B : Format)
    (dim : Option Int) (s s' : FileH) (r : Reader) (progress : List ℚ)
    (h : createReader encoding B T e dim s = (.ok (r, progress), s')) :
    ∃ v, r.binary_reel_header.get "format_revision_num" = .ok v ∧
      ((v = 0 ∧ r.revision = 0) ∨ ((v = 1 ∨ v = 100 ∨ v = 256) ∧ r.revision = 256)) := by
  obtain ⟨enc, textual, binary, extended, bps, catalogs, k1, k2, k3, k4, _, _, _, _, _, _, h7, _⟩ := createReader_ok h
  have hmake : ∀ a b kind, Reader.make textual binary extended a b T enc e kind = .ok r →
      r.binary_reel_header = binary ∧ extractRevision binary = .ok r.revision := by
    intro a b kind hm
    unfold Reader.make at hm
    simp only [bind, Except.bind, pure, Except.pure] at hm
    split at hm
    · cases hm
    split at hm
    · cases hm
    rename_i rev hrev
    split at hm
    · cases hm
    cases hm
    exact ⟨rfl, hrev⟩
  have hr : r.binary_reel_header = binary ∧ extractRevision binary = .ok r.revision := by
    unfold makeReaderOf at h7
    simp only [bind, Except.bind] at h7
    repeat' split at h7
    all_goals first
      | cases h7
      | exact hmake _ _ _ h7
  obtain ⟨rfl, hrev⟩ := hr
  unfold extractRevision at hrev
  cases hv : r.binary_reel_header.get "format_revision_num" with
  | error err => rw [hv] at hrev; cases hrev
  | ok v =>
    rw [hv] at hrev
    simp only [bind, Except.bind] at hrev
    refine ⟨v, rfl, ?_⟩
    unfold canonicalizeRevision at hrev
    split_ifs at hrev with c1 c2 c3 c4
    · left; exact ⟨c1, (Except.ok.inj hrev).symm⟩
    · right; exact ⟨Or.inr (Or.inr c2), (Except.ok.inj hrev).symm⟩
    · right; exact ⟨Or.inl c3, (Except.ok.inj hrev).symm⟩
    · right; exact ⟨Or.inr (Or.inl c4), (Except.ok.inj hrev).symm⟩

/-- The documented variants 1 and 100 (and every number but 0 and 256) cannot be read with the package's own binary reel
header format: `ValueError` is raised. -/
theorem C55_variants_refused (T : Format) (e : Endian) (encoding : Option Encoding) (dim : Option Int)
    (hdim : dim ∈ [none, some 1, some 2, some 3]) (s : FileH) (hlen : s.pos + 3600 ≤ s.data.length) (textual : List PyStr)
    (s1 : FileH) (ht : readTextualReelHeader (usedEncoding encoding s.data) s = (.ok textual, s1))
    (hv : bytesNat e ((s.data.drop (s.pos + 3500)).take 2) ≠ 0 ∧ bytesNat e ((s.data.drop (s.pos + 3500)).take 2) ≠ 256) :
    (createReader encoding fmtBinaryReelHeader T e dim s).1 = .error .valueError := by
  obtain ⟨hs1, _⟩ := readTextual_ok ht
  subst hs1
  rw [create_text hdim (by omega) ht]
  have hm : (fmtBinaryReelHeader, 400) ∈ shippedFormats := by decide +kernel
  obtain ⟨⟨p, hp, _⟩, h1, _, h2, _, h3, _, _⟩ := C34_shipped_formats _ hm e
  have hf : (⟨"format_revision_num", vtFormatRevisionNumField, 3501, 256⟩ : Field) ∈ fmtBinaryReelHeader.fields := by
    decide +kernel
  have hstart : fmtBinaryReelHeader.startOffset = 3201 := by decide +kernel
  unfold afterText
  rcases C62_read_binary fmtBinaryReelHeader e p hp h2 (Or.inl h1) h3 { s with pos := s.pos + 3200 } with
    ⟨h, _, _, _, h4⟩ | ⟨k, h4, _⟩
  · exfalso
    have had := (h4 _ hf).1
    unfold Format.fieldBytes slice reelHeaderBytes at had
    rw [hstart] at had
    have hb : (((List.drop (s.pos + 3200) s.data).take 400).drop (3501 - 3201 : Int).toNat).take 2 =
        (s.data.drop (s.pos + 3500)).take 2 := by
      rw [List.drop_take, List.drop_drop, List.take_take]
      rfl
    have hsz : vtFormatRevisionNumField.size = 2 := rfl
    simp only [hsz] at had
    rw [hb] at had
    generalize hbs : (s.data.drop (s.pos + 3500)).take 2 = bs at had hv
    have hl : bs.length = 2 := by rw [← hbs, List.length_take, List.length_drop]; omega
    unfold storedInt at had
    rw [hl] at had
    have hadm : vtFormatRevisionNumField.Admits = fun v => v ∈ ([0, 256] : List Int) := rfl
    have hlt : bytesNat e bs < 2 ^ 16 := by
      rw [bytesNat_eq]
      have := leNat_lt (e.order bs)
      have ho : (e.order bs).length = 2 := by cases e <;> simp [Endian.order, hl]
      rw [ho] at this
      exact this
    rw [hadm] at had
    simp only [List.mem_cons, List.not_mem_nil, or_false] at had
    split_ifs at had <;> omega
  · rw [bind_error h4]

-- the sample file with revision 1 in its binary header
example : (createReader (some .ebcdic) fmtBinaryReelHeader fmtTraceHeaderRev1 .big none
    { data := List.replicate 3200 0x40 ++ List.replicate 24 0 ++ [0, 3] ++ List.replicate 274 0 ++ [0, 1] ++
        List.replicate 98 0 ++ sampleTraces, pos := 0 }).1.map (fun _ => ()) = .error .valueError := by
  decide +kernel

-- and with revision 256, reported as such
example : ((createReader (some .ebcdic) fmtBinaryReelHeader fmtTraceHeaderRev1 .big none
    { data := List.replicate 3200 0x40 ++ List.replicate 24 0 ++ [0, 3] ++ List.replicate 274 0 ++ [1, 0] ++
        List.replicate 98 0 ++ sampleTraces, pos := 0 }).1.map fun x => x.1.revision) = .ok 256 := by
  decide +kernel

end Segpy.Props
