import Verif.Lemmas.Opens
import Verif.Lemmas.CopyBytes

/-! # Properties of opening files: C97, C98 -/

namespace Segpy.Props

open Segpy.Spec Segpy.FileM

/-! ## C97 which files open -/

private theorem usedEncoding_known {encoding : Option Encoding} (h : encoding ≠ some .other) (data : Bytes) :
    usedEncoding encoding data ≠ .other := by
  unfold usedEncoding
  cases encoding with
  | some enc => exact fun hx => h (congrArg some hx)
  | none =>
    unfold guessEncoding
    dsimp only
    split <;> (try split) <;> (try split) <;> (try split) <;> simp

private theorem known_revision {v : Int} : v ∈ [0, 1, 100, 256] ↔ ∃ r, canonicalizeRevision v = .ok r := by
  simp only [List.mem_cons, List.not_mem_nil, or_false]
  unfold canonicalizeRevision
  constructor
  · rintro (rfl | rfl | rfl | rfl) <;> simp
  · rintro ⟨r, h⟩
    split at h
    · tauto
    split at h
    · tauto
    split at h
    · tauto
    split at h
    · tauto
    · cases h

private theorem unknown_revision {v : Int} (h : v ∉ [0, 1, 100, 256]) : canonicalizeRevision v = .error .segyRevisionError := by
  simp only [List.mem_cons, List.not_mem_nil, or_false, not_or] at h
  unfold canonicalizeRevision
  rw [if_neg h.1, if_neg h.2.2.2, if_neg h.2.1, if_neg h.2.2.1]

/-- The binary header of a file of at least 3600 bytes, if its fields are admissible. -/
private theorem binary_read {B : Format} {e : Endian} (hB : Regular B e 400) {s : FileH} (hlen : 3600 ≤ s.data.length) :
    (∃ h, readBinaryReelHeader B e { s with pos := 3200 } = (.ok h, { s with pos := 3600 }) ∧
      ∀ f ∈ B.fields, f.value_type.Admits (reelField B e s.data f) ∧ h.get f.name = .ok (reelField B e s.data f)) ∨
    (∃ k, readBinaryReelHeader B e { s with pos := 3200 } = (.error .valueError, { s with pos := k }) ∧
      ∃ f ∈ B.fields, ¬ f.value_type.Admits (reelField B e s.data f)) := by
  obtain ⟨p, hp⟩ := hB.packs
  rcases C62_read_binary B e p hp hB.afterStart hB.orderSafe hB.length { s with pos := 3200 } with
    ⟨hd, b1, -, -, b3⟩ | ⟨k, b1, b2⟩
  · exact Or.inl ⟨hd, b1, b3⟩
  · refine Or.inr ⟨k, b1, ?_⟩
    rcases b2 with b2 | b2
    · simp only at b2; omega
    · exact b2

private theorem headersRead {B : Format} {e : Endian} (hB : Regular B e 400) (hf : HasReelFields B)
    {encoding : Option Encoding} {s : FileH} (hs : s.pos = 0) {t : SegYType} {pages : Nat}
    (h : SoundReel (usedEncoding encoding s.data) B e s.data t pages) :
    ∃ textual binary extended, HeadersRead encoding B e s textual binary extended t ∧ extended.length = pages ∧
      ∀ f ∈ B.fields, binary.get f.name = .ok (reelField B e s.data f) := by
  obtain ⟨textual, ht⟩ := h.text
  rcases binary_read hB h.size with ⟨hd, b1, b2⟩ | ⟨-, -, f, f1, f2⟩
  swap
  · exact absurd (h.binary f f1) f2
  obtain ⟨fx, x1, x2⟩ := hf "num_extended_textual_headers" (by simp)
  obtain ⟨l, hl, hx⟩ := h.extended fx x1 x2
  obtain ⟨ff, y1, y2⟩ := hf "data_sample_format" (by simp)
  have hread := readExtended_of_pages (s := { s with pos := 3600 }) (by rw [← x2]; exact (b2 fx x1).2) hx
  refine ⟨textual, hd, l, ⟨h.size, ⟨{ s with pos := 3200 }, _, _, ?_, b1, hread⟩, ?_⟩, hl, fun f hf => (b2 f hf).2⟩
  · have := readTextual_of_page (enc := usedEncoding encoding s.data) (s := s) (page := textual) (by rw [hs]; exact ht)
    rw [this, hs]
  · exact ⟨_, by rw [← y2]; exact (b2 ff y1).2, ((C42_format_codes _).1 t).mpr (h.format ff y1 y2)⟩

/-- What is known of a file of which a reader has been made. -/
theorem sound_of_opened {T B : Format} {e : Endian} (hT : Cataloguable T e) (hB : Regular B e 400)
    {encoding : Option Encoding} {dim : Option Int} {s s' : FileH} (hs : s.pos = 0) {r : Reader} {progress : List ℚ}
    (h : createReader encoding B T e dim s = (.ok (r, progress), s')) :
    dim ∈ [none, some 1, some 2, some 3] ∧ ∃ (t : SegYType) (starts : List Nat),
      SoundReel (usedEncoding encoding s.data) B e s.data t r.extended_textual_headers.length ∧ KnownRevision B e s.data ∧
      Traces T e s.data t.size (3600 + 3200 * r.extended_textual_headers.length) starts ∧ starts ≠ [] := by
  obtain ⟨t, starts, hr, ho⟩ := createReader_all hT h
  obtain ⟨h1, h2⟩ := C71_reel_headers encoding B T e hB dim s s' hs r progress h
  obtain ⟨-, -, -, -, -, -, -, -, -, -, -, -, -, -, -, -, -, -, -, hlen⟩ := createReader_ok h
  obtain ⟨v, hv, hrev⟩ := C55_canonical_partial T e encoding B dim s s' r progress h
  obtain ⟨t', code, g1, g2, g3, -⟩ := C71_sample_format encoding B T e dim s s' r progress h
  obtain rfl := Except.ok.inj (g1.symm.trans ho.format)
  rw [h1] at h2
  refine ⟨ho.dims, t', starts, ?_, ?_, ho.traces, ho.some_trace⟩
  · refine ⟨hlen, ⟨_, h2.text⟩, ?_, ?_, ?_⟩
    · intro f hfm
      rcases binary_read hB (s := s) hlen with ⟨hd, -, b2⟩ | ⟨k, b1, -⟩
      · exact (b2 f hfm).1
      · exfalso
        obtain ⟨enc, textual, binary, extended, bps, catalogs, k1, k2, k3, k4, q1, q2, q3, -⟩ := createReader_ok h
        have hk : k1 = 0 := by
          rcases q1 with ⟨-, rfl⟩ | ⟨-, o, -, hg⟩
          · exact hs
          · rw [guess_eq] at hg
            rw [← hs]
            exact (congrArg FileH.pos (Prod.mk.inj hg).2).symm
        subst hk
        rw [readTextual_apply] at q2
        split at q2
        · have hk2 : k2 = 3200 := by
            have := congrArg FileH.pos (Prod.mk.inj q2).2
            simpa using this.symm
          subst hk2
          rw [b1] at q3
          cases q3
        · cases q2
    · intro f hfm hn
      refine ⟨_, rfl, h2.pages, ?_, h2.only_last_stops⟩
      obtain ⟨n, n1, n2⟩ := h2.count
      have := h2.fields f hfm
      rw [hn, n1] at this
      rw [show reelField B e s.data f = n from (Except.ok.inj this).symm]
      exact n2
    · intro f hfm hn
      have := h2.fields f hfm
      rw [hn, g2] at this
      rw [show reelField B e s.data f = code from (Except.ok.inj this).symm]
      exact g3
  · intro f hfm hn
    have := h2.fields f hfm
    rw [hn, hv] at this
    rw [show reelField B e s.data f = v from (Except.ok.inj this).symm]
    simp only [List.mem_cons, List.not_mem_nil, or_false]
    tauto

/-- A reader is made of a file exactly if its reel headers are sound, its revision number is known, all its trace headers
can be indexed, and there is a trace. -/
theorem C97_opens (T B : Format) (e : Endian) (hT : Cataloguable T e) (hB : Regular B e 400) (hf : HasReelFields B)
    (encoding : Option Encoding) (dim : Option Int) (s : FileH) (hs : s.pos = 0) :
    (∃ r progress s', createReader encoding B T e dim s = (.ok (r, progress), s')) ↔
      dim ∈ [none, some 1, some 2, some 3] ∧ Sound (usedEncoding encoding s.data) B T e s.data := by
  constructor
  · rintro ⟨r, progress, s', h⟩
    obtain ⟨hdim, t, starts, h1, h2, h3, h4⟩ := sound_of_opened hT hB hs h
    exact ⟨hdim, t, _, starts, h1, h2, h3, h4⟩
  · rintro ⟨hdim, t, pages, starts, hreel, hrev, htr, hne⟩
    obtain ⟨textual, binary, extended, hh, rfl, hget⟩ := headersRead hB hf hs hreel
    obtain ⟨fr, r1, r2⟩ := hf "format_revision_num" (by simp)
    obtain ⟨rev, hc⟩ := known_revision.mp (hrev fr r1 r2)
    obtain ⟨r, progress, s', h, -⟩ := (C51_opens_partial T e hT encoding B dim hdim s textual binary extended t hh).1 starts
      rev _ hne htr (by rw [← r2]; exact hget fr r1) hc
    exact ⟨r, progress, s', h⟩

/-- What is raised for a file that does not open: `ValueError` (or `UnicodeDecodeError`, which is one), `EOFError` if pages
of the extended textual header are missing, `RuntimeError` if there is no trace, `SegYRevisionError` if the revision number
is unknown.  In particular opening always ends. -/
theorem C97_raises (T B : Format) (e : Endian) (hT : Cataloguable T e) (hB : Regular B e 400) (hf : HasReelFields B)
    (encoding : Option Encoding) (henc : encoding ≠ some .other) (dim : Option Int) (s : FileH) (hs : s.pos = 0) (err : Err)
    (h : (createReader encoding B T e dim s).1 = .error err) :
    err = .valueError ∨ err = .unicodeError ∨
    (err = .eofError ∧ ∀ f ∈ B.fields, f.name = "num_extended_textual_headers" →
      ¬ ∃ l, ExtendedPages (usedEncoding encoding s.data) s.data (reelField B e s.data f) l) ∨
    (err = .runtimeError ∧ ∃ t pages, SoundReel (usedEncoding encoding s.data) B e s.data t pages ∧
      Traces T e s.data t.size (3600 + 3200 * pages) []) ∨
    (err = .segyRevisionError ∧ ¬ KnownRevision B e s.data) := by
  have henc' := usedEncoding_known henc s.data
  by_cases hlen : 3600 ≤ s.data.length
  swap
  · left
    unfold createReader at h
    rw [bind_ok (show fileLength s = (.ok s.data.length, s) from rfl), if_pos (by show _ < 3600; omega)] at h
    exact (Except.error.inj h).symm
  by_cases hdim : dim ∈ [none, some 1, some 2, some 3]
  swap
  · left
    unfold createReader at h
    rw [bind_ok (show fileLength s = (.ok s.data.length, s) from rfl), if_neg (by show ¬ _ < 3600; omega),
      if_pos hdim] at h
    exact (Except.error.inj h).symm
  cases htext : readTextualReelHeader (usedEncoding encoding s.data) s with
  | mk x s1 =>
  cases x with
  | error k =>
    have hk : createReader encoding B T e dim s = (.error k, s1) := by
      have hm : makeReader encoding B T e dim s = (.error k, s1) := by
        unfold makeReader
        cases encoding with
        | some enc =>
          rw [bind_ok (pure_apply _ s)]
          exact bind_error htext
        | none =>
          rw [bind_ok (guess_eq s)]
          exact bind_error htext
      unfold createReader
      rw [bind_ok (show fileLength s = (.ok s.data.length, s) from rfl), if_neg (by show ¬ _ < 3600; omega),
        if_neg (not_not.mpr hdim), bind_error hm]
    rw [hk] at h
    obtain rfl := Except.error.inj h
    rcases readTextual_error henc' htext with ⟨-, hx⟩ | ⟨hx, -⟩
    · rw [hs] at hx; omega
    · exact Or.inr (Or.inl hx)
  | ok textual =>
    have hs1 : s1 = { s with pos := 3200 } := by
      rw [readTextual_apply] at htext
      split at htext
      · have := (Prod.mk.inj htext).2
        rw [← this, hs]
      · cases htext
    subst hs1
    have hpage : ∃ page, PageAt (usedEncoding encoding s.data) s.data 0 page := by
      by_contra hn
      rw [readTextual_apply] at htext
      split at htext
      swap
      · cases htext
      obtain ⟨-, w1, bss, w2, w3⟩ := readTextual_page (enc := usedEncoding encoding s.data) (s := s) (l := textual)
        (s' := { s with pos := 3200 }) (by rw [readTextual_apply, if_pos (by omega)]; exact htext)
      exact hn ⟨textual, w1, by omega, by
        rw [encode_flatten w2, w3, hs]⟩
    rw [create_text hdim hlen htext] at h
    unfold afterText at h
    rcases binary_read hB (s := s) hlen with ⟨binary, b1, b2⟩ | ⟨k, b1, -⟩
    swap
    · rw [bind_error b1] at h
      exact Or.inl (Except.error.inj h).symm
    rw [bind_ok b1] at h
    obtain ⟨fx, x1, x2⟩ := hf "num_extended_textual_headers" (by simp)
    obtain ⟨ff, y1, y2⟩ := hf "data_sample_format" (by simp)
    obtain ⟨fr, z1, z2⟩ := hf "format_revision_num" (by simp)
    have gx := (b2 fx x1).2
    have gy := (b2 ff y1).2
    have gz := (b2 fr z1).2
    rw [x2] at gx
    rw [y2] at gy
    rw [z2] at gz
    have same : ∀ {f g : Field}, f ∈ B.fields → g ∈ B.fields → f.name = g.name →
        reelField B e s.data f = reelField B e s.data g := by
      intro f g hf1 hg1 hn
      have := (b2 f hf1).2
      rw [hn, (b2 g hg1).2] at this
      exact (Except.ok.inj this).symm
    cases hext : readExtendedHeadersOf binary (usedEncoding encoding s.data) { s with pos := 3600 } with
    | mk x s2 =>
    cases x with
    | error k =>
      rw [bind_error hext] at h
      obtain rfl := Except.error.inj h
      rcases readExtended_error henc' gx hext with hk | hk | hk
      · right; right; left
        refine ⟨hk, fun f hfm hn => ?_⟩
        rintro ⟨l, hl⟩
        rw [same hfm x1 (by rw [hn, x2])] at hl
        rw [readExtended_of_pages (s := { s with pos := 3600 }) gx hl] at hext
        cases hext
      · exact Or.inr (Or.inl hk)
      · exact Or.inl hk
    | ok extended =>
      rw [bind_ok hext] at h
      have hs2 : s2 = { s with pos := 3600 + 3200 * extended.length } := by
        obtain ⟨k, hk⟩ := (reads_extendedOf _ _).ok hext
        rw [hk] at hext ⊢
        have := extendedOf_pos hext
        simp only at this
        rw [this]
      subst hs2
      cases hfmt : dataSampleFormatToSegYType (reelField B e s.data ff) with
      | error k =>
        have hbps : headerBytesPerSample binary = .error .valueError := by
          unfold headerBytesPerSample
          rw [gy]
          simp only [bind, Except.bind]
          unfold bytesPerSample
          rw [hfmt]
        rw [hbps, bind_error (lift_apply _ _)] at h
        exact Or.inl (Except.error.inj h).symm
      | ok t =>
        have hh : HeadersRead encoding B e s textual binary extended t :=
          ⟨hlen, ⟨_, _, _, htext, b1, hext⟩, ⟨_, gy, hfmt⟩⟩
        have hreel : SoundReel (usedEncoding encoding s.data) B e s.data t extended.length := by
          refine ⟨hlen, hpage, fun f hfm => (b2 f hfm).1, ?_, ?_⟩
          · intro f hfm hn
            obtain ⟨p1, p2, n, p3, p4⟩ := extendedOf_pages hext
            rw [gx] at p3
            obtain rfl := Except.ok.inj p3
            rw [same hfm x1 (by rw [hn, x2])]
            exact ⟨extended, rfl, fun i hi => extended_at hext i hi, p4, p2⟩
          · intro f hfm hn
            rw [same hfm y1 (by rw [hn, y2])]
            exact ((C42_format_codes _).1 t).mp hfmt
        have h' : (createReader encoding B T e dim s).1 = .error err := by
          rw [create_text hdim hlen htext]
          unfold afterText
          rw [bind_ok b1, bind_ok hext]
          exact h
        obtain ⟨c1, c2, c3⟩ := C51_opens_partial T e hT encoding B dim hdim s textual binary extended t hh
        rcases (C43_traces T e s.data t.size (3600 + 3200 * extended.length)).1 with ⟨starts, htr⟩ | ⟨starts, stop, q1, q2, q3⟩
        · by_cases hne : starts = []
          · subst hne
            have := c2 htr
            rw [h'] at this
            exact Or.inr (Or.inr (Or.inr (Or.inl ⟨Except.error.inj this, t, _, hreel, htr⟩)))
          · by_cases hrev : reelField B e s.data fr ∈ [0, 1, 100, 256]
            · obtain ⟨rev, hc⟩ := known_revision.mp hrev
              obtain ⟨r, progress, s', hok, -⟩ := c1 starts rev _ hne htr gz hc
              rw [hok] at h'
              cases h'
            · right; right; right; right
              refine ⟨?_, fun hk => hrev (hk fr z1 z2)⟩
              have key := create_eq (T := T) hdim hh
              obtain ⟨c, k, g1, g2⟩ := C43_indexes T e hT t.size { s with pos := 3600 + 3200 * extended.length } starts htr hne
              rw [g1] at key
              simp only at key
              rw [makeReaderOf_error hT hdim hne g2 (err := .segyRevisionError)
                (by unfold extractRevision; rw [gz]; exact unknown_revision hrev)] at key
              rw [key] at h'
              exact (Except.error.inj h').symm
        · have := c3 starts stop q1 q2 q3
          rw [h'] at this
          exact Or.inl (Except.error.inj this)

theorem C97_default_format (e : Endian) : Regular fmtBinaryReelHeader e 400 ∧ HasReelFields fmtBinaryReelHeader := by
  refine ⟨shipped_regular (by decide +kernel) e, ?_⟩
  show ∀ name ∈ ["data_sample_format", "num_extended_textual_headers", "format_revision_num"],
    ∃ f ∈ fmtBinaryReelHeader.fields, f.name = name
  decide +kernel

-- the sample file is sound; zeros are not, nor is the file with an extended textual header that is not there
example : Sound .ebcdic fmtBinaryReelHeader fmtTraceHeaderRev1 .big sampleFile.data :=
  ((C97_opens _ _ _ (C43_rev1_cataloguable _) (C97_default_format .big).1 (C97_default_format .big).2 (some .ebcdic) none _ rfl).mp
    (sampleFile_ok none (by simp))).2

example : ((createReader none fmtBinaryReelHeader fmtTraceHeaderRev1 .big none
      { data := List.replicate 4000 0, pos := 0 }).1.map fun _ => ()) = .error .valueError ∧
    ((createReader (some .ebcdic) fmtBinaryReelHeader fmtTraceHeaderRev1 .big none
      { data := (sampleReel.take 3504) ++ [0, 1] ++ sampleReel.drop 3506, pos := 0 }).1.map fun _ => ()) =
      .error .eofError := by
  decide +kernel

/-! ## C98 the byte order of a file -/

private theorem two_orders {t : IntType} {bs : Bytes} (hl : bs.length = t.size) (h2 : 2 ≤ t.size) {e : Endian} {a b : Int}
    (ha : a ∈ ([1, 2, 3, 5, 8] : List Int)) (hb : b ∈ ([1, 2, 3, 5, 8] : List Int)) (h1 : storedInt e t bs = a)
    {e' : Endian} (he : e' ≠ e) (h2 : storedInt e' t bs = b) : False := by
  have key : ∀ (e : Endian) (v : Int), v ∈ ([1, 2, 3, 5, 8] : List Int) → storedInt e t bs = v →
      1 ≤ bytesNat e bs ∧ bytesNat e bs ≤ 8 := by
    intro e v hv h
    have hlt : bytesNat e bs < 2 ^ (8 * bs.length) := by
      rw [pow_mul]; exact bytesNat_lt e bs
    have hc : ((2 ^ (8 * bs.length) : Nat) : Int) = 2 ^ (8 * bs.length) := by push_cast; rfl
    unfold storedInt at h
    simp only at h
    simp only [List.mem_cons, List.not_mem_nil, or_false] at hv
    split at h <;> omega
  have k1 := key e a ha h1
  have k2 := key e' b hb h2
  clear h1 h2 ha hb key
  have hone : (1 ≤ bigEndianNat bs ∧ bigEndianNat bs ≤ 8) ∧ 1 ≤ bigEndianNat bs.reverse ∧ bigEndianNat bs.reverse ≤ 8 := by
    cases e <;> cases e' <;> first | exact absurd rfl he | exact ⟨k1, k2⟩ | exact ⟨k2, k1⟩
  clear k1 k2
  have h24 : t.size = 2 ∨ t.size = 4 := by
    cases t <;> first | (left; rfl) | (right; rfl) | (exfalso; revert h2; decide)
  rcases h24 with h | h
  · rw [h] at hl
    match bs, hl with
    | [x, y], _ =>
      simp only [bigEndianNat, List.reverse_cons, List.reverse_nil, List.nil_append, List.cons_append, List.foldl_cons,
        List.foldl_nil] at hone
      omega
  · rw [h] at hl
    match bs, hl with
    | [x, y, z, w], _ =>
      simp only [bigEndianNat, List.reverse_cons, List.reverse_nil, List.nil_append, List.cons_append, List.foldl_cons,
        List.foldl_nil] at hone
      omega

private theorem format_code {t : SegYType} {v : Int} (h : formatCode t = some v) : v ∈ ([1, 2, 3, 5, 8] : List Int) := by
  unfold formatCode at h
  split at h <;> first | (obtain rfl := Option.some.inj h; decide) | cases h

/-- No file opens in both byte orders, whatever the other arguments are, if the code of the sample format has more than one
byte. -/
theorem C98_byte_order (B : Format) (hB : ∀ e, Regular B e 400) (f : Field) (hf : f ∈ B.fields)
    (hname : f.name = "data_sample_format") (hsize : 2 ≤ f.value_type.size) (T : Format) (e : Endian)
    (encoding : Option Encoding) (dim : Option Int) (s s' : FileH) (hs : s.pos = 0) (r : Reader) (progress : List ℚ)
    (h : createReader encoding B T e dim s = (.ok (r, progress), s'))
    (T' : Format) (e' : Endian) (he : e' ≠ e) (encoding' : Option Encoding) (dim' : Option Int) :
    ∃ err, (createReader encoding' B T' e' dim' s).1 = .error err := by
  cases h' : createReader encoding' B T' e' dim' s with
  | mk x s2 =>
  cases x with
  | error err => exact ⟨err, rfl⟩
  | ok y =>
  exfalso
  have stored : ∀ {encoding : Option Encoding} {T : Format} {e : Endian} {dim : Option Int} {s' : FileH}
      {y : Reader × List ℚ}, createReader encoding B T e dim s = (.ok y, s') →
      storedInt e f.value_type.segy (B.fieldBytes f ((s.data.drop 3200).take 400)) ∈ ([1, 2, 3, 5, 8] : List Int) := by
    intro encoding T e dim s' y h
    obtain ⟨-, h2⟩ := C71_reel_headers encoding B T e (hB e) dim s s' hs y.1 y.2 h
    obtain ⟨t, code, -, g2, g3, -⟩ := C71_sample_format encoding B T e dim s s' y.1 y.2 h
    have := h2.fields f hf
    rw [hname, g2] at this
    rw [← Except.ok.inj this]
    exact format_code g3
  obtain ⟨-, -, -, -, -, -, -, -, -, -, -, -, -, -, -, -, -, -, -, hlen⟩ := createReader_ok h
  have hl : (B.fieldBytes f ((s.data.drop 3200).take 400)).length = f.value_type.segy.size := by
    have hfit : ∀ f ∈ B.fields, f.offset - B.startOffset + f.value_type.size ≤ (400 : Nat) := by
      obtain ⟨pk, hpk⟩ := (hB e).packs
      unfold makeHeaderPacker at hpk
      obtain ⟨x, hx, -⟩ := res_bind_ok hpk
      rw [(hB e).length] at hx
      exact (accepts_of_ok hx).fits 400 rfl
    have h1 := hfit f hf
    have h2 := (hB e).afterStart f hf
    show _ = f.value_type.size
    unfold Format.fieldBytes slice
    rw [List.length_take, List.length_drop, List.length_take, List.length_drop]
    omega
  exact two_orders hl hsize (stored h) (stored h') rfl he rfl

/-- With the default format of the binary reel header. -/
theorem C98_default (T : Format) (e : Endian) (encoding : Option Encoding) (dim : Option Int) (s s' : FileH)
    (hs : s.pos = 0) (r : Reader) (progress : List ℚ)
    (h : createReader encoding fmtBinaryReelHeader T e dim s = (.ok (r, progress), s'))
    (T' : Format) (e' : Endian) (he : e' ≠ e) (encoding' : Option Encoding) (dim' : Option Int) :
    ∃ err, (createReader encoding' fmtBinaryReelHeader T' e' dim' s).1 = .error err :=
  C98_byte_order _ (fun e => (C97_default_format e).1) ⟨"data_sample_format", vtDataSampleFormatField, 3225, 5⟩
    (by decide +kernel) rfl (by decide +kernel) T e encoding dim s s' hs r progress h T' e' he encoding' dim'

example : ∃ err, (createReader (some .ebcdic) fmtBinaryReelHeader fmtTraceHeaderRev1 .little none sampleFile).1 =
    .error err := by
  obtain ⟨r, progress, s', h⟩ := sampleFile_ok none (by simp)
  exact C98_default _ _ _ _ _ _ rfl r progress h _ _ (by decide) _ _

end Segpy.Props
