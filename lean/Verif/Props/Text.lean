import Verif.Lemmas.TextHeader

/-!
# Properties C35–C36 and C38–C40: codecs, textual headers and extended textual headers
-/

namespace Segpy.Props
open Segpy.Spec FileM

/-! ## C35 codecs -/

/-- Encoding succeeds exactly on strings of representable characters, otherwise it raises `UnicodeEncodeError`. -/
theorem C35_encode_iff (enc : Encoding) (henc : enc ≠ .other) (s : PyStr) :
    (Encodable enc s → ∃ bs, encode enc s = .ok bs) ∧ (¬ Encodable enc s → encode enc s = .error .unicodeError) := by
  refine ⟨(encodable_iff enc henc s).mp, fun h => ?_⟩
  cases hh : encode enc s with
  | ok bs => exact absurd ((encodable_iff enc henc s).mpr ⟨bs, hh⟩) h
  | error e => rw [encode_error henc hh]

/-- What was encoded decodes to the same string, and one byte is used per character. -/
theorem C35_decode_encode (enc : Encoding) (s : PyStr) (bs : Bytes) (h : encode enc s = .ok bs) :
    decode enc bs = .ok s ∧ bs.length = s.length := ⟨decode_encode h, encode_length h⟩

/-- What was decoded encodes to the same bytes, and one character is made per byte. -/
theorem C35_encode_decode (enc : Encoding) (s : PyStr) (bs : Bytes) (h : decode enc bs = .ok s) :
    encode enc s = .ok bs ∧ s.length = bs.length := ⟨encode_decode h, decode_length h⟩

/-- Every byte string decodes under cp037. -/
theorem C35_ebcdic_total (bs : Bytes) : ∃ s, decode .ebcdic bs = .ok s :=
  ⟨_, mapM_ok_of_forall (g := fun b => Char.ofNat (cp037DecodeTable.getD b.toNat 0)) fun _ _ => rfl⟩

/-- ASCII decoding fails exactly on byte strings with a byte from 128 on; what it yields has the same code points. -/
theorem C35_ascii_iff (bs : Bytes) :
    decode .ascii bs =
      if ∀ b ∈ bs, b.toNat < 128 then .ok (bs.map fun b => Char.ofNat b.toNat) else .error .unicodeError := by
  split
  · rename_i h
    exact mapM_ok_of_forall fun b hb => by simp only [decodeByte]; rw [if_pos (h b hb)]
  · rename_i h
    push Not at h
    obtain ⟨b, hb, hge⟩ := h
    cases hh : decode .ascii bs with
    | ok s =>
      have := mapM_raises (f := decodeByte .ascii) hb (by
        simp only [decodeByte]; rw [if_neg (by omega)]; rfl)
      unfold decode at hh
      rw [hh] at this; cases this
    | error e =>
      obtain ⟨b, _, he⟩ := mapM_error hh
      simp only [decodeByte] at he
      split at he <;> cases he
      rfl

example : encode .ebcdic "AZaz09 ".toList = .ok [0xC1, 0xE9, 0x81, 0xA9, 0xF0, 0xF9, 0x40] := by decide +kernel
example : decode .ebcdic [0xC3, 0x40, 0xF1, 0x0D, 0x25] = .ok "C 1\r\n".toList := by decide +kernel
example : decode .ascii [67, 200] = .error .unicodeError := by decide +kernel
example : encode .ascii ['é'] = .error .unicodeError := by decide +kernel

/-! ## C36 textual reel header -/

/-- Writing either raises before anything is written — exactly when one of the first forty lines cannot be encoded —
or stores 3200 bytes at the current position, and reading there gives the forty cards back. -/
theorem C36_write (lines : List PyStr) (enc : Encoding) (henc : enc ≠ .other) (s : FileH) (hs : s.limit = none) :
    ((∃ i, i < 40 ∧ ¬ Encodable enc (lines.getD i [])) ∧
      writeTextualReelHeader lines enc s = (.error .unicodeError, s)) ∨
    ((∀ i, i < 40 → Encodable enc (lines.getD i [])) ∧
      ∃ bs s', bs.length = 3200 ∧ writeTextualReelHeader lines enc s = (.ok (), s') ∧ Stored s s' bs ∧
        readTextualReelHeader enc { s' with pos := s.pos } = (.ok (fortyCards lines), s')) := by
  have hsup := (isSupported_iff enc).mpr henc
  unfold writeTextualReelHeader
  simp only [hsup, Bool.not_true, Bool.false_eq_true, if_false]
  rw [padTo_eq]
  cases hm : ((List.range 40).map fun i => lines.getD i []).mapM (encodeCard enc) with
  | error e =>
    left
    obtain ⟨l, hl, he⟩ := mapM_error hm
    obtain ⟨i, hi, rfl⟩ := List.mem_map.mp hl
    obtain ⟨h1, h2⟩ := encodeCard_error henc he
    refine ⟨⟨i, List.mem_range.mp hi, h2⟩, ?_⟩
    rw [bind_error (show FileM.lift _ s = _ from rfl), h1]
  | ok bss =>
    right
    have hf := (mapM_ok_iff _ _ _).mp hm
    have henc_cards : (fortyCards lines).mapM (encode enc) = .ok bss := by
      rw [mapM_ok_iff]
      have : fortyCards lines = ((List.range 40).map fun i => lines.getD i []).map card := by
        rw [List.map_map]; rfl
      rw [this, List.forall₂_map_left_iff]
      exact hf.imp fun _ _ h => encodeCard_ok h
    have hl80 : ∀ c ∈ fortyCards lines, c.length = 80 := by
      intro c hc
      obtain ⟨i, _, rfl⟩ := List.mem_map.mp hc
      exact card_length _
    have h40 : (fortyCards lines).length = 40 := by simp [fortyCards]
    have hlen := (cards_length henc_cards hl80).2
    rw [h40] at hlen
    refine ⟨?_, bss.flatten, ?_⟩
    · intro i hi
      by_contra hn
      cases hh : encodeCard enc (lines.getD i []) with
      | error e =>
        have := mapM_raises (f := encodeCard enc) (a := lines.getD i [])
          (l := (List.range 40).map fun i => lines.getD i []) (List.mem_map.mpr ⟨i, List.mem_range.mpr hi, rfl⟩) (by rw [hh]; rfl)
        rw [hm] at this; cases this
      | ok b =>
        apply hn
        unfold encodeCard at hh
        simp only [bind, Except.bind] at hh
        cases h1 : encode enc (lines.getD i []) with
        | error e => rw [h1] at hh; cases hh
        | ok b' => exact (encodable_iff enc henc _).mpr ⟨b', h1⟩
    · refine ⟨{ s with data := overwrite s.data s.pos bss.flatten, pos := s.pos + bss.flatten.length }, hlen, ?_, ?_, ?_⟩
      · rw [bind_ok (show FileM.lift _ s = _ from rfl)]
        rw [if_neg (by rw [hlen]; decide), write_apply hs]
      · exact ⟨overwrite_drop _ _ _, fun h => overwrite_take _ _ _ h, overwrite_after _ _ _, rfl⟩
      · have hge : s.pos + 3200 ≤ (overwrite s.data s.pos bss.flatten).length := by
          rw [overwrite_length _ _ _ (by intro h0; rw [h0] at hlen; simp at hlen), hlen]; omega
        rw [readTextual_apply]
        simp only
        rw [if_pos hge]
        have := overwrite_drop s.data bss.flatten s.pos
        rw [hlen] at this
        rw [show (80 * 40 : Nat) = 3200 from rfl] at this
        rw [this, decodeCards_cards henc_cards hl80, hlen]

/-- An unsupported encoding is rejected before anything is written. -/
theorem C36_unsupported (lines : List PyStr) (s : FileH) :
    writeTextualReelHeader lines .other s = (.error .unsupportedEncodingError, s) := rfl

/-- Reading at a position with fewer than 3200 bytes left raises `EOFError`. -/
theorem C36_short (enc : Encoding) (s : FileH) (h : s.data.length < s.pos + 3200) :
    ∃ s', readTextualReelHeader enc s = (.error .eofError, s') ∧ s'.data = s.data := by
  rw [readTextual_apply, if_neg (by omega)]
  exact ⟨_, rfl, rfl⟩

/-- Every cp037 header of 3200 bytes can be read, giving forty lines of eighty characters, and writing them back
stores the same bytes. -/
theorem C36_read_ebcdic (s : FileH) (h : s.pos + 3200 ≤ s.data.length) :
    ∃ lines, readTextualReelHeader .ebcdic s = (.ok lines, { s with pos := s.pos + 3200 }) ∧
      lines.length = 40 ∧ (∀ l ∈ lines, l.length = 80) ∧
      lines.flatten.mapM (encodeChar .ebcdic) = .ok ((s.data.drop s.pos).take 3200) := by
  rw [readTextual_apply, if_pos h]
  have hlen : ((s.data.drop s.pos).take 3200).length = 40 * 80 := by
    rw [List.length_take, List.length_drop]; omega
  obtain ⟨b1, b2, b3⟩ := batchedLoop_exact 80 (by omega) none 40 _ hlen
  unfold decodeCards batched
  rw [if_neg (by decide)]
  simp only [bind, Except.bind]
  rw [show (CARD_LENGTH : Int).toNat = 80 from rfl]
  generalize batchedLoop 80 none [] ((s.data.drop s.pos).take 3200) = bss at b1 b2 b3
  have hm : bss.mapM (decode .ebcdic) = .ok (bss.map fun b => b.map fun x => Char.ofNat (cp037DecodeTable.getD x.toNat 0)) :=
    mapM_ok_of_forall fun b _ => mapM_ok_of_forall fun _ _ => rfl
  refine ⟨_, by rw [hm], by simp [b1], ?_, ?_⟩
  · intro l hl
    obtain ⟨b, hb, rfl⟩ := List.mem_map.mp hl
    rw [List.length_map]; exact b2 b hb
  · rw [← b3]
    have : (bss.map fun b => b.map fun x => Char.ofNat (cp037DecodeTable.getD x.toNat 0)).flatten =
        bss.flatten.map fun x => Char.ofNat (cp037DecodeTable.getD x.toNat 0) := by
      rw [List.map_flatten]
    rw [this]
    have hd : bss.flatten.mapM (decodeByte .ebcdic) =
        .ok (bss.flatten.map fun x => Char.ofNat (cp037DecodeTable.getD x.toNat 0)) :=
      mapM_ok_of_forall fun _ _ => rfl
    exact mapM_inverse (fun _ _ => encode_decodeByte) hd

example : (fortyCards ["C 1 CLIENT".toList]).length = 40 ∧
    (fortyCards ["C 1 CLIENT".toList])[0]? = some (card "C 1 CLIENT".toList) := by decide +kernel
example : (writeTextualReelHeader ["C 1 CLIENT".toList, "C 2".toList] .ebcdic ⟨[1, 2], 2, none⟩).2.data.length = 3202 := by
  decide +kernel
example : writeTextualReelHeader ["C 1".toList, ['é']] .ascii ⟨[], 0, none⟩ = (.error .unicodeError, ⟨[], 0, none⟩) := by
  decide +kernel

/-! ## C38 formatting of extended textual headers -/

private theorem chunks_wrapped (fuel : Nat) : ∀ (line : PyStr), line.length ≤ fuel →
    WrappedAt78 line ((widthChunks 78 fuel line).map fun piece => padAndTerminateHeaderLine piece 78) := by
  induction fuel with
  | zero =>
    intro line h
    have : line = [] := List.eq_nil_of_length_eq_zero (by omega)
    subst this
    exact ⟨by simp [widthChunks], 0, by omega, by simp [widthChunks]⟩
  | succ fuel ih =>
    intro line h
    unfold widthChunks
    split
    · rename_i he
      rw [List.isEmpty_iff] at he
      subst he
      exact ⟨by simp, 0, by omega, by simp⟩
    · rename_i he
      rw [List.isEmpty_iff] at he
      have hpos : 0 < line.length := List.length_pos_of_ne_nil he
      obtain ⟨i1, m, hm, i2⟩ := ih (line.drop 78) (by rw [List.length_drop]; omega)
      have hbody : (padAndTerminateHeaderLine (line.take 78) 78).take 78 =
          line.take 78 ++ List.replicate (78 - line.length) ' ' := by
        unfold padAndTerminateHeaderLine ljust
        rw [List.take_left']
        · rw [List.length_take]
          congr 2
          omega
        · rw [List.length_append, List.length_take, List.length_replicate]; omega
      refine ⟨?_, ?_⟩
      · intro c hc
        rw [List.map_cons] at hc
        rcases List.mem_cons.mp hc with rfl | hc
        · unfold padAndTerminateHeaderLine ljust HEADER_NEWLINE
          have hl : (line.take 78 ++ List.replicate (78 - (line.take 78).length) ' ').length = 78 := by
            rw [List.length_append, List.length_take, List.length_replicate]; omega
          exact ⟨by rw [List.length_append, hl]; rfl, List.drop_left' hl⟩
        · exact i1 c hc
      · rw [List.map_cons, List.map_cons, List.flatten_cons, i2, hbody]
        by_cases h78 : line.length ≤ 78
        · have hd : line.drop 78 = [] := List.drop_eq_nil_of_le h78
          have hm0 : m = 0 := by
            rw [hd, List.nil_append] at i2
            have h0 : widthChunks 78 fuel [] = [] := by cases fuel <;> simp [widthChunks]
            rw [h0] at i2
            have := congrArg List.length i2
            simpa using this.symm
          refine ⟨78 - line.length, by omega, ?_⟩
          rw [hd, hm0, List.take_of_length_le h78]
          simp
        · refine ⟨m, hm, ?_⟩
          rw [show 78 - line.length = 0 by omega, List.replicate_zero, List.append_nil, ← List.append_assoc,
            List.take_append_drop]

private theorem blank_eq : padAndTerminateHeaderLine [] 78 = blankCard := rfl

private theorem groups_wrapped (lines : List PyStr) :
    List.Forall₂ WrappedAt78 lines (lines.map fun l =>
      (widthChunks 78 l.length l).map fun piece => padAndTerminateHeaderLine piece 78) := by
  induction lines with
  | nil => exact .nil
  | cons l ls ih => exact .cons (chunks_wrapped l.length l le_rfl) ih

private theorem format_pages (text : PyStr) (enc : Encoding) (henc : enc ≠ .other) :
    ∃ pages, formatExtendedPages text enc = .ok pages ∧ (∀ page ∈ pages, page.length = 40) ∧
      ∃ groups : List (List PyStr), List.Forall₂ WrappedAt78 (splitlines text) groups ∧
        ∃ k, k < 40 ∧ pages.flatten = groups.flatten ++ List.replicate k blankCard := by
  unfold formatExtendedPages
  simp only [(isSupported_iff enc).mpr henc, Bool.not_true, Bool.false_eq_true, if_false]
  unfold batched
  rw [if_neg (by decide)]
  rw [show CARD_LENGTH - HEADER_NEWLINE.length = 78 from rfl, show (40 : Int).toNat = 40 from rfl]
  obtain ⟨h1, k, hk, h2⟩ := batchedLoop_pad 40 (padAndTerminateHeaderLine [] 78) []
    ((splitlines text).flatMap fun original_line =>
      (widthChunks 78 original_line.length original_line).map fun piece => padAndTerminateHeaderLine piece 78)
    (by decide)
  exact ⟨_, rfl, h1, _, groups_wrapped _, k, hk, by rw [h2, blank_eq, List.nil_append, List.flatMap_def]⟩

/-- The pages hold forty lines of eighty characters ending in CR LF; their lines are the lines of the text in order,
each wrapped at 78 characters, and then fewer than forty blank cards. -/
theorem C38_pages (text : PyStr) (enc : Encoding) (henc : enc ≠ .other) :
    ∃ pages, formatExtendedTextualHeader text enc false = .ok pages ∧
      (∀ page ∈ pages, page.length = 40 ∧ ∀ l ∈ page, l.length = 80 ∧ l.drop 78 = ['\r', '\n']) ∧
      ∃ groups : List (List PyStr), List.Forall₂ WrappedAt78 (splitlines text) groups ∧
        ∃ k, k < 40 ∧ pages.flatten = groups.flatten ++ List.replicate k blankCard := by
  obtain ⟨pages, h1, h2, groups, h3, k, hk, h4⟩ := format_pages text enc henc
  refine ⟨pages, ?_, ?_, groups, h3, k, hk, h4⟩
  · simp [formatExtendedTextualHeader, h1, bind, Except.bind, pure, Except.pure]
  · intro page hp
    refine ⟨h2 page hp, fun l hl => ?_⟩
    have hmem : l ∈ pages.flatten := List.mem_flatten.mpr ⟨page, hp, hl⟩
    rw [h4] at hmem
    rcases List.mem_append.mp hmem with hm | hm
    · obtain ⟨g, hg, hlg⟩ := List.mem_flatten.mp hm
      clear h4 hmem hm
      generalize splitlines text = ls at h3
      induction h3 with
      | nil => cases hg
      | cons w _ ih =>
        rcases List.mem_cons.mp hg with rfl | hg
        · exact w.1 l hlg
        · exact ih hg
    · rw [List.eq_of_mem_replicate hm]; exact ⟨by decide +kernel, by decide +kernel⟩

/-- With `include_text_stop` the same pages are followed by one page whose first line holds the stop stanza. -/
theorem C38_stop_page (text : PyStr) (enc : Encoding) (henc : enc ≠ .other) (pages : List (List PyStr))
    (h : formatExtendedTextualHeader text enc false = .ok pages) :
    ∃ stop, formatExtendedTextualHeader text enc true = .ok (pages ++ [stop]) ∧ stop.length = 40 ∧ Stops stop ∧
      (∀ l ∈ stop, l.length = 80 ∧ l.drop 78 = ['\r', '\n']) := by
  have hp : formatExtendedPages text enc = .ok pages := by
    unfold formatExtendedTextualHeader at h
    cases hh : formatExtendedPages text enc with
    | error e => rw [hh] at h; cases h
    | ok p => rw [hh] at h; simpa [bind, Except.bind, pure, Except.pure] using h
  have hs : formatExtendedPages END_TEXT_STANZA enc =
      .ok [padAndTerminateHeaderLine END_TEXT_STANZA 78 :: List.replicate 39 blankCard] := by
    cases enc with
    | other => exact absurd rfl henc
    | ascii => decide +kernel
    | ebcdic => decide +kernel
  refine ⟨padAndTerminateHeaderLine END_TEXT_STANZA 78 :: List.replicate 39 blankCard, ?_, by simp, ?_, ?_⟩
  · simp [formatExtendedTextualHeader, hp, hs, bind, Except.bind, pure, Except.pure]
  · unfold Stops
    rw [← isSubstring_iff]
    decide +kernel
  · decide +kernel

/-- Lines separated by line feeds are kept apart: the lines of a text made of lines that contain no line break are those
lines. -/
theorem C38_splitlines (lines : List PyStr) (h : ∀ l ∈ lines, ∀ c ∈ l, isLineBreak c = false) :
    splitlines (lines.flatMap fun l => l ++ ['\n']) = lines := by
  have step : ∀ (l cur rest : PyStr), (∀ c ∈ l, isLineBreak c = false) →
      splitlinesLoop cur (l ++ '\n' :: rest) = (cur.reverse ++ l) :: splitlinesLoop [] rest := by
    intro l
    induction l with
    | nil =>
      intro cur rest _
      rw [List.nil_append, splitlinesLoop, if_pos (by decide), List.append_nil]
      intro _ h; cases h
    | cons c cs ih =>
      intro cur rest hl
      have hc := hl c (by simp)
      rw [List.cons_append, splitlinesLoop, if_neg (by simp [hc]), ih _ _ fun x hx => hl x (by simp [hx])]
      · simp
      · intro rest' hcr
        rw [hcr] at hc
        exact absurd hc (by decide)
  unfold splitlines
  induction lines with
  | nil => rfl
  | cons l ls ih =>
    rw [List.flatMap_cons, List.append_assoc, List.singleton_append, step l [] _ (h l (by simp)),
      ih fun x hx => h x (by simp [hx])]
    simp

/-- Negation of "universal newlines will be preserved" (the docstring): blank lines of the text disappear. -/
theorem C38_blank_lines_lost :
    formatExtendedTextualHeader "a\n\n\nb".toList .ascii false = formatExtendedTextualHeader "a\nb".toList .ascii false ∧
    formatExtendedTextualHeader "\n".toList .ascii false = .ok [] := by
  decide +kernel

/-- What is kept of the text for all inputs: the text's non-blank lines.  Missing from the full claim: blank lines
(`C38_blank_lines_lost`) and trailing blanks, which padding hides. -/
theorem C38_text_kept_partial (text : PyStr) (enc : Encoding) (henc : enc ≠ .other) (pages : List (List PyStr))
    (h : formatExtendedTextualHeader text enc false = .ok pages) :
    ∃ groups : List (List PyStr),
      List.Forall₂ (fun l g => WrappedAt78 l g ∧ g ≠ []) ((splitlines text).filter (· ≠ [])) groups ∧
        ∃ k, k < 40 ∧ pages.flatten = groups.flatten ++ List.replicate k blankCard := by
  obtain ⟨pages', h1, _, groups, h3, k, hk, h4⟩ := C38_pages text enc henc
  rw [h1] at h; cases h
  suffices hh : ∃ groups' : List (List PyStr),
      List.Forall₂ (fun l g => WrappedAt78 l g ∧ g ≠ []) ((splitlines text).filter (· ≠ [])) groups' ∧
      groups'.flatten = groups.flatten by
    obtain ⟨g', hg1, hg2⟩ := hh
    exact ⟨g', hg1, k, hk, by rw [h4, hg2]⟩
  clear h4 h1
  generalize splitlines text = ls at h3
  induction h3 with
  | nil => exact ⟨[], .nil, rfl⟩
  | @cons l g ls gs w _ ih =>
    obtain ⟨g', hg1, hg2⟩ := ih
    by_cases hl : l = []
    · subst hl
      have hg : g = [] := by
        cases g with
        | nil => rfl
        | cons c cs =>
          exfalso
          obtain ⟨hc, m, hm, he⟩ := w
          have := congrArg List.length he
          have hc0 := (hc c (by simp)).1
          rw [List.map_cons, List.flatten_cons, List.length_append, List.length_take, hc0] at this
          simp at this
          omega
      exact ⟨g', by simpa using hg1, by rw [hg2, hg]; simp⟩
    · refine ⟨g :: g', ?_, by simp [hg2]⟩
      rw [List.filter_cons_of_pos (by simpa using hl)]
      refine .cons ⟨w, ?_⟩ hg1
      rintro rfl
      obtain ⟨_, m, _, he⟩ := w
      simp at he
      exact hl he.1

/-- Formatting does not introduce characters that cannot be encoded, so the pages of an encodable text can be written
as extended headers. -/
theorem C38_writable (text : PyStr) (enc : Encoding) (henc : enc ≠ .other) (ht : Encodable enc text) (stop : Bool)
    (pages : List (List PyStr)) (h : formatExtendedTextualHeader text enc stop = .ok pages) :
    ∀ page ∈ pages, IsPage enc page := by
  -- characters of lines are characters of the text
  have hsplit : ∀ (t cur : PyStr), ∀ l ∈ splitlinesLoop cur t, ∀ c ∈ l, c ∈ cur ∨ c ∈ t := by
    intro t cur
    induction cur, t using splitlinesLoop.induct with
    | case1 cur h => intro l hl; rw [splitlinesLoop, if_pos h] at hl; cases hl
    | case2 cur h =>
      intro l hl c hc
      rw [splitlinesLoop, if_neg h] at hl
      rw [List.mem_singleton] at hl; subst hl
      exact Or.inl (List.mem_reverse.mp hc)
    | case3 cur rest ih =>
      intro l hl c hc
      rw [splitlinesLoop] at hl
      rcases List.mem_cons.mp hl with rfl | hl
      · exact Or.inl (List.mem_reverse.mp hc)
      · rcases ih l hl c hc with h | h
        · cases h
        · exact Or.inr (by simp [h])
    | case4 cur x rest hnot hb ih =>
      intro l hl c hc
      rw [splitlinesLoop, if_pos hb] at hl
      · rcases List.mem_cons.mp hl with rfl | hl
        · exact Or.inl (List.mem_reverse.mp hc)
        · rcases ih l hl c hc with h | h
          · cases h
          · exact Or.inr (by simp [h])
      · exact hnot
    | case5 cur x rest hnot hb ih =>
      intro l hl c hc
      rw [splitlinesLoop, if_neg hb] at hl
      · rcases ih l hl c hc with h | h
        · rcases List.mem_cons.mp h with rfl | h
          · exact Or.inr (by simp)
          · exact Or.inl h
        · exact Or.inr (by simp [h])
      · exact hnot
  have hplain : ∀ (t : PyStr) (ps : List (List PyStr)), Encodable enc t → formatExtendedPages t enc = .ok ps →
      ∀ page ∈ ps, IsPage enc page := by
    intro t ps hte hps page hp
    have hf : formatExtendedTextualHeader t enc false = .ok ps := by
      simp [formatExtendedTextualHeader, hps, bind, Except.bind, pure, Except.pure]
    obtain ⟨pages', h1, h2, groups, h3, k, hk, h4⟩ := C38_pages t enc henc
    rw [h1] at hf; cases hf
    have hlim : ∀ P : Char → Prop, (∀ c ∈ t, P c) → P ' ' → P '\r' → P '\n' → ∀ l ∈ page, ∀ c ∈ l, P c := by
      intro P hP hsp hcr hlf l hl c hc
      have hmem : l ∈ ps.flatten := List.mem_flatten.mpr ⟨page, hp, hl⟩
      have h80 := (h2 page hp).2 l hl
      rw [← List.take_append_drop 78 l] at hc
      rcases List.mem_append.mp hc with hc | hc
      · rw [h4] at hmem
        rcases List.mem_append.mp hmem with hm | hm
        · obtain ⟨g, hg, hlg⟩ := List.mem_flatten.mp hm
          have : ∃ line ∈ splitlines t, WrappedAt78 line g := by
            clear h4 hmem hm
            generalize splitlines t = ls at h3
            induction h3 with
            | nil => cases hg
            | cons w _ ih =>
              rcases List.mem_cons.mp hg with rfl | hg
              · exact ⟨_, by simp, w⟩
              · obtain ⟨line, hline, hw⟩ := ih hg
                exact ⟨line, by simp [hline], hw⟩
          obtain ⟨line, hline, _, m, _, hw⟩ := this
          have hcm : c ∈ (g.map (List.take 78)).flatten :=
            List.mem_flatten.mpr ⟨l.take 78, List.mem_map.mpr ⟨l, hlg, rfl⟩, hc⟩
          rw [hw] at hcm
          rcases List.mem_append.mp hcm with hcm | hcm
          · rcases hsplit t [] line hline c hcm with h | h
            · cases h
            · exact hP c h
          · rw [List.eq_of_mem_replicate hcm]; exact hsp
        · rw [List.eq_of_mem_replicate hm] at hc
          have : c ∈ List.replicate 78 ' ' := by
            rw [show blankCard.take 78 = List.replicate 78 ' ' from by decide +kernel] at hc
            exact hc
          rw [List.eq_of_mem_replicate this]; exact hsp
      · rw [h80.2] at hc
        simp only [List.mem_cons, List.not_mem_nil, or_false] at hc
        rcases hc with rfl | rfl
        · exact hcr
        · exact hlf
    refine ⟨(h2 page hp).1, fun l hl => ⟨((h2 page hp).2 l hl).1, ?_⟩⟩
    cases enc with
    | other => exact absurd rfl henc
    | ascii => exact hlim (fun c => c.toNat < 128) hte (by decide) (by decide) (by decide) l hl
    | ebcdic => exact hlim (fun c => c.toNat < 256) hte (by decide) (by decide) (by decide) l hl
  unfold formatExtendedTextualHeader at h
  cases hp : formatExtendedPages text enc with
  | error e => rw [hp] at h; cases h
  | ok ps =>
    rw [hp] at h
    simp only [bind, Except.bind, pure, Except.pure] at h
    cases stop with
    | false =>
      simp only [Bool.false_eq_true, if_false, Except.ok.injEq] at h
      subst h
      exact hplain text ps ht hp
    | true =>
      simp only [if_true] at h
      cases hs : formatExtendedPages END_TEXT_STANZA enc with
      | error e => rw [hs] at h; cases h
      | ok ss =>
        rw [hs] at h
        have hst : Encodable enc END_TEXT_STANZA := by
          cases enc with
          | other => exact absurd rfl henc
          | ascii => show ∀ c ∈ END_TEXT_STANZA, c.toNat < 128; decide +kernel
          | ebcdic => show ∀ c ∈ END_TEXT_STANZA, c.toNat < 256; decide +kernel
        cases ss with
        | nil => cases h
        | cons s0 ss' =>
          simp only [Except.ok.injEq] at h
          subst h
          intro page hpage
          rcases List.mem_append.mp hpage with hpage | hpage
          · exact hplain text ps ht hp page hpage
          · rw [List.mem_singleton] at hpage; subst hpage
            exact hplain _ _ hst hs _ (by simp)

/-- An unsupported encoding is rejected. -/
theorem C38_unsupported (text : PyStr) (stop : Bool) :
    formatExtendedTextualHeader text .other stop = .error .unsupportedEncodingError := rfl

example : ((formatExtendedTextualHeader "first\nsecond".toList .ascii true).toOption.map
    fun ps => ps.map List.length) = some [40, 40] := by decide +kernel
example : WrappedAt78 "hello".toList ["hello".toList ++ List.replicate 73 ' ' ++ ['\r', '\n']] := by
  refine ⟨by decide +kernel, 73, by omega, by decide +kernel⟩

/-! ## C39 extended headers round trip -/

private theorem stops_iff (page : List PyStr) : Stops page ↔ StopPage page := Iff.rfl

private theorem pages_encoded {enc : Encoding} (henc : enc ≠ .other) (pages : List (List PyStr))
    (hp : ∀ p ∈ pages, IsPage enc p) : ∃ ess, pages.mapM (encodeExtPage enc) = .ok ess := by
  cases h : pages.mapM (encodeExtPage enc) with
  | ok ess => exact ⟨ess, rfl⟩
  | error e =>
    obtain ⟨p, hpm, he⟩ := mapM_error h
    exact absurd (hp p hpm) (encodeExtPage_error henc he).2

private theorem write_ext_ok {enc : Encoding} (henc : enc ≠ .other) {pages : List (List PyStr)}
    {ess : List (List Bytes)} (h : pages.mapM (encodeExtPage enc) = .ok ess) (s : FileH) (hs : s.limit = none) :
    writeExtendedTextualHeaders pages enc s =
      (.ok (), { s with data := overwrite s.data 3600 (pagesBytes ess), pos := 3600 + (pagesBytes ess).length }) := by
  unfold writeExtendedTextualHeaders
  simp only [(isSupported_iff enc).mpr henc, Bool.not_true, Bool.false_eq_true, if_false]
  rw [bind_ok (show FileM.seek (REEL_HEADER_NUM_BYTES : Nat) s = _ from seek_apply _ s), h]
  rw [bind_ok (show FileM.lift (Except.ok ess) _ = _ from rfl), writeExtPages_apply h { s with pos := REEL_HEADER_NUM_BYTES } hs]
  rfl

/-- Well-formed pages are stored from byte 3600 on, leaving the file positioned after them; reading with the matching
count gives them back if no page but the last has the stop stanza in its first line; reading with a negative count gives
them back if moreover the last one has it.  In both cases the file is left positioned after the pages. -/
theorem C39_round_trip (pages : List (List PyStr)) (enc : Encoding) (henc : enc ≠ .other)
    (hp : ∀ p ∈ pages, IsPage enc p) (s : FileH) (hs : s.limit = none) (hlen : 3600 ≤ s.data.length) :
    ∃ bs s', bs.length = 3200 * pages.length ∧ writeExtendedTextualHeaders pages enc s = (.ok (), s') ∧
      Stored { s with pos := 3600 } s' bs ∧
      ∀ anywhere : Nat, (∀ p ∈ pages.dropLast, ¬ Stops p) →
        readExtendedTextualHeaders pages.length enc { s' with pos := anywhere } = (.ok pages, s') ∧
        ((∃ p, pages.getLast? = some p ∧ Stops p) → ∀ n : Int, n < 0 →
          readExtendedTextualHeaders n enc { s' with pos := anywhere } = (.ok pages, s')) := by
  obtain ⟨ess, he⟩ := pages_encoded henc pages hp
  have hbl := pagesBytes_length he
  refine ⟨pagesBytes ess, { s with data := overwrite s.data 3600 (pagesBytes ess), pos := 3600 + (pagesBytes ess).length },
    hbl, write_ext_ok henc he s hs, ?_, ?_⟩
  · exact ⟨overwrite_drop _ _ _, fun h => overwrite_take _ _ _ h, overwrite_after _ _ _, rfl⟩
  intro anywhere hstop
  have hdata : ∃ pre post : Bytes, overwrite s.data 3600 (pagesBytes ess) = pre ++ pagesBytes ess ++ post ∧
      pre.length = 3600 := by
    refine ⟨s.data.take 3600, s.data.drop (3600 + (pagesBytes ess).length), ?_, by rw [List.length_take]; omega⟩
    unfold overwrite
    split
    · rename_i h0
      rw [List.isEmpty_iff] at h0
      rw [h0]; simp
    · simp [Nat.sub_eq_zero_of_le hlen]
  obtain ⟨pre, post, hd, hpre⟩ := hdata
  generalize overwrite s.data 3600 (pagesBytes ess) = data at hd
  constructor
  · unfold readExtendedTextualHeaders
    rw [bind_ok (show FileM.seek (REEL_HEADER_NUM_BYTES : Nat) _ = _ from seek_apply _ _), if_neg (by omega)]
    unfold readExtendedHeadersCounted
    rw [if_neg (by omega), Int.toNat_natCast]
    rw [readCounted_loop pages.length he 0 [] pre post _ hd hpre.symm (by omega) hstop]
    simp only [List.nil_append, hbl]
    rfl
  · intro hlast n hn
    unfold readExtendedTextualHeaders
    rw [bind_ok (show FileM.seek (REEL_HEADER_NUM_BYTES : Nat) _ = _ from seek_apply _ _), if_pos hn]
    unfold readExtendedHeadersUntilEnd
    rw [readUntil_loop he _ [] pre post _ hd hpre.symm ?_ hstop hlast]
    · simp only [List.nil_append, hbl]
      rfl
    · show pages.length ≤ data.length + 1
      rw [hd]
      simp only [List.length_append, hbl]
      omega

/-- Reading with a negative count always ends: with pages, with `EOFError`, or with a decoding error. -/
theorem C39_until_end_terminates (enc : Encoding) (henc : enc ≠ .other) (n : Int) (s : FileH) :
    (readExtendedTextualHeaders n enc s).1 ≠ .error .nonTermination := by
  unfold readExtendedTextualHeaders
  rw [bind_ok (show FileM.seek (REEL_HEADER_NUM_BYTES : Nat) _ = _ from seek_apply _ _)]
  split
  · exact readUntil_fuel enc _ _ _ (by simp only; omega)
  · rename_i hn
    unfold readExtendedHeadersCounted
    rw [if_neg hn]
    generalize hN : n.toNat = N
    have : ∀ (left i : Nat) (acc : List (List PyStr)) (s : FileH),
        (readExtendedCountedLoop enc N left i acc s).1 ≠ .error .nonTermination := by
      intro left
      induction left with
      | zero => intro i acc s h; simp [readExtendedCountedLoop] at h
      | succ left ih =>
        intro i acc s
        rw [readExtendedCountedLoop, bind_apply, readTextual_apply]
        by_cases hl : s.pos + 3200 ≤ s.data.length
        · rw [if_pos hl]
          cases hd : decodeCards enc ((s.data.drop s.pos).take 3200) with
          | error e =>
            simp only
            intro hc
            simp only [Except.error.injEq] at hc
            subst hc
            unfold decodeCards batched at hd
            rw [if_neg (by decide)] at hd
            simp only [bind, Except.bind] at hd
            obtain ⟨b, _, he⟩ := mapM_error hd
            obtain ⟨x, _, hx⟩ := mapM_error he
            cases enc <;> simp only [decodeByte] at hx
            · split at hx <;> cases hx
            · cases hx
            · cases hx
          | ok cards =>
            simp only
            cases cards with
            | nil => simp [bind_apply, hasEndTextStanza]
            | cons c cs =>
              simp only [bind_apply, lift_apply, hasEndTextStanza]
              split
              · simp
              · exact ih _ _ _
        · rw [if_neg hl]; simp
    exact this _ _ _ _

/-- A page with the stop stanza before the last of the counted pages makes reading fail with `ValueError`. -/
theorem C39_premature_stop (pages : List (List PyStr)) (enc : Encoding) (henc : enc ≠ .other)
    (hp : ∀ p ∈ pages, IsPage enc p) (s : FileH) (hs : s.limit = none) (hlen : 3600 ≤ s.data.length)
    (hstop : ∃ p ∈ pages.dropLast, Stops p) :
    ∃ s', writeExtendedTextualHeaders pages enc s = (.ok (), s') ∧
      (readExtendedTextualHeaders pages.length enc s').1 = .error .valueError := by
  obtain ⟨ess, he⟩ := pages_encoded henc pages hp
  refine ⟨_, write_ext_ok henc he s hs, ?_⟩
  have hdata : ∃ pre post : Bytes, overwrite s.data 3600 (pagesBytes ess) = pre ++ pagesBytes ess ++ post ∧
      pre.length = 3600 := by
    refine ⟨s.data.take 3600, s.data.drop (3600 + (pagesBytes ess).length), ?_, by rw [List.length_take]; omega⟩
    unfold overwrite
    split
    · rename_i h0
      rw [List.isEmpty_iff] at h0
      rw [h0]; simp
    · simp [Nat.sub_eq_zero_of_le hlen]
  obtain ⟨pre, post, hd, hpre⟩ := hdata
  generalize overwrite s.data 3600 (pagesBytes ess) = data at hd
  unfold readExtendedTextualHeaders
  rw [bind_ok (show FileM.seek (REEL_HEADER_NUM_BYTES : Nat) _ = _ from seek_apply _ _), if_neg (by omega)]
  unfold readExtendedHeadersCounted
  rw [if_neg (by omega), Int.toNat_natCast]
  generalize hN : pages.length = N
  have main : ∀ (pages : List (List PyStr)) (ess : List (List Bytes)),
      List.Forall₂ (fun a b => encodeExtPage enc a = .ok b) pages ess →
      ∀ (i : Nat) (acc : List (List PyStr)) (pre post : Bytes) (s : FileH),
      s.data = pre ++ pagesBytes ess ++ post → s.pos = pre.length → i + pages.length = N →
      (∃ p ∈ pages.dropLast, Stops p) →
      (readExtendedCountedLoop enc N pages.length i acc s).1 = .error .valueError := by
    intro pages ess h
    induction h with
    | nil => intro _ _ _ _ _ _ _ _ ⟨p, hp, _⟩; cases hp
    | @cons page es pages' ess' h1 h2 ih =>
      intro i acc pre post s hd hp hN hst
      obtain ⟨g1, g2, g3⟩ := encodeExtPage_ok h1
      have hd' : s.data = pre ++ es.flatten ++ (pagesBytes ess' ++ post) := by
        rw [hd]; simp [pagesBytes, List.append_assoc]
      rw [List.length_cons, readExtendedCountedLoop, bind_ok (readTextual_at g1 g2 g3 hd' hp)]
      cases hps : pages' with
      | nil => rw [hps] at hst; obtain ⟨p, hp, _⟩ := hst; cases hp
      | cons q qs =>
        rcases hasEnd_eq g2 with ⟨_, he⟩ | ⟨hns, he⟩
        · simp only [bind_ok (show FileM.lift (hasEndTextStanza page) _ = _ by rw [lift_apply, he])]
          rw [if_pos]
          · rfl
          · rw [hps] at hN
            simp at hN ⊢
            omega
        · simp only [bind_ok (show FileM.lift (hasEndTextStanza page) _ = _ by rw [lift_apply, he])]
          simp only [Bool.false_and, Bool.false_eq_true, if_false]
          rw [← hps]
          apply ih (i + 1) _ (pre ++ es.flatten) post
          · rw [hd']; simp [List.append_assoc]
          · rw [List.length_append, page_bytes_length h1, hp]
          · rw [List.length_cons] at hN; omega
          · obtain ⟨p, hp', hsp⟩ := hst
            rw [hps, List.dropLast_cons_cons] at hp'
            rcases List.mem_cons.mp hp' with rfl | hp'
            · exact absurd hsp hns
            · exact ⟨p, by rw [hps]; exact hp', hsp⟩
  have fin := main pages ess ((mapM_ok_iff _ _ _).mp he) 0 [] pre post
    { s with data := data, pos := REEL_HEADER_NUM_BYTES } hd hpre.symm (by omega) hstop
  rw [hN] at fin
  exact fin

example : ∃ page, IsPage .ascii page ∧ Stops page :=
  ⟨("((SEG: EndText))".toList ++ List.replicate 64 ' ') :: List.replicate 39 (List.replicate 80 'x'),
    ⟨by decide, by
      show ∀ l ∈ _, _ ∧ ∀ c ∈ l, _
      decide +kernel⟩, by unfold Stops; rw [← isSubstring_iff]; decide +kernel⟩

/-! ## C40 all or nothing -/

/-- Either all pages are well formed and written, or nothing is written (the contents of the file are unchanged) and
`ValueError` or `UnicodeEncodeError` is raised. -/
theorem C40_all_or_nothing (pages : List (List PyStr)) (enc : Encoding) (henc : enc ≠ .other) (s : FileH)
    (hs : s.limit = none) :
    ((∀ p ∈ pages, IsPage enc p) ∧ ∃ s', writeExtendedTextualHeaders pages enc s = (.ok (), s')) ∨
    ((∃ p ∈ pages, ¬ IsPage enc p) ∧ ∃ e s', writeExtendedTextualHeaders pages enc s = (.error e, s') ∧
      s'.data = s.data ∧ (e = .valueError ∨ e = .unicodeError)) := by
  cases h : pages.mapM (encodeExtPage enc) with
  | ok ess =>
    left
    refine ⟨?_, _, write_ext_ok henc h s hs⟩
    intro p hp
    have hf := (mapM_ok_iff _ _ _).mp h
    clear h
    induction hf with
    | nil => cases hp
    | cons h1 _ ih =>
      rcases List.mem_cons.mp hp with rfl | hp
      · exact isPage_of_encode henc h1
      · exact ih hp
  | error e =>
    right
    obtain ⟨p, hpm, he⟩ := mapM_error h
    obtain ⟨h1, h2⟩ := encodeExtPage_error henc he
    refine ⟨⟨p, hpm, h2⟩, e, { s with pos := 3600 }, ?_, rfl, h1.symm⟩
    unfold writeExtendedTextualHeaders
    simp only [(isSupported_iff enc).mpr henc, Bool.not_true, Bool.false_eq_true, if_false]
    rw [bind_ok (show FileM.seek (REEL_HEADER_NUM_BYTES : Nat) s = _ from seek_apply _ s), h]
    rfl

/-- An unsupported encoding is rejected without touching the file. -/
theorem C40_unsupported (pages : List (List PyStr)) (s : FileH) :
    writeExtendedTextualHeaders pages .other s = (.error .unsupportedEncodingError, s) := rfl

example : ∃ s', writeExtendedTextualHeaders
    [List.replicate 40 (List.replicate 80 'x'), List.replicate 40 (List.replicate 79 'x')] .ascii ⟨[1, 2, 3], 0, none⟩ =
      (.error .valueError, s') ∧ s'.data = [1, 2, 3] := ⟨⟨[1, 2, 3], 3600, none⟩, by decide +kernel⟩

end Segpy.Props
