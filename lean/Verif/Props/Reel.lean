import Verif.Spec.Reel
import Verif.Lemmas.Copy
import Verif.Lemmas.ExampleFile
import Verif.Props.Opening
import Verif.Props.Samples

/-! # Properties of the reel headers of an opened file: C71 -/

namespace Segpy.Props

open Segpy.Spec Segpy.FileM

theorem encode_flatten {enc : Encoding} : ∀ {l : List PyStr} {bss : List Bytes}, l.mapM (encode enc) = .ok bss →
    encode enc l.flatten = .ok bss.flatten := by
  intro l
  induction l with
  | nil => intro bss h; cases h; rfl
  | cons x xs ih =>
    intro bss h
    rw [List.mapM_cons] at h
    obtain ⟨b, h1, h⟩ := res_bind_ok h
    obtain ⟨bs, h2, h⟩ := res_bind_ok h
    cases h
    have h3 := ih h2
    unfold encode at h1 h3 ⊢
    rw [List.flatten_cons, List.mapM_append, h1, h3]
    rfl

theorem page_at {enc : Encoding} {s s' : FileH} {l : List PyStr}
    (h : readTextualReelHeader enc s = (.ok l, s')) : PageAt enc s.data s.pos l ∧ s' = { s with pos := s.pos + 3200 } := by
  obtain ⟨-, h1, bss, h2, h3⟩ := readTextual_page h
  rw [readTextual_apply] at h
  split at h
  swap
  · simp at h
  rename_i hl
  refine ⟨⟨h1, hl, ?_⟩, (Prod.mk.inj h).2.symm⟩
  rw [encode_flatten h2, h3]

private theorem pages_cons {enc : Encoding} {data : Bytes} {pos : Nat} {p : List PyStr} {pages : List (List PyStr)}
    (hp : PageAt enc data pos p) (h : ∀ i (h : i < pages.length), PageAt enc data (pos + 3200 + 3200 * i) pages[i]) :
    ∀ i (h : i < (p :: pages).length), PageAt enc data (pos + 3200 * i) (p :: pages)[i] := by
  intro i hi
  cases i with
  | zero => exact hp
  | succ i =>
    rw [List.getElem_cons_succ, show pos + 3200 * (i + 1) = pos + 3200 + 3200 * i by ring]
    exact h i (by simpa using hi)

private theorem until_at {enc : Encoding} (fuel : Nat) {s s' : FileH} {acc out : List (List PyStr)}
    (h : readExtendedUntilEndLoop enc fuel acc s = (.ok out, s')) :
    ∃ pages, out = acc ++ pages ∧ ∀ i (h : i < pages.length), PageAt enc s.data (s.pos + 3200 * i) pages[i] := by
  induction fuel generalizing acc s with
  | zero => simp [readExtendedUntilEndLoop] at h
  | succ fuel ih =>
    unfold readExtendedUntilEndLoop at h
    obtain ⟨p, s1, h1, g⟩ := bind_eq_ok h
    clear h
    obtain ⟨hp, rfl⟩ := page_at h1
    obtain ⟨b, s2, h2, h⟩ := bind_eq_ok g
    clear g
    obtain ⟨hb, rfl⟩ := lift_eq_ok h2
    split at h
    · simp only [pure_apply, Prod.mk.injEq, Except.ok.injEq] at h
      obtain ⟨rfl, rfl⟩ := h
      exact ⟨[p], rfl, pages_cons hp (by simp)⟩
    · obtain ⟨pages, g1, g2⟩ := ih h
      exact ⟨p :: pages, by rw [g1]; simp, pages_cons hp g2⟩

private theorem counted_at {enc : Encoding} (n left : Nat) {i : Nat} {s s' : FileH} {acc out : List (List PyStr)}
    (h : readExtendedCountedLoop enc n left i acc s = (.ok out, s')) :
    ∃ pages, out = acc ++ pages ∧ ∀ i (h : i < pages.length), PageAt enc s.data (s.pos + 3200 * i) pages[i] := by
  induction left generalizing acc s i with
  | zero =>
    simp only [readExtendedCountedLoop, pure_apply, Prod.mk.injEq, Except.ok.injEq] at h
    obtain ⟨rfl, rfl⟩ := h
    exact ⟨[], by simp, by simp⟩
  | succ left ih =>
    unfold readExtendedCountedLoop at h
    obtain ⟨p, s1, h1, g⟩ := bind_eq_ok h
    clear h
    obtain ⟨hp, rfl⟩ := page_at h1
    obtain ⟨b, s2, h2, h⟩ := bind_eq_ok g
    clear g
    obtain ⟨hb, rfl⟩ := lift_eq_ok h2
    split at h
    · simp at h
    · obtain ⟨pages, g1, g2⟩ := ih h
      exact ⟨p :: pages, by rw [g1]; simp, pages_cons hp g2⟩

theorem extended_at {enc : Encoding} {hd : Header} {s s' : FileH} {out : List (List PyStr)}
    (h : readExtendedHeadersOf hd enc s = (.ok out, s')) :
    ∀ i (h : i < out.length), PageAt enc s.data (3600 + 3200 * i) out[i] := by
  unfold readExtendedHeadersOf at h
  obtain ⟨n, s1, h1, g⟩ := bind_eq_ok h
  clear h
  obtain ⟨hn, rfl⟩ := lift_eq_ok h1
  unfold readExtendedTextualHeaders at g
  rw [bind_ok (show FileM.seek (REEL_HEADER_NUM_BYTES : Nat) _ = _ from seek_apply _ _)] at g
  split at g
  · obtain ⟨pages, g1, g2⟩ := until_at _ g
    rw [List.nil_append] at g1
    subst g1
    exact g2
  · unfold readExtendedHeadersCounted at g
    split at g
    · simp at g
    · obtain ⟨pages, g1, g2⟩ := counted_at _ _ g
      rw [List.nil_append] at g1
      subst g1
      exact g2

theorem makeReaderOf_fields {dim : Option Int} {textual : List PyStr} {binary : Header}
    {extended : List (List PyStr)} {catalogs : Catalogs} {T : Format} {enc : Encoding} {e : Endian} {r : Reader}
    (h7 : makeReaderOf dim textual binary extended catalogs T enc e = .ok r) :
    r.textual_reel_header = textual ∧ r.binary_reel_header = binary ∧ r.extended_textual_headers = extended ∧
      r.encoding = enc ∧ headerBytesPerSample binary = .ok r.bytes_per_sample := by
  have key : ∀ offsets lengths kind, Reader.make textual binary extended offsets lengths T enc e kind = .ok r →
      r.textual_reel_header = textual ∧ r.binary_reel_header = binary ∧ r.extended_textual_headers = extended ∧
        r.encoding = enc ∧ headerBytesPerSample binary = .ok r.bytes_per_sample := by
    intro offsets lengths kind hm
    unfold Reader.make at hm
    obtain ⟨_, _, hm⟩ := res_bind_ok hm
    obtain ⟨_, _, hm⟩ := res_bind_ok hm
    obtain ⟨_, hb, hm⟩ := res_bind_ok hm
    cases hm
    exact ⟨rfl, rfl, rfl, rfl, hb⟩
  unfold makeReaderOf at h7
  simp only at h7
  split at h7
  · cases h7
  obtain ⟨_, _, h7⟩ := res_bind_ok h7
  obtain ⟨_, _, h7⟩ := res_bind_ok h7
  obtain ⟨_, _, h7⟩ := res_bind_ok h7
  split at h7
  · exact key _ _ _ h7
  split at h7
  · exact key _ _ _ h7
  · exact key _ _ _ h7

/-- The reel headers a reader reports are those in the file, in the encoding asked for or else guessed (C37). -/
theorem C71_reel_headers (encoding : Option Encoding) (B T : Format) (e : Endian) (hB : Regular B e 400) (dim : Option Int)
    (s s' : FileH) (hs : s.pos = 0) (r : Reader) (progress : List ℚ)
    (h : createReader encoding B T e dim s = (.ok (r, progress), s')) :
    r.encoding = usedEncoding encoding s.data ∧
      ReelHeaders r.encoding B e s.data r.textual_reel_header r.binary_reel_header r.extended_textual_headers := by
  obtain ⟨enc, textual, binary, extended, bps, catalogs, k1, k2, k3, k4, h1, h2, h3, h4, _, _, h7, _⟩ :=
    createReader_ok h
  obtain ⟨r1, r2, r3, r4, -⟩ := makeReaderOf_fields h7
  obtain ⟨g1, -⟩ := createReader_reel h
  have hk : k1 = 0 := by
    rcases h1 with ⟨-, rfl⟩ | ⟨-, o, -, hg⟩
    · exact hs
    · rw [guess_eq] at hg
      rw [← hs]
      exact (congrArg FileH.pos (Prod.mk.inj hg).2).symm
  subst hk
  refine ⟨g1, ?_⟩
  rw [r4, r1, r2, r3]
  obtain ⟨t1, t2⟩ := page_at h2
  have hk2 : k2 = 3200 := congrArg FileH.pos t2
  subst hk2
  obtain ⟨p, hp⟩ := hB.packs
  obtain ⟨x1, x2, x3⟩ := extendedOf_pages h4
  have x4 := extended_at h4
  rcases C62_read_binary B e p hp hB.afterStart hB.orderSafe hB.length { s with pos := 3200 } with
    ⟨hd, b1, -, b2, b3⟩ | ⟨k, b1, -⟩
  · rw [h3] at b1
    obtain rfl := Except.ok.inj (Prod.mk.inj b1).1
    exact ⟨t1, b2, fun f hf => (b3 f hf).2, x4, x3, x2⟩
  · rw [h3] at b1
    cases (Prod.mk.inj b1).1

/-- The sample format a reader reports is the one whose code is in the binary header. -/
theorem C71_sample_format (encoding : Option Encoding) (B T : Format) (e : Endian) (dim : Option Int)
    (s s' : FileH) (r : Reader) (progress : List ℚ) (h : createReader encoding B T e dim s = (.ok (r, progress), s')) :
    ∃ t code, r.dataSampleFormat = .ok t ∧ r.binary_reel_header.get "data_sample_format" = .ok code ∧
      formatCode t = some code ∧ r.bytes_per_sample = t.size := by
  obtain ⟨enc, textual, binary, extended, bps, catalogs, k1, k2, k3, k4, -, -, -, -, h5, -, h7, -⟩ := createReader_ok h
  obtain ⟨-, r2, -, -, r5⟩ := makeReaderOf_fields h7
  obtain ⟨v, t, hv, ht, rfl⟩ := headerBytesPerSample_ok h5
  refine ⟨t, v, ?_, by rw [r2]; exact hv, ((C42_format_codes v).1 t).mp ht, ?_⟩
  · unfold Reader.dataSampleFormat
    rw [r2, hv]
    exact ht
  · exact (Except.ok.inj (h5.symm.trans r5)).symm

/-- A file with an extended textual header of one page full of the letter A. -/
private def pagedFile : FileH :=
  { data := List.replicate 3200 0x40 ++ List.replicate 24 0 ++ [0, 3] ++ List.replicate 278 0 ++ [0, 1] ++
      List.replicate 94 0 ++ List.replicate 3200 0xC1 ++ sampleHeader 1 1 5 ++ [0, 7], pos := 0 }

private theorem pagedFile_check : ((createReader none fmtBinaryReelHeader fmtTraceHeaderRev1 .big none pagedFile).1.map fun x =>
    (x.1.dataSampleFormat, x.1.extended_textual_headers.length)) = .ok (.ok (.int .int16), 1) := by
  decide +kernel

example : ∃ r progress s', createReader none fmtBinaryReelHeader fmtTraceHeaderRev1 .big none pagedFile =
      (.ok (r, progress), s') ∧
    ReelHeaders r.encoding fmtBinaryReelHeader .big pagedFile.data r.textual_reel_header r.binary_reel_header
      r.extended_textual_headers ∧ r.extended_textual_headers.length = 1 := by
  have key := pagedFile_check
  cases hc : createReader none fmtBinaryReelHeader fmtTraceHeaderRev1 .big none pagedFile with
  | mk x s' =>
    rw [hc] at key
    cases x with
    | error err => cases key
    | ok y =>
      exact ⟨y.1, y.2, s', rfl, (C71_reel_headers none _ _ _
        (shipped_regular (F := fmtBinaryReelHeader) (n := 400) (by decide +kernel) .big) none pagedFile s' rfl y.1 y.2 hc).2,
        (Prod.mk.inj (Except.ok.inj key)).2⟩

end Segpy.Props
