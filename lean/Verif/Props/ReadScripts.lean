import Verif.Model.ReadScripts
import Verif.Spec.ReadScripts
import Verif.Lemmas.Scripts
import Verif.Props.Opens
import Verif.Props.Cli
import Verif.Props.CustomFormats
import Verif.Props.Examples
import Mathlib.Data.Finset.Sort

/-! # Properties of the command lines of the scripts that only read SEG Y files: C99 -/

namespace Segpy.Props

open Segpy.Spec Segpy.FileM

private theorem page_unique {enc : Encoding} {data : Bytes} {pos : Nat} {p q : List PyStr} (hp : PageAt enc data pos p)
    (hq : PageAt enc data pos q) : p = q := by
  have h1 := readTextual_of_page (s := { data := data, pos := pos }) hp
  have h2 := readTextual_of_page (s := { data := data, pos := pos }) hq
  exact Except.ok.inj (Prod.mk.inj (h1.symm.trans h2)).1

private theorem not_shorter {enc : Encoding} {data : Bytes} {n : Int} {l l' : List (List PyStr)}
    (h : ExtendedPages enc data n l) (h' : ExtendedPages enc data n l') : ¬ l.length < l'.length := by
  intro hlt
  rcases h.count with h1 | ⟨h1, p, h2, h3⟩
  · rcases h'.count with h2 | ⟨h2, -⟩ <;> omega
  · obtain ⟨k, hk⟩ : ∃ k, l.length = k + 1 := by
      cases l with
      | nil => cases h2
      | cons a l => exact ⟨_, List.length_cons⟩
    have hp : p = l[k]'(by omega) := by
      rw [List.getLast?_eq_getElem?, hk, Nat.add_sub_cancel, List.getElem?_eq_getElem (by omega)] at h2
      exact (Option.some.inj h2).symm
    have he : p = l'[k]'(by omega) := by
      rw [hp]
      exact page_unique (h.readable k (by omega)) (h'.readable k (by omega))
    refine h'.only_last_stops p ?_ h3
    rw [List.mem_iff_getElem]
    refine ⟨k, by rw [List.length_dropLast]; omega, ?_⟩
    rw [List.getElem_dropLast, ← he]

private theorem code_inj {t t' : SegYType} {code : Int} (h : formatCode t = some code) (h' : formatCode t' = some code) :
    t = t' := by
  unfold formatCode at h
  split at h <;> cases h <;> (unfold formatCode at h'; split at h' <;> cases h'; rfl)

/-- The reel headers determine the sample type and the number of pages. -/
private theorem reel_unique {enc : Encoding} {B : Format} {e : Endian} {data : Bytes} (hf : HasReelFields B) {t t' : SegYType}
    {pages pages' : Nat} (h : SoundReel enc B e data t pages) (h' : SoundReel enc B e data t' pages') :
    t = t' ∧ pages = pages' := by
  obtain ⟨f, f1, f2⟩ := hf "data_sample_format" (by simp)
  obtain ⟨g, g1, g2⟩ := hf "num_extended_textual_headers" (by simp)
  refine ⟨code_inj (h.format f f1 f2) (h'.format f f1 f2), ?_⟩
  obtain ⟨l, rfl, hl⟩ := h.extended g g1 g2
  obtain ⟨l', rfl, hl'⟩ := h'.extended g g1 g2
  have := not_shorter hl hl'
  have := not_shorter hl' hl
  omega

/-- A file has one description at most. -/
theorem C99_unique {enc : Encoding} {B : Format} {data : Bytes} (hf : HasReelFields B) {t t' : SegYType}
    {starts starts' : List Nat} (h : Intact enc B data t starts) (h' : Intact enc B data t' starts') :
    t = t' ∧ starts = starts' := by
  obtain ⟨pages, h1, h2⟩ := h.reel
  obtain ⟨pages', h1', h2'⟩ := h'.reel
  obtain ⟨rfl, rfl⟩ := reel_unique hf h1 h1'
  exact ⟨rfl, C61_unique _ _ _ _ _ _ _ h2 h2'⟩

private theorem intact_iff {B : Format} (hB : Regular B .big 400) (hf : HasReelFields B) (data : Bytes) :
    (∃ t starts, Intact (usedEncoding none data) B data t starts) ↔
      ∃ r progress s', createReader none B fmtTraceHeaderRev1 .big none (atStart data) = (.ok (r, progress), s') := by
  rw [C97_opens _ B .big (C43_rev1_cataloguable .big) hB hf none none (atStart data) rfl]
  constructor
  · rintro ⟨t, starts, ⟨pages, h1, h2⟩, h3, h4⟩
    exact ⟨by simp, t, pages, starts, h1, h3, h2, h4⟩
  · rintro ⟨-, t, pages, starts, h1, h3, h2, h4⟩
    exact ⟨t, starts, ⟨pages, h1, h2⟩, h3, h4⟩

/-- What `create_reader` raises leads to status 70. -/
private theorem raised {B : Format} (hB : Regular B .big 400) (hf : HasReelFields B) {data : Bytes} {err : Err}
    (h : (createReader none B fmtTraceHeaderRev1 .big none (atStart data)).1 = .error err) : err.exitCode = 70 := by
  rcases C97_raises _ B .big (C43_rev1_cataloguable .big) hB hf none (by simp) none _ rfl err h with
    rfl | rfl | ⟨rfl, -⟩ | ⟨rfl, -⟩ | ⟨rfl, -⟩ <;> rfl

private theorem read_exits {α : Type} {fs : FileSystem} {a : String} {work : FileM α} {good : Bytes → Prop}
    (h1 : ∀ data, good data → ∃ x, (work (atStart data)).1 = .ok x)
    (h2 : ∀ data, ¬ good data → ∃ err, (work (atStart data)).1 = .error err ∧ err.exitCode = 70) :
    Exits fs a good (fs.read a work) := by
  unfold FileSystem.read
  refine ⟨fun err h => ?_, fun i h hg => ?_, fun i h hg => ?_⟩
  · rw [h]
    exact exitCode_statusOf err
  · rw [h]
    obtain ⟨x, hx⟩ := h1 _ hg
    simp only [show (work { data := fs.contents i, pos := 0 }).1 = .ok x from hx]
    rfl
  · rw [h]
    obtain ⟨err, hx, hc⟩ := h2 _ hg
    simp only [show (work { data := fs.contents i, pos := 0 }).1 = .error err from hx]
    exact hc

/-- `report.py` ends with status 64 without an argument, and else says with its status whether the file can be opened, and
whether a reader can be made of it. -/
theorem C99_report (fs : FileSystem) :
    reportMain [] fs = 64 ∧ ∀ a rest, Exits fs a
      (fun data => ∃ t starts, Intact (usedEncoding none data) fmtBinaryReelHeader data t starts) (reportMain (a :: rest) fs) := by
  obtain ⟨hB, hf⟩ := C97_default_format .big
  refine ⟨rfl, fun a rest => read_exits (fun data hg => ?_) fun data hg => ?_⟩
  · obtain ⟨r, p, s', h⟩ := (intact_iff hB hf data).mp hg
    have := C72_report (atStart data) rfl
    rw [h] at this
    obtain ⟨_, _, _, _, _, _, _, -, -, -, hx⟩ := this
    exact ⟨_, hx⟩
  · rw [intact_iff hB hf] at hg
    have := C72_report (atStart data) rfl
    cases hc : createReader none fmtBinaryReelHeader fmtTraceHeaderRev1 .big none (atStart data) with
    | mk x s' =>
      cases x with
      | ok y => exact absurd ⟨y.1, y.2, s', hc⟩ hg
      | error err =>
        rw [hc] at this
        exact ⟨err, this, raised hB hf (by rw [hc])⟩

theorem C99_custom_format : HasReelFields fmtCustomBinaryReelHeader := by
  show ∀ name ∈ ["data_sample_format", "num_extended_textual_headers", "format_revision_num"],
    ∃ f ∈ fmtCustomBinaryReelHeader.fields, f.name = name
  decide +kernel

/-- `custom_header.py` likewise, with its own format of the binary header; every file for which `report.py` ends with
status 0 is one for which this does. -/
theorem C99_custom_header (fs : FileSystem) :
    customHeaderMain [] fs = 64 ∧ ∀ a rest,
      Exits fs a (fun data => ∃ t starts, Intact (usedEncoding none data) fmtCustomBinaryReelHeader data t starts)
        (customHeaderMain (a :: rest) fs) ∧
      (reportMain (a :: rest) fs = 0 → customHeaderMain (a :: rest) fs = 0) := by
  have hB := C75_custom_binary_header .big
  have hf := C99_custom_format
  have key : ∀ a rest,
      Exits fs a (fun data => ∃ t starts, Intact (usedEncoding none data) fmtCustomBinaryReelHeader data t starts)
        (customHeaderMain (a :: rest) fs) := by
    refine fun a rest => read_exits (fun data hg => ?_) fun data hg => ?_
    · obtain ⟨r, p, s', h⟩ := (intact_iff hB hf data).mp hg
      have := C75_custom_report (atStart data) rfl
      rw [h] at this
      obtain ⟨_, _, _, _, _, _, _, -, -, -, hx⟩ := this
      exact ⟨_, hx⟩
    · rw [intact_iff hB hf] at hg
      have := C75_custom_report (atStart data) rfl
      cases hc : createReader none fmtCustomBinaryReelHeader fmtTraceHeaderRev1 .big none (atStart data) with
      | mk x s' =>
        cases x with
        | ok y => exact absurd ⟨y.1, y.2, s', hc⟩ hg
        | error err =>
          rw [hc] at this
          exact ⟨err, this, raised hB hf (by rw [hc])⟩
  refine ⟨rfl, fun a rest => ⟨key a rest, fun h0 => ?_⟩⟩
  have hr := (C99_report fs).2 a rest
  cases hi : fs.openRead a with
  | error err =>
    have := hr.no_input err hi
    rw [h0] at this
    cases err <;> cases this
  | ok i =>
    refine (key a rest).succeeds i hi ?_
    have hgood : ∃ t starts, Intact (usedEncoding none (fs.contents i)) fmtBinaryReelHeader (fs.contents i) t starts := by
      by_contra hbad
      have := hr.fails i hi hbad
      rw [h0] at this
      cases this
    obtain ⟨r, p, s', h⟩ := (intact_iff (C97_default_format .big).1 (C97_default_format .big).2 _).mp hgood
    obtain ⟨binary, h, -⟩ := C75_uint16_opens _ _ _ _ _ _ _ _ h
    exact (intact_iff hB hf _).mpr ⟨_, _, _, h⟩

/-- What the description of an intact file has to do with the reader made of it. -/
private theorem intact_opened {data : Bytes} {r : Reader} {p : List ℚ} {s' : FileH}
    (hr : createReader none fmtBinaryReelHeader fmtTraceHeaderRev1 .big none (atStart data) = (.ok (r, p), s')) {code : Int}
    {starts : List Nat} (hs : Survey data r.extended_textual_headers.length code starts) :
    ∃ t, formatCode t = some code ∧ Intact (usedEncoding none data) fmtBinaryReelHeader data t starts := by
  obtain ⟨hB, hf⟩ := C97_default_format .big
  obtain ⟨-, t, starts', h1, h2, h3, h4⟩ := sound_of_opened (C43_rev1_cataloguable .big) hB rfl hr
  obtain ⟨t', g1, g2⟩ := hs.traces
  have hcode : formatCode t = some code := by
    have hm : (⟨"data_sample_format", vtDataSampleFormatField, 3225, 5⟩ : Field) ∈ fmtBinaryReelHeader.fields := by
      decide +kernel
    have := h1.format _ hm rfl
    rw [this, hs.format]
    have hbytes : fmtBinaryReelHeader.fieldBytes ⟨"data_sample_format", vtDataSampleFormatField, 3225, 5⟩
        ((data.drop 3200).take 400) = (data.drop 3224).take 2 := by
      show (((data.drop 3200).take 400).drop 24).take 2 = _
      rw [List.drop_take, List.take_take, List.drop_drop]
      rfl
    show some (storedInt .big .int16 (fmtBinaryReelHeader.fieldBytes _ ((data.drop 3200).take 400))) = _
    rw [hbytes]
  obtain rfl := code_inj hcode g1
  obtain rfl := C61_unique _ _ _ _ _ _ _ h3 g2
  exact ⟨t, hcode, ⟨_, h1, h3⟩, h2, h4⟩

/-- `trace_positions.py`: it succeeds if moreover all fields of the trace headers have admissible values. -/
theorem C99_trace_positions (fs : FileSystem) (a : String) :
    Exits fs a (fun data => ∃ t starts, Intact (usedEncoding none data) fmtBinaryReelHeader data t starts ∧
      ∀ p ∈ starts, HeaderValid data p) (tracePositionsMain a fs) := by
  obtain ⟨hB, hf⟩ := C97_default_format .big
  refine read_exits (fun data hg => ?_) fun data hg => ?_
  · obtain ⟨t, starts, h1, h2⟩ := hg
    obtain ⟨r, p, s', hc⟩ := (intact_iff hB hf data).mp ⟨t, starts, h1⟩
    have := C74_trace_positions (atStart data) rfl
    rw [hc] at this
    obtain ⟨code, starts', g1, -, g2⟩ := this
    obtain ⟨t', -, k⟩ := intact_opened hc g1
    obtain ⟨-, rfl⟩ := C99_unique hf k h1
    obtain ⟨l, hl, -⟩ := g2 h2
    exact ⟨l, hl⟩
  · have := C74_trace_positions (atStart data) rfl
    cases hc : createReader none fmtBinaryReelHeader fmtTraceHeaderRev1 .big none (atStart data) with
    | mk x s' =>
      rw [hc] at this
      cases x with
      | ok y =>
        obtain ⟨code, starts', g1, g2, -⟩ := this
        obtain ⟨t', -, k⟩ := intact_opened hc g1
        refine ⟨.eofError, g2 ?_, rfl⟩
        by_contra hno
        push Not at hno
        exact hg ⟨t', starts', k, hno⟩
      | error err => exact ⟨err, this, raised hB hf (by rw [hc])⟩

private theorem npyName_saved {name file : String} (h : SavedAs name file) : npyName name = file := by
  have key : ".npy".toList.isSuffixOf name.toList = true ↔ ∃ p, name = p ++ ".npy" := by
    rw [List.isSuffixOf_iff_suffix]
    constructor
    · rintro ⟨l, hl⟩
      exact ⟨String.ofList l, by rw [← String.toList_inj, String.toList_append, String.toList_ofList, hl]⟩
    · rintro ⟨p, rfl⟩
      exact ⟨p.toList, by rw [String.toList_append]⟩
  unfold npyName
  rcases h with ⟨rfl, h⟩ | ⟨rfl, h⟩
  · rw [if_pos (key.mpr h)]
  · rw [if_neg (fun hx => h (key.mp hx))]

private theorem arranges_sorted (l : List Int) : Arranges l l.toFinset.sort :=
  ⟨Finset.sortedLT_sort _ |>.pairwise, fun x => by simp⟩

/-- `timeslice.py a b n`: if `a` is an intact three-dimensional survey in which some trace has a sample with this number, and
no trace is cut off, then the slice is saved, with status 0, unless the file for it cannot be opened; nothing else changes.
Otherwise nothing changes at all, and the status says what is wrong. -/
theorem C99_timeslice (save : List (List Scalar) → Bytes) (native : Endian) (a b file : String) (hb : SavedAs b file)
    (slice_index : Int) (null : Scalar) (fs : FileSystem) :
    (∀ err, fs.openRead a = .error err → timesliceMain save native a b slice_index null fs = (statusOf err, fs)) ∧
    ∀ i, fs.openRead a = .ok i →
      ((¬ ∃ t starts, Intact (usedEncoding none (fs.contents i)) fmtBinaryReelHeader (fs.contents i) t starts ∧
          (surveyLines (fs.contents i) starts).Nodup ∧ 0 ≤ slice_index ∧
          (∃ m ∈ surveySamples (fs.contents i) starts, slice_index < m) ∧
          ∀ p ∈ starts, Whole fmtTraceHeaderRev1 .big (fs.contents i) t p) →
        timesliceMain save native a b slice_index null fs = (70, fs)) ∧
      ∀ t starts (n : Nat), Intact (usedEncoding none (fs.contents i)) fmtBinaryReelHeader (fs.contents i) t starts →
        (surveyLines (fs.contents i) starts).Nodup → slice_index = n →
        (∃ m ∈ surveySamples (fs.contents i) starts, slice_index < m) →
        (∀ p ∈ starts, Whole fmtTraceHeaderRev1 .big (fs.contents i) t p) →
        (∀ err, fs.openWrite file = .error err →
          timesliceMain save native a b slice_index null fs = (statusOf err, fs)) ∧
        ∀ o, fs.openWrite file = .ok o →
          ∀ inlines xlines, Arranges ((surveyLines (fs.contents i) starts).map Prod.fst) inlines →
            Arranges ((surveyLines (fs.contents i) starts).map Prod.snd) xlines →
          ∃ rows, Tabulates inlines xlines (fun il xl c => SliceCell (fs.contents i) t starts null n (il, xl) c) rows ∧
            ∃ fs', timesliceMain save native a b slice_index null fs = (0, fs') ∧ fs'.contents o = save rows ∧
              (∀ f, f ≠ o → fs'.contents f = fs.contents f) ∧ fs'.openRead = fs.openRead ∧ fs'.openWrite = fs.openWrite := by
  obtain ⟨hB, hf⟩ := C97_default_format .big
  refine ⟨fun err h => ?_, fun i hi => ?_⟩
  · unfold timesliceMain
    rw [h]
    simp only [exitCode_statusOf]
  have hmain : timesliceMain save native a b slice_index null fs =
      match (extractTimeslice native slice_index null (atStart (fs.contents i))).1 with
      | .error err => (err.exitCode, fs)
      | .ok timeslice =>
        match fs.openWrite file with
        | .error err => (err.exitCode, fs)
        | .ok out_file => (exitOk, fs.put out_file (save timeslice)) := by
    unfold timesliceMain
    rw [hi, npyName_saved hb]
    rfl
  have hslice := C73_timeslice (atStart (fs.contents i)) rfl native slice_index null
  refine ⟨fun hno => ?_, fun t starts n hin hlines hn hm hw => ?_⟩
  · rw [hmain]
    have hfail : ∃ err, (extractTimeslice native slice_index null (atStart (fs.contents i))).1 = .error err ∧
        err.exitCode = 70 := by
      cases hc : createReader none fmtBinaryReelHeader fmtTraceHeaderRev1 .big none (atStart (fs.contents i)) with
      | mk x s' =>
        rw [hc] at hslice
        cases x with
        | error err => exact ⟨err, hslice, raised hB hf (by rw [hc])⟩
        | ok y =>
          obtain ⟨code, t, starts, g1, g2, g3, g4⟩ := hslice
          obtain ⟨t', k1, k2⟩ := intact_opened hc g1
          obtain rfl := code_inj g2 k1
          by_cases hd : (surveyLines (fs.contents i) starts).Nodup
          swap
          · exact ⟨_, g3 hd, rfl⟩
          obtain ⟨g5, g6⟩ := g4 hd
          by_cases hr : slice_index < 0 ∨ ∀ n ∈ surveySamples (fs.contents i) starts, n ≤ slice_index
          · exact ⟨_, g5 hr, rfl⟩
          push Not at hr
          obtain ⟨n, hn⟩ := Int.eq_ofNat_of_zero_le hr.1
          refine ⟨_, (g6 n hn (hn ▸ hr.2)).1 ?_, rfl⟩
          by_contra hcon
          push Not at hcon
          exact hno ⟨t, starts, k2, hd, hr.1, hr.2, hcon⟩
    obtain ⟨err, h1, h2⟩ := hfail
    rw [h1]
    simp only [h2]
  · have hok : ∀ inlines xlines, Arranges ((surveyLines (fs.contents i) starts).map Prod.fst) inlines →
        Arranges ((surveyLines (fs.contents i) starts).map Prod.snd) xlines →
        ∃ rows, (extractTimeslice native slice_index null (atStart (fs.contents i))).1 = .ok rows ∧
          Tabulates inlines xlines (fun i' x c => SliceCell (fs.contents i) t starts null n (i', x) c) rows := by
      obtain ⟨r, p, s', hc⟩ := (intact_iff hB hf _).mp ⟨t, starts, hin⟩
      rw [hc] at hslice
      obtain ⟨code, t', starts', g1, g2, g3, g4⟩ := hslice
      obtain ⟨t'', k1, k2⟩ := intact_opened hc g1
      obtain rfl := code_inj g2 k1
      obtain ⟨rfl, rfl⟩ := C99_unique hf k2 hin
      exact ((g4 hlines).2 n hn (hn ▸ hm)).2 hw
    constructor
    · intro err he
      obtain ⟨rows, h, -⟩ := hok _ _ (arranges_sorted _) (arranges_sorted _)
      rw [hmain, h]
      simp only [he, exitCode_statusOf]
    · intro o ho inlines xlines h1 h2
      obtain ⟨rows, h, ht⟩ := hok inlines xlines h1 h2
      refine ⟨rows, ht, fs.put o (save rows), by rw [hmain, h]; simp only [ho]; rfl, ?_, ?_, rfl, rfl⟩
      · simp [FileSystem.put]
      · intro f hne
        simp [FileSystem.put, hne]

/-- A computer with a file called `a`, one called `zeros`, and place for another. -/
private def readSystem : FileSystem where
  openRead := fun n => if n = "a" then .ok 0 else if n = "zeros" then .ok 1 else if n = "/" then .error .isADirectory else
    .error .fileNotFound
  openWrite := fun n => if n = "t.npy" then .ok 2 else .error .permission
  contents := fun i => if i = 0 then sampleFile.data else if i = 1 then List.replicate 3600 0 else []

-- the file is intact; the zeros are not
example : (reportMain ["a"] readSystem, reportMain ["zeros"] readSystem, reportMain ["/"] readSystem) = (0, 70, 66) := by
  decide +kernel
example : (∃ t starts, Intact (usedEncoding none sampleFile.data) fmtBinaryReelHeader sampleFile.data t starts) ∧
    ¬ ∃ t starts, Intact (usedEncoding none (List.replicate 3600 0)) fmtBinaryReelHeader (List.replicate 3600 0) t starts := by
  constructor
  · by_contra hno
    have h := ((C99_report readSystem).2 "a" []).fails 0 rfl hno
    revert h
    decide +kernel
  · intro hyes
    have h := ((C99_report readSystem).2 "zeros" []).succeeds 1 rfl hyes
    revert h
    decide +kernel
example : (tracePositionsMain "a" readSystem, customHeaderMain ["a"] readSystem) = (0, 0) := by decide +kernel

-- a slice is saved, here as one byte for each row; under another name there is no permission; sample 2 there is none
example : SavedAs "t" "t.npy" ∧ SavedAs "t.npy" "t.npy" := by
  refine ⟨Or.inr ⟨rfl, ?_⟩, Or.inl ⟨rfl, "t", rfl⟩⟩
  rintro ⟨p, hp⟩
  have := congrArg (fun x : String => x.toList.length) hp
  simp only [String.toList_append, List.length_append] at this
  have h1 : "t".toList.length = 1 := rfl
  have h2 : ".npy".toList.length = 4 := rfl
  omega
example : ((timesliceMain (fun rows => rows.map fun _ => 1) .little "a" "t" 0 (.int 9) readSystem).1,
    (timesliceMain (fun rows => rows.map fun _ => 1) .little "a" "t" 0 (.int 9) readSystem).2.contents 2) = (0, [1, 1, 1]) := by
  decide +kernel
example : ((timesliceMain (fun _ => []) .little "a" "u" 0 (.int 9) readSystem).1,
    (timesliceMain (fun _ => []) .little "a" "t" 2 (.int 9) readSystem).1) = (77, 70) := by decide +kernel

end Segpy.Props
