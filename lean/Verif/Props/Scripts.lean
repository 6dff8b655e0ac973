import Verif.Lemmas.Scripts
import Verif.Props.Copy
import Verif.Props.Transform
import Verif.Props.Scaling
import Verif.Props.Coordinates
import Verif.Props.Growing
import Verif.Props.Opens

/-! # Properties of the command lines of the example scripts: C94 -/

namespace Segpy.Props

open Segpy.Spec Segpy.FileM

/-- `loadsave.py` without two arguments ends with status 64 and changes nothing. -/
theorem C94_loadsave_usage (native : Endian) (argv : List String) (fs : FileSystem) (h : argv.length < 2) :
    loadSaveMain native argv fs = (64, fs) := by
  match argv, h with
  | [], _ => rfl
  | [_], _ => rfl

/-- `loadsave.py a b`: only `b` changes, and if the two are not the same file, the status is 0 exactly if `a` can be opened
and every trace of it can be read; then `b` opens and has the contents of `a`. -/
theorem C94_loadsave_partial (native : Endian) (a b : String) (rest : List String) (fs fs' : FileSystem) (status : Int)
    (h : loadSaveMain native (a :: b :: rest) fs = (status, fs')) :
    Ended fs a b status fs' ∧
    ∀ i o, fs.openRead a = .ok i → fs.openWrite b = .ok o → i ≠ o →
      (status = 0 ↔ ∃ r p s1, createReader none fmtBinaryReelHeader fmtTraceHeaderRev1 .big none (atStart (fs.contents i)) =
        (.ok (r, p), s1) ∧ AllReadable native r (atStart (fs.contents i))) ∧
      ∀ r p s1, createReader none fmtBinaryReelHeader fmtTraceHeaderRev1 .big none (atStart (fs.contents i)) =
        (.ok (r, p), s1) → AllReadable native r (atStart (fs.contents i)) →
        ∃ r' p' s2, createReader none fmtBinaryReelHeader fmtTraceHeaderRev1 .big none (atStart (fs'.contents o)) =
          (.ok (r', p'), s2) ∧
          SameContents fmtTraceHeaderRev1 fmtBinaryReelHeader native r (atStart (fs.contents i)) r'
            (atStart (fs'.contents o)) := by
  have hm : fs.run a b (loadSaveFile native) = (status, fs') := h
  have hend := run_ended fs a b (loadSaveFile native)
  rw [hm] at hend
  refine ⟨hend, ?_⟩
  intro i o hi ho hne
  obtain ⟨h1, h2⟩ := run_work hi ho hne (loadSaveFile native)
  rw [hm] at h1 h2
  have hcopy : ∀ r p s1, createReader none fmtBinaryReelHeader fmtTraceHeaderRev1 .big none (atStart (fs.contents i)) =
      (.ok (r, p), s1) → AllReadable native r (atStart (fs.contents i)) →
      ∃ p' c, loadSaveFile native (atStart (fs.contents i)) = (.ok p', c) ∧
        ∃ r' p'' c1, createReader none fmtBinaryReelHeader fmtTraceHeaderRev1 .big none { c with pos := 0 } =
          (.ok (r', p''), c1) ∧
          SameContents fmtTraceHeaderRev1 fmtBinaryReelHeader native r (atStart (fs.contents i)) r' { c with pos := 0 } := by
    intro r p s1 hr hall
    obtain ⟨p', c, g1, -, r', p'', c1, g2, g3⟩ := C67_copy_default .big .big none none _ s1 rfl r p hr native hall
    refine ⟨p', c, ?_, r', p'', c1, g2, g3⟩
    unfold loadSaveFile
    simp only [hr]
    exact g1
  refine ⟨⟨?_, ?_⟩, ?_⟩
  · intro hs
    obtain ⟨p, c, hw⟩ := h1.mp hs
    unfold loadSaveFile at hw
    cases hr : createReader none fmtBinaryReelHeader fmtTraceHeaderRev1 .big none (atStart (fs.contents i)) with
    | mk x s1 =>
    cases x with
    | error err => rw [hr] at hw; cases hw
    | ok x =>
    obtain ⟨r, p0⟩ := x
    rw [hr] at hw
    refine ⟨r, p0, s1, rfl, ?_⟩
    have hreads := writeSegy_reads hw
    obtain ⟨t, starts, hd, -, -⟩ := C80_every_trace _ _ (C43_rev1_cataloguable .big) _ _ _ _ _ _ _ hr
    refine ⟨_, hd.trace_indexes, ?_⟩
    intro j hj
    exact hreads j (by unfold Reader.asDataset; simp only [hd.trace_indexes]; exact hj)
  · rintro ⟨r, p, s1, hr, hall⟩
    obtain ⟨p', c, g, -⟩ := hcopy r p s1 hr hall
    exact h1.mpr ⟨p', c, g⟩
  · intro r p s1 hr hall
    obtain ⟨p', c, g, r', p'', c1, g1, g2⟩ := hcopy r p s1 hr hall
    have hfree := loadSaveFile_free native (atStart (fs.contents i))
    rw [g] at h2 hfree
    rw [atStart_eq hfree] at g1 g2
    rw [h2]
    exact ⟨r', p'', c1, g1, g2⟩

private theorem segYTypeOfValue_value (t : SegYType) : segYTypeOfValue t.value = some t := by
  cases t with
  | int n => cases n <;> decide +kernel
  | float32 => decide +kernel
  | ibm => decide +kernel

/-- `convert_sample_type.py` without three arguments, with a sample format that it does not know or with two equal names
ends with status 64 and changes nothing. -/
theorem C94_convert_usage (native : Endian) (argv : List String) (fs : FileSystem)
    (h : argv.length < 3 ∨ (∃ f l, argv = f :: l ∧ f ∉ ["ibm", "int32", "nnint32", "int16", "nnint16", "float32", "int8",
      "nnint8"]) ∨ ∃ f a l, argv = f :: a :: a :: l) :
    convertMain native argv fs = (64, fs) := by
  match argv, h with
  | [], _ => rfl
  | [_], _ => rfl
  | [_, _], _ => rfl
  | f :: a :: b :: l, h =>
    unfold convertMain
    simp only
    rcases h with h | ⟨f', l', h, hf⟩ | ⟨f', a', l', h⟩
    · simp only [List.length_cons] at h; omega
    · cases h
      have : segYTypeOfValue f = none := by
        unfold segYTypeOfValue
        rw [List.find?_eq_none]
        intro t ht
        simp only [List.mem_cons, List.not_mem_nil, or_false, not_or] at hf ht
        simp only [decide_eq_true_eq]
        intro hv
        rcases ht with rfl | rfl | rfl | rfl | rfl | rfl | rfl | rfl <;> simp only [SegYType.value] at hv <;> simp [← hv] at hf
      rw [this]
      rfl
    · cases h
      split
      · rfl
      · rw [if_pos rfl]
        rfl

/-- `convert_sample_type.py f a b`: only `b` changes.  If the two are not the same file, `a` can be opened, holds IBM
floats that can be converted and every trace of it can be read, the status is 0 and `b` opens and has the same headers
and the converted samples; if `a` cannot be opened or does not hold IBM floats, or no file can have the sample format,
the status is not 0 and `b` is empty. -/
theorem C94_convert_partial (native : Endian) (t : SegYType) (a b : String) (rest : List String) (fs fs' : FileSystem)
    (status : Int) (hab : b ≠ a) (h : convertMain native (t.value :: a :: b :: rest) fs = (status, fs')) :
    Ended fs a b status fs' ∧
    ∀ i o, fs.openRead a = .ok i → fs.openWrite b = .ok o → i ≠ o →
      (∀ r p s1, createReader none fmtBinaryReelHeader fmtTraceHeaderRev1 .big none (atStart (fs.contents i)) =
        (.ok (r, p), s1) → r.dataSampleFormat = .ok .ibm → t ∈ [.ibm, .int .int32, .int .int16, .int .int8, .float32] →
        AllReadable native r (atStart (fs.contents i)) → Convertible native t r (atStart (fs.contents i)) →
        status = 0 ∧ ∃ r' p' s2, createReader none fmtBinaryReelHeader fmtTraceHeaderRev1 .big none
            (atStart (fs'.contents o)) = (.ok (r', p'), s2) ∧ r'.dataSampleFormat = .ok t ∧
          Transformed fmtTraceHeaderRev1 fmtBinaryReelHeader native
            (fun n v => if n = "data_sample_format" then codeOf t else v) (fun _ v => v) (ConvertedTo t)
            r (atStart (fs.contents i)) r' (atStart (fs'.contents o))) ∧
      ((∃ err s1, createReader none fmtBinaryReelHeader fmtTraceHeaderRev1 .big none (atStart (fs.contents i)) =
          (.error err, s1)) ∨
        (∃ r p s1, createReader none fmtBinaryReelHeader fmtTraceHeaderRev1 .big none (atStart (fs.contents i)) =
          (.ok (r, p), s1) ∧
          (r.dataSampleFormat ≠ .ok .ibm ∨ t ∉ [.ibm, .int .int32, .int .int16, .int .int8, .float32])) →
        status ≠ 0 ∧ fs'.contents o = []) := by
  have ht := segYTypeOfValue_value t
  have hm : fs.run a b (convertFile native t) = (status, fs') := by
    rw [← h]
    unfold convertMain
    simp only [ht, if_neg hab]
  have hend := run_ended fs a b (convertFile native t)
  rw [hm] at hend
  refine ⟨hend, ?_⟩
  intro i o hi ho hne
  obtain ⟨h1, h2⟩ := run_work hi ho hne (convertFile native t)
  rw [hm] at h1 h2
  refine ⟨?_, ?_⟩
  · intro r p s1 hr hfmt hmem hall hconv
    obtain ⟨p', c, g, -, r', p'', c1, g1, g2, g3⟩ := C68_convert native t hmem _ s1 rfl r p hr hfmt hall hconv
    have hfree := convertFile_free native t (atStart (fs.contents i))
    rw [g] at h2 hfree
    rw [atStart_eq hfree] at g1 g3
    rw [h2]
    exact ⟨h1.mpr ⟨p', c, g⟩, r', p'', c1, g1, g2, g3⟩
  · intro hbad
    have key : ∃ err, convertFile native t (atStart (fs.contents i)) = (.error err, { data := [], pos := 0 }) := by
      rcases hbad with ⟨err, s1, hr⟩ | ⟨r, p, s1, hr, hbad⟩
      · refine ⟨err, ?_⟩
        unfold convertFile
        simp only [hr]
      · cases hfmt : r.dataSampleFormat with
        | error err =>
          refine ⟨err, ?_⟩
          unfold convertFile
          simp only [hr, hfmt]
        | ok t0 =>
          by_cases h0 : t0 = .ibm
          · subst h0
            exact ⟨_, C68_unknown_format native t (hbad.resolve_left (by simp [hfmt])) _ s1 r p hr hfmt⟩
          · exact ⟨_, C68_not_ibm native t t0 _ s1 r p hr hfmt h0⟩
    obtain ⟨err, key⟩ := key
    rw [key] at h1 h2
    refine ⟨fun hs => ?_, h2⟩
    obtain ⟨p, c, hc⟩ := h1.mp hs
    cases hc

/-- `scale_samples.py` and `scale_source_coords.py` without three arguments, or with a first one that is not a number, end
with status 64 and change nothing. -/
theorem C94_scale_usage (float : String → Option PyFloat) (native : Endian) (argv : List String) (fs : FileSystem)
    (h : argv.length < 3 ∨ ∃ f l, argv = f :: l ∧ float f = none) :
    scaleSamplesMain float native argv fs = (64, fs) ∧ scaleCoordinatesMain float native argv fs = (64, fs) := by
  unfold scaleSamplesMain scaleCoordinatesMain
  match argv, h with
  | [], _ => exact ⟨rfl, rfl⟩
  | [f], _ => cases hf : float f <;> simp [hf, exitUsage]
  | [f, _], _ => cases hf : float f <;> simp [hf, exitUsage]
  | f :: a :: b :: l, h =>
    rcases h with h | ⟨f', l', h, hf⟩
    · simp only [List.length_cons] at h; omega
    · cases h
      simp only [hf]
      exact ⟨rfl, rfl⟩

/-- `scale_samples.py f a b`: only `b` changes.  If the two are not the same file, `a` can be opened and every trace of it
can be read and every sample be scaled, the status is 0 and `b` opens and has the same headers and the scaled samples;
if `a` cannot be opened or a sample cannot be scaled, it is not 0. -/
theorem C94_scale_samples_partial (float : String → Option PyFloat) (native : Endian) (f a b : String) (rest : List String)
    (fs fs' : FileSystem) (status : Int) (k : PyFloat) (hf : float f = some k)
    (h : scaleSamplesMain float native (f :: a :: b :: rest) fs = (status, fs')) :
    Ended fs a b status fs' ∧
    ∀ i o, fs.openRead a = .ok i → fs.openWrite b = .ok o → i ≠ o →
      (∀ r p s1 t, createReader none fmtBinaryReelHeader fmtTraceHeaderRev1 .big none (atStart (fs.contents i)) =
        (.ok (r, p), s1) → r.dataSampleFormat = .ok t → AllReadable native r (atStart (fs.contents i)) →
        ((∀ (i' : Nat) (vs : List PyNum), (r.traceSamples native i' none none (atStart (fs.contents i))).1 = .ok vs →
            ∀ v ∈ vs, ScalableBy t k v) →
          status = 0 ∧ ∃ r' p' s2, createReader none fmtBinaryReelHeader fmtTraceHeaderRev1 .big none
              (atStart (fs'.contents o)) = (.ok (r', p'), s2) ∧
            Transformed fmtTraceHeaderRev1 fmtBinaryReelHeader native (fun _ v => v) (fun _ v => v) (ScaledBy t k)
              r (atStart (fs.contents i)) r' (atStart (fs'.contents o))) ∧
        ((∃ (i' : Nat) (vs : List PyNum), (r.traceSamples native i' none none (atStart (fs.contents i))).1 = .ok vs ∧
            ∃ v ∈ vs, ¬ ScalableBy t k v) → status = 70)) ∧
      ((∃ err s1, createReader none fmtBinaryReelHeader fmtTraceHeaderRev1 .big none (atStart (fs.contents i)) =
          (.error err, s1)) → status ≠ 0 ∧ fs'.contents o = []) := by
  have hm : fs.run a b (scaleSamplesFile native k) = (status, fs') := by
    rw [← h]
    unfold scaleSamplesMain
    simp only [hf]
  have hend := run_ended fs a b (scaleSamplesFile native k)
  rw [hm] at hend
  refine ⟨hend, ?_⟩
  intro i o hi ho hne
  obtain ⟨h1, h2⟩ := run_work hi ho hne (scaleSamplesFile native k)
  rw [hm] at h1 h2
  refine ⟨?_, ?_⟩
  · intro r p s1 t hr hfmt hall
    refine ⟨?_, ?_⟩
    · intro hscale
      obtain ⟨p', c, g, -, r', p'', c1, g1, g3⟩ := C69_scale native k _ s1 rfl r p hr t hfmt hall hscale
      have hfree := scaleSamplesFile_free native k (atStart (fs.contents i))
      rw [g] at h2 hfree
      rw [atStart_eq hfree] at g1 g3
      rw [h2]
      exact ⟨h1.mpr ⟨p', c, g⟩, r', p'', c1, g1, g3⟩
    · intro hbad
      obtain ⟨err, c, g, gerr⟩ := C69_raises native k _ s1 r p hr t hfmt hall hbad
      have h70 : err.exitCode = 70 := by
        split at gerr
        · rw [gerr]; rfl
        · rcases gerr with gerr | ⟨gerr, -⟩ <;> (rw [gerr]; rfl)
      have := run_error hi ho hne (scaleSamplesFile native k) g
      rw [hm] at this
      rw [← h70, ← this]
  · rintro ⟨err, s1, hr⟩
    have key : scaleSamplesFile native k (atStart (fs.contents i)) = (.error err, { data := [], pos := 0 }) := by
      unfold scaleSamplesFile
      simp only [hr]
    rw [key] at h1 h2
    refine ⟨fun hs => ?_, h2⟩
    obtain ⟨p, c, hc⟩ := h1.mp hs
    cases hc

/-- `scale_source_coords.py f a b`: only `b` changes.  If the two are not the same file, `a` can be opened and every trace
of it can be read and its coordinates be scaled, the status is 0 and `b` opens and has the scaled coordinates and
otherwise the same; if `a` cannot be opened or coordinates cannot be scaled, it is not 0. -/
theorem C94_scale_coordinates_partial (float : String → Option PyFloat) (native : Endian) (f a b : String)
    (rest : List String) (fs fs' : FileSystem) (status : Int) (k : PyFloat) (hf : float f = some k)
    (h : scaleCoordinatesMain float native (f :: a :: b :: rest) fs = (status, fs')) :
    Ended fs a b status fs' ∧
    ∀ i o, fs.openRead a = .ok i → fs.openWrite b = .ok o → i ≠ o →
      (∀ r p s1, createReader none fmtBinaryReelHeader fmtTraceHeaderRev1 .big none (atStart (fs.contents i)) =
        (.ok (r, p), s1) → AllReadable native r (atStart (fs.contents i)) →
        ((∀ (i' : Nat) (hd : Header), (r.traceHeader i' none (atStart (fs.contents i))).1 = .ok hd → HeaderScales k hd) →
          status = 0 ∧ ∃ r' p' s2, createReader none fmtBinaryReelHeader fmtTraceHeaderRev1 .big none
              (atStart (fs'.contents o)) = (.ok (r', p'), s2) ∧
            Transformed fmtTraceHeaderRev1 fmtBinaryReelHeader native (fun _ v => v) (scaledCoordinates k)
              (fun v w => w = v) r (atStart (fs.contents i)) r' (atStart (fs'.contents o))) ∧
        ((∃ (i' : Nat) (hd : Header), (r.traceHeader i' none (atStart (fs.contents i))).1 = .ok hd ∧ ¬ HeaderScales k hd) →
          status = 70)) ∧
      ((∃ err s1, createReader none fmtBinaryReelHeader fmtTraceHeaderRev1 .big none (atStart (fs.contents i)) =
          (.error err, s1)) → status ≠ 0 ∧ fs'.contents o = []) := by
  have hm : fs.run a b (scaleCoordinatesFile native k) = (status, fs') := by
    rw [← h]
    unfold scaleCoordinatesMain
    simp only [hf]
  have hend := run_ended fs a b (scaleCoordinatesFile native k)
  rw [hm] at hend
  refine ⟨hend, ?_⟩
  intro i o hi ho hne
  obtain ⟨h1, h2⟩ := run_work hi ho hne (scaleCoordinatesFile native k)
  rw [hm] at h1 h2
  refine ⟨?_, ?_⟩
  · intro r p s1 hr hall
    refine ⟨?_, ?_⟩
    · intro hscale
      obtain ⟨p', c, g, -, r', p'', c1, g1, g3⟩ := C70_scale native k _ s1 rfl r p hr hall hscale
      have hfree := scaleCoordinatesFile_free native k (atStart (fs.contents i))
      rw [g] at h2 hfree
      rw [atStart_eq hfree] at g1 g3
      rw [h2]
      exact ⟨h1.mpr ⟨p', c, g⟩, r', p'', c1, g1, g3⟩
    · intro hbad
      obtain ⟨err, c, g, gerr, -⟩ := C70_raises native k _ s1 r p hr hall hbad
      have h70 : err.exitCode = 70 := by rcases gerr with rfl | rfl <;> rfl
      have := run_error hi ho hne (scaleCoordinatesFile native k) g
      rw [hm] at this
      rw [← h70, ← this]
  · rintro ⟨err, s1, hr⟩
    have key : scaleCoordinatesFile native k (atStart (fs.contents i)) = (.error err, { data := [], pos := 0 }) := by
      unfold scaleCoordinatesFile
      simp only [hr]
    rw [key] at h1 h2
    refine ⟨fun hs => ?_, h2⟩
    obtain ⟨p, c, hc⟩ := h1.mp hs
    cases hc

/-- Of what a script that succeeds has read, every trace can be read. -/
private theorem all_readable {native : Endian} {s s1 s' : FileH} {r : Reader} {p p' : List ℚ} {d : Dataset} {out : FileH}
    (hr : createReader none fmtBinaryReelHeader fmtTraceHeaderRev1 .big none s = (.ok (r, p), s1))
    (hw : writeSegy d none fmtTraceHeaderRev1 .big out = (.ok p', s'))
    (hix : d.trace_indexes = (r.asDataset native s).trace_indexes)
    (hhd : ∀ i, (∃ hd, d.trace_header i = .ok hd) → ∃ hd, (r.asDataset native s).trace_header i = .ok hd)
    (hvs : ∀ i, (∃ vs, d.trace_samples i = .ok vs) → ∃ vs, (r.asDataset native s).trace_samples i = .ok vs) :
    AllReadable native r s := by
  have hreads := writeSegy_reads hw
  obtain ⟨t, starts, hd, -, -⟩ := C80_every_trace _ _ (C43_rev1_cataloguable .big) _ _ _ _ _ _ _ hr
  refine ⟨_, hd.trace_indexes, ?_⟩
  intro j hj
  obtain ⟨h1, h2⟩ := hreads j (by rw [hix]; unfold Reader.asDataset; simp only [hd.trace_indexes]; exact hj)
  exact ⟨hhd j h1, hvs j h2⟩

/-- If the input and the output are not the same file, `convert_sample_type.py` and the scaling scripts end with status 0
exactly if the input can be opened, every trace of it can be read, and everything can be converted or scaled. -/
theorem C94_status_partial (float : String → Option PyFloat) (native : Endian) (t : SegYType) (f a b : String)
    (rest : List String) (fs : FileSystem) (k : PyFloat) (hf : float f = some k) (hab : b ≠ a) (i o : Nat)
    (hi : fs.openRead a = .ok i) (ho : fs.openWrite b = .ok o) (hne : i ≠ o) :
    ((convertMain native (t.value :: a :: b :: rest) fs).1 = 0 ↔
      ∃ r p s1, createReader none fmtBinaryReelHeader fmtTraceHeaderRev1 .big none (atStart (fs.contents i)) =
        (.ok (r, p), s1) ∧ r.dataSampleFormat = .ok .ibm ∧ t ∈ [.ibm, .int .int32, .int .int16, .int .int8, .float32] ∧
        AllReadable native r (atStart (fs.contents i)) ∧ Convertible native t r (atStart (fs.contents i))) ∧
    ((scaleSamplesMain float native (f :: a :: b :: rest) fs).1 = 0 ↔
      ∃ r p s1 t, createReader none fmtBinaryReelHeader fmtTraceHeaderRev1 .big none (atStart (fs.contents i)) =
        (.ok (r, p), s1) ∧ r.dataSampleFormat = .ok t ∧ AllReadable native r (atStart (fs.contents i)) ∧
        ∀ (i' : Nat) (vs : List PyNum), (r.traceSamples native i' none none (atStart (fs.contents i))).1 = .ok vs →
          ∀ v ∈ vs, ScalableBy t k v) ∧
    ((scaleCoordinatesMain float native (f :: a :: b :: rest) fs).1 = 0 ↔
      ∃ r p s1, createReader none fmtBinaryReelHeader fmtTraceHeaderRev1 .big none (atStart (fs.contents i)) =
        (.ok (r, p), s1) ∧ AllReadable native r (atStart (fs.contents i)) ∧
        ∀ (i' : Nat) (hd : Header), (r.traceHeader i' none (atStart (fs.contents i))).1 = .ok hd → HeaderScales k hd) := by
  have c1 := (C94_convert_partial native t a b rest fs _ _ hab rfl).2 i o hi ho hne
  have c2 := (C94_scale_samples_partial float native f a b rest fs _ _ k hf rfl).2 i o hi ho hne
  have c3 := (C94_scale_coordinates_partial float native f a b rest fs _ _ k hf rfl).2 i o hi ho hne
  have m1 : convertMain native (t.value :: a :: b :: rest) fs = fs.run a b (convertFile native t) := by
    unfold convertMain
    simp only [segYTypeOfValue_value, if_neg hab]
  have m2 : scaleSamplesMain float native (f :: a :: b :: rest) fs = fs.run a b (scaleSamplesFile native k) := by
    unfold scaleSamplesMain
    simp only [hf]
  have m3 : scaleCoordinatesMain float native (f :: a :: b :: rest) fs = fs.run a b (scaleCoordinatesFile native k) := by
    unfold scaleCoordinatesMain
    simp only [hf]
  refine ⟨⟨?_, ?_⟩, ⟨?_, ?_⟩, ⟨?_, ?_⟩⟩
  · intro hs
    by_contra hno
    cases hr : createReader none fmtBinaryReelHeader fmtTraceHeaderRev1 .big none (atStart (fs.contents i)) with
    | mk x s1 =>
    cases x with
    | error err => exact (c1.2 (.inl ⟨err, s1, hr⟩)).1 hs
    | ok x =>
    obtain ⟨r, p⟩ := x
    by_cases hfmt : r.dataSampleFormat = .ok .ibm
    swap
    · exact (c1.2 (.inr ⟨r, p, s1, hr, .inl hfmt⟩)).1 hs
    by_cases ht : t ∈ [SegYType.ibm, .int .int32, .int .int16, .int .int8, .float32]
    swap
    · exact (c1.2 (.inr ⟨r, p, s1, hr, .inr ht⟩)).1 hs
    obtain ⟨p', c, hw⟩ := (run_work hi ho hne (convertFile native t)).1.mp (by rw [← m1]; exact hs)
    have hw0 := hw
    unfold convertFile at hw
    simp only [hr, hfmt, ne_eq, not_true, if_false] at hw
    split at hw
    · cases hw
    rename_i d hd
    unfold Dataset.convert at hd
    obtain ⟨dsf, -, hd⟩ := res_bind_ok hd
    obtain ⟨bin, -, hd⟩ := res_bind_ok hd
    cases hd
    have hall : AllReadable native r (atStart (fs.contents i)) := by
      refine all_readable hr hw rfl (fun j h => h) ?_
      rintro j ⟨vs, h⟩
      obtain ⟨vs', h', -⟩ := res_bind_ok h
      exact ⟨vs', h'⟩
    refine hno ⟨r, p, s1, hr, hfmt, ht, hall, ?_⟩
    intro ht32
    subst ht32
    by_contra hbad
    push Not at hbad
    obtain ⟨j, vs, h1, x, h2, h3⟩ := hbad
    obtain ⟨c', hover⟩ := C68_float32_overflow native _ s1 r p hr hfmt hall ⟨j, vs, x, h1, h2, h3⟩
    rw [hover] at hw0
    cases hw0
  · rintro ⟨r, p, s1, h1, h2, h3, h4, h5⟩
    exact (c1.1 r p s1 h1 h2 h3 h4 h5).1
  · intro hs
    cases hr : createReader none fmtBinaryReelHeader fmtTraceHeaderRev1 .big none (atStart (fs.contents i)) with
    | mk x s1 =>
    cases x with
    | error err => exact absurd hs (c2.2 ⟨err, s1, hr⟩).1
    | ok x =>
    obtain ⟨r, p⟩ := x
    obtain ⟨p', c, hw⟩ := (run_work hi ho hne (scaleSamplesFile native k)).1.mp (by rw [← m2]; exact hs)
    unfold scaleSamplesFile at hw
    simp only [hr] at hw
    split at hw
    · cases hw
    rename_i d hd
    unfold Dataset.scaleSamples at hd
    obtain ⟨t', ht', hd⟩ := res_bind_ok hd
    cases hd
    have hall : AllReadable native r (atStart (fs.contents i)) := by
      refine all_readable hr hw rfl (fun j h => h) ?_
      rintro j ⟨vs, h⟩
      obtain ⟨vs', h', -⟩ := res_bind_ok h
      exact ⟨vs', h'⟩
    refine ⟨r, p, s1, t', rfl, ht', hall, ?_⟩
    by_contra hbad
    push Not at hbad
    obtain ⟨j, vs, h1, v, h2, h3⟩ := hbad
    have := (c2.1 r p s1 t' hr ht' hall).2 ⟨j, vs, h1, v, h2, h3⟩
    exact absurd (hs.symm.trans this) (by decide)
  · rintro ⟨r, p, s1, t', h1, h2, h3, h4⟩
    exact ((c2.1 r p s1 t' h1 h2 h3).1 h4).1
  · intro hs
    cases hr : createReader none fmtBinaryReelHeader fmtTraceHeaderRev1 .big none (atStart (fs.contents i)) with
    | mk x s1 =>
    cases x with
    | error err => exact absurd hs (c3.2 ⟨err, s1, hr⟩).1
    | ok x =>
    obtain ⟨r, p⟩ := x
    obtain ⟨p', c, hw⟩ := (run_work hi ho hne (scaleCoordinatesFile native k)).1.mp (by rw [← m3]; exact hs)
    unfold scaleCoordinatesFile at hw
    simp only [hr] at hw
    have hall : AllReadable native r (atStart (fs.contents i)) := by
      refine all_readable hr hw rfl ?_ (fun j h => h)
      rintro j ⟨hd, h⟩
      obtain ⟨hd', h', -⟩ := res_bind_ok h
      exact ⟨hd', h'⟩
    refine ⟨r, p, s1, rfl, hall, ?_⟩
    by_contra hbad
    push Not at hbad
    obtain ⟨j, hd, h1, h3⟩ := hbad
    have := (c3.1 r p s1 hr hall).2 ⟨j, hd, h1, h3⟩
    exact absurd (hs.symm.trans this) (by decide)
  · rintro ⟨r, p, s1, h1, h3, h4⟩
    exact ((c3.1 r p s1 h1 h3).1 h4).1

/-- `timed_reader.py` ends with status 64 without an argument; with the status that says why the file cannot be opened;
with 0 if it can be opened, also by `create_reader`, and its last trace lies in it in full or has no samples; with 70 if
its last trace is cut off or if `create_reader` raises. -/
theorem C94_timed_reader (native : Endian) (fs : FileSystem) :
    timedReaderMain native [] fs = 64 ∧
    ∀ a rest, (∀ err, fs.openRead a = .error err → timedReaderMain native (a :: rest) fs = statusOf err) ∧
      ∀ i, fs.openRead a = .ok i →
        (∀ err s1, createReader none fmtBinaryReelHeader fmtTraceHeaderRev1 .big none (atStart (fs.contents i)) =
          (.error err, s1) → timedReaderMain native (a :: rest) fs = 70) ∧
        ∀ r progress s1, createReader none fmtBinaryReelHeader fmtTraceHeaderRev1 .big none (atStart (fs.contents i)) =
          (.ok (r, progress), s1) →
          ∃ t starts p, Traces fmtTraceHeaderRev1 .big (fs.contents i) t.size
              (3600 + 3200 * r.extended_textual_headers.length) starts ∧
            r.dataSampleFormat = .ok t ∧ starts.getLast? = some p ∧
            timedReaderMain native (a :: rest) fs =
              if samplesAt fmtTraceHeaderRev1 .big (fs.contents i) p = 0 ∨
                  p + 240 + samplesAt fmtTraceHeaderRev1 .big (fs.contents i) p * t.size ≤ (fs.contents i).length
              then 0 else 70 := by
  refine ⟨rfl, ?_⟩
  intro a rest
  refine ⟨?_, ?_⟩
  · intro err h
    unfold timedReaderMain
    simp only [h]
    exact exitCode_statusOf err
  · intro i h
    have hmain : timedReaderMain native (a :: rest) fs = match (readTraces native (atStart (fs.contents i))).1 with
        | .error err => err.exitCode
        | .ok () => exitOk := by
      unfold timedReaderMain
      simp only [h]
      rfl
    obtain ⟨h1, h2⟩ := C80_read_traces native (atStart (fs.contents i))
    rw [hmain]
    refine ⟨?_, ?_⟩
    · intro err s1 hr
      rw [h1 err s1 hr]
      rcases C97_raises _ _ .big (C43_rev1_cataloguable .big) (C97_default_format .big).1 (C97_default_format .big).2 none
        (by simp) none _ rfl err (by rw [hr]) with rfl | rfl | ⟨rfl, -⟩ | ⟨rfl, -⟩ | ⟨rfl, -⟩ <;> rfl
    · intro r progress s1 hr
      obtain ⟨t, starts, p, g1, g2, g3, g4, g5⟩ := h2 r progress s1 hr
      refine ⟨t, starts, p, g1, g2, g3, ?_⟩
      split
      · rename_i err herr
        split
        · rename_i hc
          rw [g4 hc] at herr
          cases herr
        · rename_i hc
          rw [g5 hc] at herr
          cases herr
          rfl
      · rename_i hok
        split
        · rfl
        · rename_i hc
          rw [g5 hc] at hok
          cases hok

/-- If the two names lead to the same file, `loadsave.py`, `scale_samples.py` and `scale_source_coords.py` empty it and
fail; `convert_sample_type.py` does so unless the names are equal letter by letter.  What was in the file does not
matter. -/
theorem C94_same_file_fails (float : String → Option PyFloat) (native : Endian) (f a b : String) (fs : FileSystem) (i : Nat)
    (hi : fs.openRead a = .ok i) (ho : fs.openWrite b = .ok i) :
    ((loadSaveMain native [a, b] fs).1 = 70 ∧ (loadSaveMain native [a, b] fs).2.contents i = []) ∧
    (∀ t : SegYType, b ≠ a → (convertMain native [t.value, a, b] fs).1 = 70 ∧
      (convertMain native [t.value, a, b] fs).2.contents i = []) ∧
    (∀ k, float f = some k →
      ((scaleSamplesMain float native [f, a, b] fs).1 = 70 ∧ (scaleSamplesMain float native [f, a, b] fs).2.contents i = []) ∧
      ((scaleCoordinatesMain float native [f, a, b] fs).1 = 70 ∧
        (scaleCoordinatesMain float native [f, a, b] fs).2.contents i = [])) := by
  obtain ⟨s1, hr⟩ : ∃ s1, createReader none fmtBinaryReelHeader fmtTraceHeaderRev1 .big none { data := [], pos := 0 } =
      (.error .valueError, s1) := by
    have key : ((createReader none fmtBinaryReelHeader fmtTraceHeaderRev1 .big none { data := [], pos := 0 }).1.map
        fun _ => ()) = .error .valueError := by decide +kernel
    cases hr : createReader none fmtBinaryReelHeader fmtTraceHeaderRev1 .big none { data := [], pos := 0 } with
    | mk x s1 =>
    rw [hr] at key
    cases x with
    | ok x => cases key
    | error err => cases key; exact ⟨s1, rfl⟩
  have key : ∀ work : FileH → Res (List ℚ) × FileH,
      work { data := [], pos := 0 } = (.error .valueError, { data := [], pos := 0 }) →
      (fs.run a b work).1 = 70 ∧ (fs.run a b work).2.contents i = [] := by
    intro work hw
    unfold FileSystem.run
    simp only [hi, ho]
    have : (fs.put i []).contents i = [] := by simp [FileSystem.put]
    rw [this, hw]
    exact ⟨rfl, by simp [FileSystem.put]⟩
  refine ⟨key _ ?_, ?_, ?_⟩
  · unfold loadSaveFile
    simp only [hr]
  · intro t hab
    have ht := segYTypeOfValue_value t
    have : convertMain native [t.value, a, b] fs = fs.run a b (convertFile native t) := by
      unfold convertMain
      simp only [ht, if_neg hab]
    rw [this]
    apply key
    unfold convertFile
    simp only [hr]
  · intro k hk
    have e1 : scaleSamplesMain float native [f, a, b] fs = fs.run a b (scaleSamplesFile native k) := by
      unfold scaleSamplesMain
      simp only [hk]
    have e2 : scaleCoordinatesMain float native [f, a, b] fs = fs.run a b (scaleCoordinatesFile native k) := by
      unfold scaleCoordinatesMain
      simp only [hk]
    rw [e1, e2]
    refine ⟨key _ ?_, key _ ?_⟩
    · unfold scaleSamplesFile
      simp only [hr]
    · unfold scaleCoordinatesFile
      simp only [hr]

/-- A computer with one file, called `a` and `./a`, and place for another. -/
private def sampleSystem : FileSystem where
  openRead := fun n => if n = "a" ∨ n = "./a" then .ok 0 else if n = "/" then .error .isADirectory else .error .fileNotFound
  openWrite := fun n => if n = "a" ∨ n = "./a" then .ok 0 else if n = "/" then .error .isADirectory else .ok 1
  contents := fun i => if i = 0 then sampleFile.data else []

-- copying it; a missing file; a directory; and the same file under two names, which is then empty
example : (loadSaveMain .little ["a", "b"] sampleSystem).1 = 0 ∧
    ((loadSaveMain .little ["a", "b"] sampleSystem).2.contents 1).length = sampleFile.data.length := by decide +kernel
example : (loadSaveMain .little ["c", "b"] sampleSystem).1 = 66 ∧ (loadSaveMain .little ["a", "/"] sampleSystem).1 = 66 ∧
    (loadSaveMain .little ["a"] sampleSystem).1 = 64 := by decide +kernel
example : sampleSystem.contents 0 ≠ [] ∧ (loadSaveMain .little ["a", "./a"] sampleSystem).2.contents 0 = [] := by
  decide +kernel

end Segpy.Props
