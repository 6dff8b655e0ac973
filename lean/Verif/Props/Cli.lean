import Verif.Model.Cli
import Verif.Spec.Cli
import Verif.Props.Reel
import Verif.Props.Reader

/-! # Properties of the commands: C72 -/

namespace Segpy.Props

open Segpy.Spec Segpy.FileM

/-- A binary reel header format of 400 bytes with the codes of the sample format and the revision in their places. -/
structure StandardCodes (B : Format) : Prop where
  regular : Regular B .big 400
  start : B.startOffset = 3201
  format : (⟨"data_sample_format", vtDataSampleFormatField, 3225, 5⟩ : Field) ∈ B.fields
  revision : (⟨"format_revision_num", vtFormatRevisionNumField, 3501, 256⟩ : Field) ∈ B.fields

theorem standardCodes : StandardCodes fmtBinaryReelHeader :=
  ⟨shipped_regular (F := fmtBinaryReelHeader) (n := 400) (by decide +kernel) .big, by decide +kernel, by decide +kernel,
    by decide +kernel⟩

/-- What is known of a file that opens with the default arguments, but for the format of the binary reel header. -/
theorem opened_facts_of {B : Format} (hB : StandardCodes B) {s s' : FileH} (hs : s.pos = 0) {r : Reader} {progress : List ℚ}
    (h : createReader none B fmtTraceHeaderRev1 .big none s = (.ok (r, progress), s')) :
    ∃ code t starts, Survey s.data r.extended_textual_headers.length code starts ∧
      formatCode t = some code ∧ r.dataSampleFormat = .ok t ∧
      Describes fmtTraceHeaderRev1 .big s.data t starts r ∧
      r.dimensionality = .ok (dimensionOf (surveyLines s.data starts) (surveyEnsembles s.data starts)) ∧
      (r.dimensionality = .ok 3 → FindsByLines r (surveyLines s.data starts)) ∧
      (r.dimensionality = .ok 2 → FindsByEnsemble r (surveyEnsembles s.data starts)) ∧
      r.revision = (if storedInt .big .int16 ((s.data.drop 3500).take 2) = 0 then 0 else 256) := by
  have hR := hB.regular
  obtain ⟨-, hreel⟩ := C71_reel_headers none _ _ _ hR none s s' hs r progress h
  obtain ⟨t, code, h1, h2, h3, -⟩ := C71_sample_format none _ _ _ none s s' r progress h
  obtain ⟨t', starts, d, tr, f1, f2, f3, f4, f5, f6⟩ :=
    C49_finds _ .big (C43_rev1_cataloguable .big) none _ none s s' r progress h
  obtain rfl : t = t' := Except.ok.inj (h1.symm.trans d.data_sample_format)
  have hbytes : ∀ f n, f ∈ B.fields → f.offset - B.startOffset = (n : Nat) →
      f.value_type.size = 2 → n + 2 ≤ 400 → B.fieldBytes f ((s.data.drop 3200).take 400) =
        (s.data.drop (3200 + n)).take 2 := by
    intro f n _ h1 h2 h3
    unfold Format.fieldBytes slice
    rw [h1, h2, Int.toNat_natCast, List.drop_take, List.take_take, List.drop_drop]
    congr 1
    omega
  have hf1 := hB.format
  have hf2 := hB.revision
  have hcode := hreel.fields _ hf1
  have hrev := hreel.fields _ hf2
  rw [hbytes _ 24 hf1 (by rw [hB.start]; rfl) (by decide +kernel) (by omega)] at hcode
  rw [hbytes _ 300 hf2 (by rw [hB.start]; rfl) (by decide +kernel) (by omega)] at hrev
  obtain ⟨v, hv, hv'⟩ := C55_canonical_partial _ _ _ _ _ _ _ _ _ h
  have hdim : r.dimensionality =
      .ok (dimensionOf (surveyLines s.data starts) (surveyEnsembles s.data starts)) := by
    rw [f6]
    unfold dimensionOf surveyLines surveyEnsembles
    simp only
    split
    · rfl
    · split <;> rfl
  refine ⟨code, t, starts, ⟨Except.ok.inj (h2.symm.trans hcode), t, h3, tr⟩, h3, h1, d, hdim, ?_, ?_, ?_⟩
  · intro h
    refine f1 h ?_
    by_contra hc
    rw [hdim] at h
    unfold dimensionOf surveyLines at h
    rw [if_neg hc] at h
    split at h <;> cases h
  · intro h
    refine f2 h ?_
    by_contra hc
    rw [hdim] at h
    unfold dimensionOf surveyEnsembles at h
    rw [if_neg hc] at h
    split at h <;> cases h
  · have : v = storedInt .big .int16 ((s.data.drop 3500).take 2) := Except.ok.inj (hv.symm.trans hrev)
    rw [← this]
    rcases hv' with ⟨rfl, h⟩ | ⟨hv', h⟩
    · rw [if_pos rfl, h]
    · rw [if_neg (by omega), h]

/-- What is known of a file that opens with the default arguments. -/
theorem opened_facts {s s' : FileH} (hs : s.pos = 0) {r : Reader} {progress : List ℚ}
    (h : createReader none fmtBinaryReelHeader fmtTraceHeaderRev1 .big none s = (.ok (r, progress), s')) :
    ∃ code t starts, Survey s.data r.extended_textual_headers.length code starts ∧
      formatCode t = some code ∧ r.dataSampleFormat = .ok t ∧
      Describes fmtTraceHeaderRev1 .big s.data t starts r ∧
      r.dimensionality = .ok (dimensionOf (surveyLines s.data starts) (surveyEnsembles s.data starts)) ∧
      (r.dimensionality = .ok 3 → FindsByLines r (surveyLines s.data starts)) ∧
      (r.dimensionality = .ok 2 → FindsByEnsemble r (surveyEnsembles s.data starts)) ∧
      r.revision = (if storedInt .big .int16 ((s.data.drop 3500).take 2) = 0 then 0 else 256) :=
  opened_facts_of standardCodes hs h

private theorem names {t : SegYType} {code : Int} (h : formatCode t = some code) :
    (code, t.value, t.description) ∈ sampleFormatNames := by
  unfold formatCode at h
  split at h <;> cases h <;> decide

private theorem len_distinct {i : PyIter} {l : List Int} (h : Lists i l) : i.len = numDistinct l := by
  rw [PyIter.len_eq]
  have hn : i.toList.Nodup := h.1.imp fun h => ne_of_lt h
  unfold numDistinct
  rw [← List.toFinset_card_of_nodup hn]
  congr 1
  ext a
  rw [List.mem_toFinset, List.mem_toFinset]
  exact h.2 a

private theorem lines_3d {r r1 r2 : Reader} {i x : PyIter} (h1 : r.inlineNumbers = .ok (i, r1))
    (h2 : r.xlineNumbers = .ok (x, r2)) :
    reportCdps r = .ok [] ∧ reportLines r = .ok [.numInlines i.len, .numXlines x.len] := by
  unfold reportCdps reportLines
  rw [h1]
  unfold Reader.inlineNumbers at h1
  unfold Reader.xlineNumbers at h2
  unfold Reader.numCdps
  cases hk : r.kind with
  | plain => rw [hk] at h1; cases h1
  | twoD c n => rw [hk] at h1; cases h1
  | threeD line a b =>
    refine ⟨rfl, ?_⟩
    rw [hk] at h1 h2
    have key : r1.kind = .threeD line (some i) b := by
      cases a with
      | some a => cases h1; rfl
      | none =>
        cases line with
        | some c => cases h1; rfl
        | none =>
          obtain ⟨_, _, h1⟩ := res_bind_ok h1
          cases h1
          rfl
    have key2 : ∃ r3, r1.xlineNumbers = .ok (x, r3) := by
      unfold Reader.xlineNumbers
      rw [key]
      cases b with
      | some b => cases h2; exact ⟨_, rfl⟩
      | none =>
        cases line with
        | some c => cases h2; exact ⟨_, rfl⟩
        | none =>
          obtain ⟨y, hy, h2⟩ := res_bind_ok h2
          cases h2
          simp only
          rw [hy]
          exact ⟨_, rfl⟩
    obtain ⟨r3, h3⟩ := key2
    simp only
    rw [h3]

private theorem lines_not_3d {r : Reader} {n : Int} (hn : r.dimensionality = .ok n) (h : n ≠ 3) :
    reportLines r = .ok [] := by
  unfold reportLines Reader.inlineNumbers
  cases hk : r.kind with
  | plain => rfl
  | twoD c n => rfl
  | threeD line a b =>
    unfold Reader.dimensionality at hn
    rw [hk] at hn
    exact absurd (Except.ok.inj hn).symm h

private theorem cdps_not_2d {r : Reader} {n : Int} (hn : r.dimensionality = .ok n) (h : n ≠ 2) :
    reportCdps r = .ok [] := by
  unfold reportCdps Reader.numCdps
  cases hk : r.kind with
  | plain => rfl
  | twoD c m =>
    unfold Reader.dimensionality at hn
    rw [hk] at hn
    exact absurd (Except.ok.inj hn).symm h
  | threeD line a b => rfl

/-- `segpy metadata` prints, for every file that opens, the number of its traces, its dimensionality, the name of its
sample format and the greatest number of samples in a trace; if the file does not open, that exception is raised. -/
theorem C72_metadata (s : FileH) (hs : s.pos = 0) :
    match createReader none fmtBinaryReelHeader fmtTraceHeaderRev1 .big none s with
    | (.error k, _) => (metadata s).1 = .error k
    | (.ok (r, _), _) =>
      ReelHeaders (usedEncoding none s.data) fmtBinaryReelHeader .big s.data r.textual_reel_header r.binary_reel_header
        r.extended_textual_headers ∧
      ∃ code starts name description m, Survey s.data r.extended_textual_headers.length code starts ∧
        (code, name, description) ∈ sampleFormatNames ∧
        m ∈ surveySamples s.data starts ∧ (∀ n ∈ surveySamples s.data starts, n ≤ m) ∧
        (metadata s).1 = .ok ("{\"num_traces\": " ++ toString starts.length ++
          ", \"dimensionality\": " ++ toString (dimensionOf (surveyLines s.data starts) (surveyEnsembles s.data starts)) ++
          ", \"data_sample_format\": \"" ++ name ++ "\", \"max_num_trace_samples\": " ++ toString m ++ "}") := by
  cases hc : createReader none fmtBinaryReelHeader fmtTraceHeaderRev1 .big none s with
  | mk x s' =>
    cases x with
    | error k =>
      show (metadata s).1 = .error k
      unfold metadata
      rw [bind_error hc]
    | ok y =>
      obtain ⟨r, progress⟩ := y
      have hR := shipped_regular (F := fmtBinaryReelHeader) (n := 400) (by decide +kernel) .big
      obtain ⟨he, hreel⟩ := C71_reel_headers none _ _ _ hR none s s' hs r progress hc
      rw [he] at hreel
      obtain ⟨code, t, starts, h1, h2, h3, h4, h5, -, -, -⟩ := opened_facts hs hc
      obtain ⟨m, r', m1, ⟨p, hp, hm⟩, m3⟩ := h4.max_num_trace_samples
      refine ⟨hreel, code, starts, t.value, t.description, m, h1, names h2, ?_, ?_, ?_⟩
      · exact List.mem_map.mpr ⟨p, hp, hm⟩
      · intro n hn
        obtain ⟨q, hq, rfl⟩ := List.mem_map.mp hn
        exact m3 q hq
      · unfold metadata
        rw [bind_ok hc]
        simp only
        rw [h4.num_traces, h5, h3, m1]
        rfl

/-- What `segpy report` prints about the numbers of the traces: nothing if the dimensionality is zero. -/
def numbersPrinted (lines : List (Int × Int)) (ensembles : List Int) : List Printed :=
  if lines.Nodup then
    [.numInlines (numDistinct (lines.map Prod.fst)), .numXlines (numDistinct (lines.map Prod.snd))]
  else if ensembles.Nodup then [.numCdps ensembles.length]
  else []

/-- What a report says, for any such format of the binary reel header. -/
theorem report_facts {B : Format} (hB : StandardCodes B) (s : FileH) (hs : s.pos = 0) :
    match createReader none B fmtTraceHeaderRev1 .big none s with
    | (.error k, _) => (reportWith B s).1 = .error k
    | (.ok _, _) =>
      ∃ text binary pages code starts name description,
        ReelHeaders (usedEncoding none s.data) B .big s.data text binary pages ∧
        Survey s.data pages.length code starts ∧ (code, name, description) ∈ sampleFormatNames ∧
        (reportWith B s).1 = .ok
          ([.blank, .filename,
            .revision (if storedInt .big .int16 ((s.data.drop 3500).take 2) = 0 then 0 else 256),
            .numTraces starts.length, .dataFormat description,
            .dimensionality (dimensionOf (surveyLines s.data starts) (surveyEnsembles s.data starts))] ++
           numbersPrinted (surveyLines s.data starts) (surveyEnsembles s.data starts) ++
           [.beginTextual] ++ text.map (fun line => .line (line.drop 3)) ++
           [.endTextual, .blank, .beginExtended, .extended pages, .endExtended]) := by
  cases hc : createReader none B fmtTraceHeaderRev1 .big none s with
  | mk x s' =>
    cases x with
    | error k =>
      show (reportWith B s).1 = .error k
      unfold reportWith
      rw [bind_error hc]
    | ok y =>
      obtain ⟨r, progress⟩ := y
      have hR := hB.regular
      obtain ⟨he, hreel⟩ := C71_reel_headers none _ _ _ hR none s s' hs r progress hc
      rw [he] at hreel
      obtain ⟨code, t, starts, h1, h2, h3, h4, h5, h6, h7, h8⟩ := opened_facts_of hB hs hc
      refine ⟨_, _, _, code, starts, t.value, t.description, hreel, h1, names h2, ?_⟩
      have hprint : ∃ a b, reportCdps r = .ok a ∧ reportLines r = .ok b ∧
          a ++ b = numbersPrinted (surveyLines s.data starts) (surveyEnsembles s.data starts) := by
        unfold numbersPrinted
        unfold dimensionOf at h5
        by_cases hl : (surveyLines s.data starts).Nodup
        · rw [if_pos hl] at h5 ⊢
          have f := h6 h5
          obtain ⟨i, r1, hi, hi'⟩ := f.inlines
          obtain ⟨x, r2, hx, hx'⟩ := f.xlines
          refine ⟨[], [.numInlines i.len, .numXlines x.len], ?_, ?_, ?_⟩
          · exact (lines_3d hi hx).1
          · exact (lines_3d hi hx).2
          · rw [len_distinct hi', len_distinct hx']; rfl
        · rw [if_neg hl] at h5 ⊢
          by_cases hn : (surveyEnsembles s.data starts).Nodup
          · rw [if_pos hn] at h5 ⊢
            have f := h7 h5
            refine ⟨[.numCdps (surveyEnsembles s.data starts).length], [], ?_, ?_, rfl⟩
            · unfold reportCdps
              rw [f.num]
            · exact lines_not_3d h5 (by decide)
          · rw [if_neg hn] at h5 ⊢
            refine ⟨[], [], ?_, ?_, rfl⟩
            · exact cdps_not_2d h5 (by decide)
            · exact lines_not_3d h5 (by decide)
      obtain ⟨a, b, ha, hb, hab⟩ := hprint
      unfold reportWith
      rw [bind_ok hc, ← hab]
      simp only
      rw [h4.num_traces, show r.dataSampleFormatDescription = .ok t.description by
        unfold Reader.dataSampleFormatDescription; rw [h3]; rfl, h5, ha, hb, ← h8]
      refine congrArg Except.ok ?_
      simp only [List.append_assoc]

/-- `segpy report` prints, for every file that opens, the revision, the number of traces, the sample format, the
dimensionality, the numbers of different line numbers or of ensembles and the textual headers, without the first three
characters of each line of the first one; if the file does not open, that exception is raised. -/
theorem C72_report (s : FileH) (hs : s.pos = 0) :
    match createReader none fmtBinaryReelHeader fmtTraceHeaderRev1 .big none s with
    | (.error k, _) => (report s).1 = .error k
    | (.ok _, _) =>
      ∃ text binary pages code starts name description,
        ReelHeaders (usedEncoding none s.data) fmtBinaryReelHeader .big s.data text binary pages ∧
        Survey s.data pages.length code starts ∧ (code, name, description) ∈ sampleFormatNames ∧
        (report s).1 = .ok
          ([.blank, .filename,
            .revision (if storedInt .big .int16 ((s.data.drop 3500).take 2) = 0 then 0 else 256),
            .numTraces starts.length, .dataFormat description,
            .dimensionality (dimensionOf (surveyLines s.data starts) (surveyEnsembles s.data starts))] ++
           numbersPrinted (surveyLines s.data starts) (surveyEnsembles s.data starts) ++
           [.beginTextual] ++ text.map (fun line => .line (line.drop 3)) ++
           [.endTextual, .blank, .beginExtended, .extended pages, .endExtended]) :=
  report_facts standardCodes s hs

/-! The commands on a file of the examples: three traces with different line numbers. -/

example : (metadata sampleFile).1 =
    .ok "{\"num_traces\": 3, \"dimensionality\": 3, \"data_sample_format\": \"int16\", \"max_num_trace_samples\": 2}" := by
  decide +kernel

example : ((report sampleFile).1.map fun l => l.filter fun p => match p with | .line _ => false | _ => true) =
    .ok [.blank, .filename, .revision 0, .numTraces 3, .dataFormat "16 bit signed integer", .dimensionality 3,
      .numInlines 3, .numXlines 1, .beginTextual, .endTextual, .blank, .beginExtended, .extended [], .endExtended] := by
  decide +kernel

end Segpy.Props
