import Verif.Lemmas.Transform
import Verif.Lemmas.ExampleTransform
import Verif.Lemmas.NumpyReader

/-! # Properties of converting the samples of a file: C68 -/

namespace Segpy.Props

open Segpy.Spec Segpy.FileM

/-! ## C68 converting the sample format -/

theorem clipInt_eq (low high n : Int) (h : low ≤ high) : clipInt low high n = nearestIn low high n := by
  unfold clipInt nearestIn
  simp only
  split_ifs <;> omega

theorem truncation_of_value {x y : IBMFloat} (h : IsTruncation x.value y.value) : y.value = x.value := by
  have hx : IbmRepresentable x.value := ⟨_, _, _, _, rfl⟩
  have h1 := h.greatest _ hx (le_refl _)
  have h2 := le_antisymm h.le h1
  have h3 := h.same_sign
  rcases abs_eq_abs.mp h2 with h4 | h4
  · exact h4
  · rw [h4] at h3
    have : x.value = 0 := by nlinarith [mul_self_nonneg x.value]
    rw [h4, this, neg_zero]

theorem value_fits (x : IBMFloat) : FitsIbm (.float (.fin x.value)) := by
  obtain ⟨r, h, -⟩ := C02_roundtrip_value x
  obtain ⟨v, hv⟩ : ∃ buf, packIbmFloats [.float (.fin x.value)] = .ok buf := by
    refine ⟨r.toBytes ++ [], ?_⟩
    rw [IBMFloat.toFloat_eq] at h
    unfold packIbmFloats
    rw [List.mapM_cons, List.mapM_nil]
    show (do
      let items ← (do
        let b ← (do return (← IBMFloat.fromFloat (.fin x.value)).toBytes)
        return [b])
      return items.flatten : Res Bytes) = _
    rw [h]
    rfl
  exact (C42_ibm_accepts _).mp ⟨v, hv⟩ _ (List.mem_singleton.mpr rfl)

/-- What `convertSample` makes of an IBM float, and how it is stored. -/
private theorem convertSample_ibm (t : SegYType) (ht : t ∈ [.ibm, .int .int32, .int .int16, .int .int8, .float32])
    (x : IBMFloat) (hx : t = .float32 → Fits32 (.fin x.value)) :
    ∃ w, convertSample t (.ibm x) = .ok w ∧ Fits t w ∧ ∀ w', StoredAs t w w' → ConvertedTo t (.ibm x) w' := by
  have hint : ∀ n : IntType, intLo n = n.limitMin → intHi n = n.limitMax → n.limitMin ≤ n.limitMax →
      ∃ w, convertSample (.int n) (.ibm x) = .ok w ∧ Fits (.int n) w ∧
        ∀ w', StoredAs (.int n) w w' → ConvertedTo (.int n) (.ibm x) w' := by
    intro n h1 h2 h3
    refine ⟨.int (clipInt n.limitMin n.limitMax x.trunc), rfl, ⟨_, rfl, ?_, ?_⟩, ?_⟩
    · rw [clipInt_eq _ _ _ h3, h1]; exact le_max_left _ _
    · rw [clipInt_eq _ _ _ h3, h2]; exact max_le h3 (min_le_left _ _)
    · rintro w' rfl
      refine ⟨x, rfl, ?_⟩
      rw [clipInt_eq _ _ _ h3, h1, h2, C09_trunc]
      rfl
  simp only [List.mem_cons, List.not_mem_nil, or_false] at ht
  rcases ht with rfl | rfl | rfl | rfl | rfl
  · refine ⟨.float (.fin x.value), ?_, value_fits x, ?_⟩
    · show (do return .float (← floatOfNum (.ibm x)) : Res PyNum) = _
      rw [floatOfNum, IBMFloat.toFloat_eq]; rfl
    · rintro w' ⟨y, rfl, hy⟩
      exact ⟨x, y, rfl, rfl, truncation_of_value hy⟩
  · exact hint _ rfl rfl (by decide)
  · exact hint _ rfl rfl (by decide)
  · exact hint _ rfl rfl (by decide)
  · refine ⟨.float (.fin x.value), ?_, ⟨_, rfl, hx rfl⟩, ?_⟩
    · show (do return .float (← floatOfNum (.ibm x)) : Res PyNum) = _
      rw [floatOfNum, IBMFloat.toFloat_eq]; rfl
    · rintro w' ⟨f, g, h1, rfl, h2⟩
      cases h1
      exact ⟨x, g, rfl, rfl, h2⟩

/-- The binary header with another sample format. -/
private theorem copy_format (t : SegYType) (ht : t ∈ [.ibm, .int .int32, .int .int16, .int .int8, .float32]) (b : Header)
    (hb : b.format = fmtBinaryReelHeader) (hv : b.Valid) :
    ∃ b', b.copy [("data_sample_format", codeOf t)] = .ok b' ∧ b'.format = fmtBinaryReelHeader ∧ b'.Valid ∧
      (∀ f ∈ fmtBinaryReelHeader.fields, ∃ v, b.get f.name = .ok v ∧
        b'.get f.name = .ok (if f.name = "data_sample_format" then codeOf t else v)) ∧
      b'.get "data_sample_format" = .ok (codeOf t) := by
  have hadm : ∃ f ∈ fmtBinaryReelHeader.fields, f.name = "data_sample_format" ∧ f.value_type.Admits (codeOf t) := by
    have key : ∀ t ∈ [SegYType.ibm, .int .int32, .int .int16, .int .int8, .float32],
        ∃ f ∈ fmtBinaryReelHeader.fields, f.name = "data_sample_format" ∧ f.value_type.Admits (codeOf t) := by
      decide +kernel
    exact key t ht
  have huniq : ∀ f ∈ fmtBinaryReelHeader.fields, ∀ g ∈ fmtBinaryReelHeader.fields, f.name = g.name → f = g := by
    intro f hf g hg hfg
    have h1 := Format.mem_fields.mp hf
    rw [hfg, Format.mem_fields.mp hg] at h1
    exact (Option.some.inj h1).symm
  obtain ⟨b', h1, h2, h3, h4⟩ := C32_copy b [("data_sample_format", codeOf t)] hv (by simp) (by
    intro u hu
    rw [List.mem_singleton.mp hu, hb]
    exact hadm)
  have hup := h3 ("data_sample_format", codeOf t) (by simp)
  refine ⟨b', h1, by rw [h2, hb], ?_, ?_, hup⟩
  · intro f hf
    rw [h2, hb] at hf
    by_cases hn : f.name = "data_sample_format"
    · obtain ⟨g, g1, g2, g3⟩ := hadm
      have := huniq f hf g g1 (by rw [hn, g2])
      subst this
      exact ⟨_, by rw [hn]; exact hup, g3⟩
    · obtain ⟨v, hv1, hv2⟩ := hv f (by rw [hb]; exact hf)
      exact ⟨v, by rw [h4 f (by rw [hb]; exact hf) (by simpa using hn), hv1], hv2⟩
  · intro f hf
    obtain ⟨v, hv1, hv2⟩ := hv f (by rw [hb]; exact hf)
    refine ⟨v, hv1, ?_⟩
    by_cases hn : f.name = "data_sample_format"
    · rw [if_pos hn, hn]; exact hup
    · rw [if_neg hn, h4 f (by rw [hb]; exact hf) (by simpa using hn), hv1]

private theorem code_eq (t : SegYType) (ht : t ∈ [.ibm, .int .int32, .int .int16, .int .int8, .float32]) :
    segYTypeToDataSampleFormat t = .ok (codeOf t) ∧ dataSampleFormatToSegYType (codeOf t) = .ok t := by
  simp only [List.mem_cons, List.not_mem_nil, or_false] at ht
  rcases ht with rfl | rfl | rfl | rfl | rfl <;> exact ⟨rfl, rfl⟩

/-- A sample of an IBM file is an IBM float. -/
private theorem ibm_sample {T : Format} {e : Endian} (hT : Cataloguable T e) {encoding : Option Encoding} {B : Format}
    {dim : Option Int} {s s1 : FileH} {r : Reader} {p : List ℚ}
    (h : createReader encoding B T e dim s = (.ok (r, p), s1)) (hfmt : r.dataSampleFormat = .ok .ibm) {native : Endian}
    {i : Nat} {vs : List PyNum} (hvs : (r.traceSamples native i none none s).1 = .ok vs) {v : PyNum} (hv : v ∈ vs) :
    ∃ x, v = .ibm x := by
  obtain ⟨t, starts, hr, ho⟩ := createReader_all hT h
  have ht : t = .ibm := by
    have := ho.format
    rw [hfmt] at this
    exact (Except.ok.inj this).symm
  subst ht
  by_cases hi : i < starts.length
  · obtain ⟨item, -, a, b, c, d, -, h2⟩ := samples_standFor hr hi hvs v hv
    exact ⟨_, h2⟩
  · rw [C45_invalid r native i starts.length 0 none none s hr.describes.num_traces (Or.inr (by omega)) (by omega)] at hvs
    cases hvs

/-- The bounds within which an IBM float must lie to be converted to a given format. -/
def Convertible (native : Endian) (t : SegYType) (r : Reader) (s : FileH) : Prop :=
  t = .float32 → ∀ (i : Nat) (vs : List PyNum), (r.traceSamples native i none none s).1 = .ok vs →
    ∀ x, .ibm x ∈ vs → |x.value| < (2 : ℚ) ^ (128 : Int) - 2 ^ (103 : Int)

/-- Converting a file of IBM floats, all of whose traces can be read, to any of the formats there are: the new file has
the new sample format and otherwise the same headers, and its samples are the converted ones.  To `float32` only if
every sample is in range. -/
theorem C68_convert (native : Endian) (t : SegYType) (ht : t ∈ [.ibm, .int .int32, .int .int16, .int .int8, .float32])
    (s s1 : FileH) (hs0 : s.pos = 0) (r : Reader) (p : List ℚ)
    (h : createReader none fmtBinaryReelHeader fmtTraceHeaderRev1 .big none s = (.ok (r, p), s1))
    (hfmt : r.dataSampleFormat = .ok .ibm) (hread : AllReadable native r s) (hconv : Convertible native t r s) :
    ∃ p' c, convertFile native t s = (.ok p', c) ∧ c.data.take 3200 = s.data.take 3200 ∧
      ∃ r' p'' c1, createReader none fmtBinaryReelHeader fmtTraceHeaderRev1 .big none { c with pos := 0 } =
          (.ok (r', p''), c1) ∧ r'.dataSampleFormat = .ok t ∧
        Transformed fmtTraceHeaderRev1 fmtBinaryReelHeader native
          (fun n v => if n = "data_sample_format" then codeOf t else v) (fun _ v => v) (ConvertedTo t)
          r s r' { c with pos := 0 } := by
  have hT := C43_rev1_cataloguable .big
  have hTr := shipped_regular (F := fmtTraceHeaderRev1) (n := 240) (by decide +kernel) .big
  have hB := shipped_regular (F := fmtBinaryReelHeader) (n := 400) (by decide +kernel) .big
  obtain ⟨b1, b2⟩ := createReader_binary hB.afterStart hB.orderSafe h
  obtain ⟨b', hb1, hb2, hb3, hb4, hb5⟩ := copy_format t ht _ b1 b2
  obtain ⟨hc1, hc2⟩ := code_eq t ht
  have hd : (r.asDataset native s).convert t = .ok { r.asDataset native s with
      binary_reel_header := b'
      trace_samples := fun i => do ((← (r.asDataset native s).trace_samples i).mapM (convertSample t)) } := by
    unfold Dataset.convert
    rw [hc1]
    show (do
      let binary ← r.binary_reel_header.copy [("data_sample_format", codeOf t)]
      _) = _
    rw [hb1]
    rfl
  obtain ⟨p', c, h1, h2, r', p'', c1, h3, h4⟩ := mapped_contents hT hT hTr hB hs0 h hread rfl hb2 hb3
    (bin := fun n v => if n = "data_sample_format" then codeOf t else v) hb4
    (by intro n hn
        simp only [List.mem_cons, List.not_mem_nil, or_false] at hn
        rcases hn with rfl | rfl <;> rfl)
    (t' := t) (by
      show (do dataSampleFormatToSegYType (← b'.get "data_sample_format")) = _
      rw [hb5]
      exact hc2)
    (f := convertSample t) (smp := ConvertedTo t) (by
      intro i vs hvs v hv
      obtain ⟨x, rfl⟩ := ibm_sample hT h hfmt hvs hv
      exact convertSample_ibm t ht x fun hf => hconv hf i vs hvs x hv)
  refine ⟨p', c, ?_, h2, r', p'', c1, h3, ?_, h4⟩
  · unfold convertFile
    simp only [h, hfmt, hd, ne_eq, not_true, if_false]
    exact h1
  · have hf : ∃ f ∈ fmtBinaryReelHeader.fields, f.name = "data_sample_format" := by decide +kernel
    obtain ⟨f, hf1, hf2⟩ := hf
    obtain ⟨v, -, hv⟩ := h4.binary f hf1
    rw [hf2, if_pos rfl] at hv
    unfold Reader.dataSampleFormat
    rw [hv]
    exact hc2

/-- A sample too great for `float32` stops the conversion in the middle with `OverflowError`. -/
theorem C68_float32_overflow (native : Endian) (s s1 : FileH) (r : Reader) (p : List ℚ)
    (h : createReader none fmtBinaryReelHeader fmtTraceHeaderRev1 .big none s = (.ok (r, p), s1))
    (hfmt : r.dataSampleFormat = .ok .ibm) (hread : AllReadable native r s)
    (hbig : ∃ (i : Nat) (vs : List PyNum) (x : IBMFloat), (r.traceSamples native i none none s).1 = .ok vs ∧
      .ibm x ∈ vs ∧ (2 : ℚ) ^ (128 : Int) - 2 ^ (103 : Int) ≤ |x.value|) :
    ∃ c, convertFile native .float32 s = (.error .overflowError, c) := by
  have hT := C43_rev1_cataloguable .big
  have hTr := shipped_regular (F := fmtTraceHeaderRev1) (n := 240) (by decide +kernel) .big
  have hB := shipped_regular (F := fmtBinaryReelHeader) (n := 400) (by decide +kernel) .big
  obtain ⟨b1, b2⟩ := createReader_binary hB.afterStart hB.orderSafe h
  obtain ⟨b', hb1, hb2, hb3, hb4, hb5⟩ := copy_format .float32 (by simp) _ b1 b2
  have hd : (r.asDataset native s).convert .float32 = .ok { r.asDataset native s with
      binary_reel_header := b'
      trace_samples := fun i => do ((← (r.asDataset native s).trace_samples i).mapM (convertSample .float32)) } := by
    unfold Dataset.convert
    show (do
      let binary ← r.binary_reel_header.copy [("data_sample_format", codeOf .float32)]
      _) = _
    rw [hb1]
    rfl
  have hval : ∀ x : IBMFloat, convertSample .float32 (.ibm x) = .ok (.float (.fin x.value)) := by
    intro x
    show (do return .float (← floatOfNum (.ibm x)) : Res PyNum) = _
    rw [floatOfNum, IBMFloat.toFloat_eq]; rfl
  obtain ⟨j, vs, err, c, h1, h2, h3⟩ := mapped_raises hT hT hTr hB h hread rfl hb2 hb3
    (bin := fun n v => if n = "data_sample_format" then codeOf .float32 else v) hb4
    (by intro n hn
        simp only [List.mem_cons, List.not_mem_nil, or_false] at hn
        rcases hn with rfl | rfl <;> rfl)
    (t' := .float32) (by
      show (do dataSampleFormatToSegYType (← b'.get "data_sample_format")) = _
      rw [hb5]
      rfl)
    (f := convertSample .float32) (by
      intro _ v w hw
      obtain ⟨g, -, h2⟩ := res_bind_ok hw
      exact ⟨g, (Except.ok.inj h2).symm⟩)
    (by
      obtain ⟨i, vs, x, h1, h2, h3⟩ := hbig
      refine ⟨i, vs, h1, _, h2, ?_⟩
      rintro ⟨w, h4, f, rfl, h5⟩
      rw [hval] at h4
      cases h4
      exact absurd h5 (not_lt.mpr h3))
  have herr : err = .overflowError := by
    rcases h3 with h3 | ⟨_, -, -, h3, -⟩
    · exfalso
      obtain ⟨ws, h4, -⟩ := mapM_related (f := convertSample .float32) (P := fun _ _ => True) (l := vs) (by
        intro v hv
        obtain ⟨x, rfl⟩ := ibm_sample hT h hfmt h1 hv
        exact ⟨_, hval x, trivial⟩)
      rw [h4] at h3
      cases h3
    · exact h3 rfl
  subst herr
  refine ⟨c, ?_⟩
  unfold convertFile
  simp only [h, hfmt, hd, ne_eq, not_true, if_false]
  exact h2

/-- Only files of IBM floats are converted. -/
theorem C68_not_ibm (native : Endian) (t t0 : SegYType) (s s1 : FileH) (r : Reader) (p : List ℚ)
    (h : createReader none fmtBinaryReelHeader fmtTraceHeaderRev1 .big none s = (.ok (r, p), s1))
    (hfmt : r.dataSampleFormat = .ok t0) (ht : t0 ≠ .ibm) :
    convertFile native t s = (.error .runtimeError, { data := [], pos := 0 }) := by
  unfold convertFile
  simp only [h, hfmt, ne_eq, ht, not_false_eq_true, if_true]

/-- A sample format that files cannot have, such as the unsigned integers of headers, is refused with `KeyError`. -/
theorem C68_unknown_format (native : Endian) (t : SegYType)
    (ht : t ∉ [SegYType.ibm, .int .int32, .int .int16, .int .int8, .float32]) (s s1 : FileH) (r : Reader) (p : List ℚ)
    (h : createReader none fmtBinaryReelHeader fmtTraceHeaderRev1 .big none s = (.ok (r, p), s1))
    (hfmt : r.dataSampleFormat = .ok .ibm) :
    convertFile native t s = (.error .keyError, { data := [], pos := 0 }) := by
  have hk : segYTypeToDataSampleFormat t = .error .keyError := by
    revert ht
    cases t with
    | int n => cases n <;> simp [segYTypeToDataSampleFormat]
    | float32 => simp
    | ibm => simp
  unfold convertFile Dataset.convert
  simp only [h, hfmt, hk, ne_eq, not_true, if_false]
  rfl

section Example

/-- A file of the IBM floats -2.5 and 16 ^ 62. -/
private def ibmFile : FileH := oneTrace 1 2 [0xC1, 0x28, 0, 0, 0x7F, 0x10, 0, 0]

private def minusTwoAndAHalf : IBMFloat := ⟨0xC1, 0x28, 0, 0⟩

private def great : IBMFloat := ⟨0x7F, 0x10, 0, 0⟩

private theorem ibmFile_check : oneTraceCheck ibmFile =
    .ok ⟨.ok 1, .ok [0], .ok (), .ok [.ibm minusTwoAndAHalf, .ibm great], .ok .ibm⟩ := by
  unfold oneTraceCheck
  decide +kernel

-- converted to int16, this becomes a file of -2 and 32767
example : ∃ p' c r' p'' c1, convertFile .little (.int .int16) ibmFile = (.ok p', c) ∧
    createReader none fmtBinaryReelHeader fmtTraceHeaderRev1 .big none { c with pos := 0 } = (.ok (r', p''), c1) ∧
    r'.binary_reel_header.get "data_sample_format" = .ok 3 ∧
    (r'.traceSamples .little 0 none none { c with pos := 0 }).1 = .ok [.int (-2), .int 32767] := by
  obtain ⟨r, p, s1, h1, h2, h3, h4, -⟩ := oneTrace_ready ibmFile_check
  obtain ⟨p', c, h5, -, r', p'', c1, h6, -, h7⟩ := C68_convert .little (.int .int16) (by simp) ibmFile s1 rfl r p h1 h3 h2
    (by intro h; cases h)
  have hf : ∃ f ∈ fmtBinaryReelHeader.fields, f.name = "data_sample_format" := by decide +kernel
  obtain ⟨f, hf1, hf2⟩ := hf
  obtain ⟨v, -, hv⟩ := h7.binary f hf1
  rw [hf2, if_pos rfl] at hv
  refine ⟨p', c, r', p'', c1, h5, h6, hv, ?_⟩
  rcases h7.trace_samples 0 none none 0 0 with ⟨vs, ws, g1, g2, g3⟩ | ⟨g1, -⟩
  · obtain rfl := Except.ok.inj (g1.symm.trans h4)
    rw [g2]
    simp only [List.forall₂_cons_left_iff, List.forall₂_nil_left_iff] at g3
    obtain ⟨w, u, ⟨x, hx, hw⟩, ⟨w', u', ⟨x', hx', hw'⟩, rfl, rfl⟩, rfl⟩ := g3
    cases hx
    cases hx'
    have e1 : nearestIn (intLo .int16) (intHi .int16) (integerPart minusTwoAndAHalf.value) = -2 := by decide +kernel
    have e2 : nearestIn (intLo .int16) (intHi .int16) (integerPart great.value) = 32767 := by decide +kernel
    rw [hw, hw', e1, e2]
  · cases g1.symm.trans h4

-- to float32 it cannot be converted
example : ∃ c, convertFile .little .float32 ibmFile = (.error .overflowError, c) := by
  obtain ⟨r, p, s1, h1, h2, h3, h4, -⟩ := oneTrace_ready ibmFile_check
  exact C68_float32_overflow .little ibmFile s1 r p h1 h3 h2 ⟨0, _, great, h4, by simp, by decide +kernel⟩

-- nor to a type that only headers have
example : convertFile .little (.int .nnint16) ibmFile = (.error .keyError, { data := [], pos := 0 }) := by
  obtain ⟨r, p, s1, h1, h2, h3, h4, -⟩ := oneTrace_ready ibmFile_check
  exact C68_unknown_format .little (.int .nnint16) (by decide) ibmFile s1 r p h1 h3

/-- A file of -2.5 and 1/3, as nearly as an IBM float can be. -/
private def modestFile : FileH := oneTrace 1 2 [0xC1, 0x28, 0, 0, 0x40, 0x55, 0x55, 0x55]

private theorem modestFile_check : oneTraceCheck modestFile =
    .ok ⟨.ok 1, .ok [0], .ok (), .ok [.ibm minusTwoAndAHalf, .ibm ⟨0x40, 0x55, 0x55, 0x55⟩], .ok .ibm⟩ := by
  unfold oneTraceCheck
  decide +kernel

-- this one can
example : ∃ r p s1, createReader none fmtBinaryReelHeader fmtTraceHeaderRev1 .big none modestFile = (.ok (r, p), s1) ∧
    r.dataSampleFormat = .ok .ibm ∧ AllReadable .little r modestFile ∧ Convertible .little .float32 r modestFile := by
  obtain ⟨r, p, s1, h1, h2, h3, h4, h5⟩ := oneTrace_ready modestFile_check
  refine ⟨r, p, s1, h1, h3, h2, ?_⟩
  intro _ i vs hvs x hx
  rw [h5 i vs hvs] at hx
  simp only [List.mem_cons, PyNum.ibm.injEq, List.not_mem_nil, or_false] at hx
  rcases hx with rfl | rfl <;> decide +kernel

-- a file of two byte integers is refused
example : convertFile .little .ibm (oneTrace 3 1 [0, 7]) = (.error .runtimeError, { data := [], pos := 0 }) := by
  have check : oneTraceCheck (oneTrace 3 1 [0, 7]) = .ok ⟨.ok 1, .ok [0], .ok (), .ok [.int 7], .ok (.int .int16)⟩ := by
    unfold oneTraceCheck
    decide +kernel
  obtain ⟨r, p, s1, h1, h2, h3, h4, -⟩ := oneTrace_ready check
  exact C68_not_ibm .little .ibm _ _ s1 r p h1 h3 (by decide)

end Example

end Segpy.Props
