import Verif.Props.Transform

/-! # Properties of scaling the samples of a file: C69 -/

namespace Segpy.Props

open Segpy.Spec Segpy.FileM

/-! ## C69 scaling samples -/

private theorem lt_fin (a b : ℚ) : ((PyFloat.fin a).lt (.fin b) = true) ↔ a < b := by
  show decide (a < b) = true ↔ _
  exact decide_eq_true_iff

private theorem clipFloat_of_lt {low high f : PyFloat} (h : f.lt high = true) :
    clipFloat low high f = if low.lt f then f else low := by
  unfold clipFloat
  rw [if_pos h]

private theorem clipFloat_of_not_lt {low high f : PyFloat} (h : ¬ f.lt high = true) :
    clipFloat low high f = if low.lt high then high else low := by
  unfold clipFloat
  rw [if_neg h]

theorem clipFloat_eq {L : ℚ} (hL : 0 < L) (f : PyFloat) : clipFloat (.fin (-L)) (.fin L) f = limited L f := by
  have hlow : (PyFloat.fin (-L)).lt (.fin L) = true := (lt_fin _ _).mpr (by linarith)
  cases f with
  | fin q =>
    by_cases h1 : q < L
    · rw [clipFloat_of_lt ((lt_fin _ _).mpr h1)]
      show _ = PyFloat.fin (max (-L) (min L q))
      rw [min_eq_right h1.le]
      by_cases h2 : -L < q
      · rw [if_pos ((lt_fin _ _).mpr h2), max_eq_right h2.le]
      · rw [if_neg (mt (lt_fin _ _).mp h2), max_eq_left (not_lt.mp h2)]
    · rw [clipFloat_of_not_lt (mt (lt_fin _ _).mp h1), if_pos hlow]
      show _ = PyFloat.fin (max (-L) (min L q))
      rw [min_eq_left (not_lt.mp h1), max_eq_right (by linarith)]
  | negZero =>
    have e1 : PyFloat.negZero.lt (.fin L) = true := by
      show decide ((0 : ℚ) < L) = true
      exact decide_eq_true hL
    have e2 : (PyFloat.fin (-L)).lt .negZero = true := by
      show decide (-L < (0 : ℚ)) = true
      exact decide_eq_true (by linarith)
    rw [clipFloat_of_lt e1, if_pos e2]
    rfl
  | inf neg =>
    cases neg
    · rw [clipFloat_of_not_lt (by simp [PyFloat.lt]), if_pos hlow]
      rfl
    · rw [clipFloat_of_lt (by simp [PyFloat.lt]), if_neg (by simp [PyFloat.lt])]
      rfl
  | nan =>
    rw [clipFloat_of_not_lt (by simp [PyFloat.lt]), if_pos hlow]
    rfl

theorem limited_bounds {L : ℚ} (hL : 0 < L) (f : PyFloat) : limited L f = .negZero ∨ ∃ q, limited L f = .fin q ∧ |q| ≤ L := by
  cases f with
  | fin q => exact Or.inr ⟨_, rfl, abs_le.mpr ⟨le_max_left _ _, max_le (by linarith) (min_le_left _ _)⟩⟩
  | negZero => exact Or.inl rfl
  | inf neg => refine Or.inr ⟨_, rfl, ?_⟩; cases neg <;> simp [abs_of_pos hL]
  | nan => exact Or.inr ⟨_, rfl, le_of_eq (abs_of_pos hL)⟩

theorem limitFloat_float32 : limitFloat .float32 = float32Limit := rfl

theorem float32Limit_bounds : 0 < float32Limit ∧ float32Limit < (2 : ℚ) ^ (128 : Int) - 2 ^ (103 : Int) := by
  decide +kernel

theorem ibmMax_pos : 0 < ibmMax := by unfold ibmMax; norm_num

/-- Integers below `2 ^ 53` are floats. -/
theorem ofRat_int {n : Int} (h : |n| < 2 ^ 53) : PyFloat.ofRat n = .fin n := by
  have hr : round64 (n : ℚ) = n := roundTo_of_representable ⟨n, 0, by simp, h, by decide⟩
  have hb : |(n : ℚ)| < 2 ^ 53 := by
    rw [← Int.cast_abs]
    exact_mod_cast h
  unfold PyFloat.ofRat
  rw [hr]
  simp only
  rw [if_neg (by
    have : (2 : ℚ) ^ 53 ≤ 2 ^ (1024 : Int) := by
      rw [← zpow_natCast]
      exact zpow_le_zpow_right₀ (by norm_num) (by norm_num)
    exact not_le.mpr (lt_of_lt_of_le hb this)), if_neg]
  rintro ⟨h1, h2⟩
  rw [h1] at h2
  exact lt_irrefl _ h2

theorem ofInt_int {n : Int} (h : |n| < 2 ^ 53) : PyFloat.ofInt n = .ok (.fin n) := by
  unfold PyFloat.ofInt
  rw [ofRat_int h]

/-- A sample of a file stands for bytes of the size of its format. -/
theorem sample_kind {T : Format} {e : Endian} (hT : Cataloguable T e) {encoding : Option Encoding} {B : Format}
    {dim : Option Int} {s s1 : FileH} {r : Reader} {p : List ℚ} {t : SegYType}
    (h : createReader encoding B T e dim s = (.ok (r, p), s1)) (hfmt : r.dataSampleFormat = .ok t) {native : Endian}
    {i : Nat} {vs : List PyNum} (hvs : (r.traceSamples native i none none s).1 = .ok vs) {v : PyNum} (hv : v ∈ vs) :
    ∃ item : Bytes, item.length = t.size ∧ StandsFor e t item v := by
  obtain ⟨t', starts, hr, ho⟩ := createReader_all hT h
  have ht : t' = t := by
    have := ho.format
    rw [hfmt] at this
    exact (Except.ok.inj this).symm
  subst ht
  by_cases hi : i < starts.length
  · exact samples_standFor hr hi hvs v hv
  · rw [C45_invalid r native i starts.length 0 none none s hr.describes.num_traces (Or.inr (by omega)) (by omega)] at hvs
    cases hvs

theorem int_sample_bounds (t : IntType) {n : Int} (h1 : intLo t ≤ n) (h2 : n ≤ intHi t) : |n| < 2 ^ 53 := by
  rw [abs_lt]
  cases t <;> simp only [intLo, intHi] at h1 h2 <;> constructor <;> omega

theorem intOfFloat_eq {f : PyFloat} (h : f.isFinite = true) : intOfFloat f = .ok (integerPart f.val) := by
  cases f with
  | fin q =>
    show Except.ok (if q < 0 then ⌈q⌉ else ⌊q⌋) = Except.ok (if 0 ≤ q then ⌊q⌋ else ⌈q⌉)
    by_cases hq : q < 0
    · rw [if_pos hq, if_neg (not_le.mpr hq)]
    · rw [if_neg hq, if_pos (not_lt.mp hq)]
  | negZero => simp [intOfFloat, PyFloat.val, integerPart]
  | inf _ => cases h
  | nan => cases h

/-- What `scaleSample` makes of a sample, and how it is stored. -/
private theorem scaleSample_ok {e : Endian} {t : SegYType}
    (ht : t ∈ [SegYType.ibm, .int .int32, .int .int16, .int .int8, .float32]) {item : Bytes} {v : PyNum}
    (hl : item.length = t.size) (hv : StandsFor e t item v) (k : PyFloat) (hk : ScalableBy t k v) :
    ∃ w, scaleSample t k v = .ok w ∧ Fits t w ∧ ∀ w', StoredAs t w w' → ScaledBy t k v w' := by
  cases t with
  | int t =>
    have hv' : v = .int (storedInt e t item) := hv
    obtain ⟨b1, b2⟩ := storedInt_bounds (e := e) (t := t) hl
    generalize storedInt e t item = n at hv' b1 b2
    subst hv'
    have hfin := hk n rfl
    have hlim : t.limitMin = intLo t ∧ t.limitMax = intHi t ∧ intLo t ≤ intHi t := by
      revert ht
      cases t <;> decide
    refine ⟨.int (nearestIn (intLo t) (intHi t) (integerPart ((PyFloat.fin n).mul k).val)), ?_, ⟨_, rfl, le_max_left _ _,
      max_le hlim.2.2 (min_le_left _ _)⟩, ?_⟩
    · unfold scaleSample scaleNum
      simp only [floatOfNum, ofInt_int (int_sample_bounds t b1 b2), bind, Except.bind, pure, Except.pure]
      rw [intOfFloat_eq hfin]
      simp only
      rw [clipInt_eq _ _ _ (by rw [hlim.1, hlim.2.1]; exact hlim.2.2), hlim.1, hlim.2.1]
    · rintro w' rfl
      exact ⟨n, rfl, hfin, rfl⟩
  | float32 =>
    obtain ⟨f, rfl, -⟩ := hv
    refine ⟨.float (limited float32Limit (f.mul k)), ?_, ⟨_, rfl, ?_⟩, ?_⟩
    · show Except.ok (PyNum.float (clipFloat (.fin (-limitFloat .float32)) (.fin (limitFloat .float32)) (f.mul k))) = _
      rw [limitFloat_float32, clipFloat_eq float32Limit_bounds.1]
    · rcases limited_bounds float32Limit_bounds.1 (f.mul k) with h | ⟨q, h, hq⟩
      · rw [h]; trivial
      · rw [h]; exact lt_of_le_of_lt hq float32Limit_bounds.2
    · rintro w' ⟨f', g, h1, rfl, h2⟩
      cases h1
      exact ⟨f, g, rfl, rfl, h2⟩
  | ibm =>
    obtain ⟨a, b, c, d, -, rfl⟩ := hv
    generalize IBMFloat.mk a b c d = x at hk
    refine ⟨.float (limited ibmMax ((PyFloat.fin x.value).mul k)), ?_, ?_, ?_⟩
    · show Except.ok (PyNum.float (clipFloat (.fin (-limitFloat .ibm)) (.fin (limitFloat .ibm)) (x.toFloat.mul k))) = _
      rw [IBMFloat.toFloat_eq, show limitFloat .ibm = ibmMax from IBMFloat.maxIbm_eq, clipFloat_eq ibmMax_pos]
    · show FitsIbm _
      have htiny : ibmTiny ≤ ibmMax := by unfold ibmTiny ibmMax; norm_num
      cases hm : (PyFloat.fin x.value).mul k with
      | fin q =>
        have := hk x q rfl hm
        show max (-ibmMax) (min ibmMax q) = 0 ∨ _
        rcases this with rfl | hq
        · left
          rw [min_eq_right ibmMax_pos.le, max_eq_right (by linarith [ibmMax_pos])]
        · right
          refine ⟨?_, abs_le.mpr ⟨le_max_left _ _, max_le (by linarith [ibmMax_pos]) (min_le_left _ _)⟩⟩
          rcases le_total q 0 with h0 | h0
          · rw [abs_of_nonpos h0] at hq
            rw [min_eq_right (by linarith [ibmMax_pos])]
            rw [abs_of_nonpos (max_le (by linarith [ibmMax_pos]) h0)]
            rcases max_cases (-ibmMax) q with ⟨h1, -⟩ | ⟨h1, -⟩ <;> rw [h1] <;> linarith
          · rw [abs_of_nonneg h0] at hq
            rw [max_eq_right (le_trans (by linarith [ibmMax_pos]) (le_min ibmMax_pos.le h0)),
              abs_of_nonneg (le_min ibmMax_pos.le h0)]
            exact le_min htiny hq
      | negZero => trivial
      | inf neg =>
        show (if neg then -ibmMax else ibmMax) = 0 ∨ _
        right
        cases neg <;> simp [abs_of_pos ibmMax_pos, htiny]
      | nan =>
        show ibmMax = 0 ∨ _
        right
        rw [abs_of_pos ibmMax_pos]
        exact ⟨htiny, le_refl _⟩
    · rintro w' ⟨y, rfl, hy⟩
      refine ⟨x, y, rfl, rfl, ?_⟩
      rcases limited_bounds ibmMax_pos ((PyFloat.fin x.value).mul k) with h | ⟨q, h, hq⟩
      · rw [h] at hy ⊢
        have hy' : y.value = 0 := hy
        rw [hy']
        exact IBMFloat.isTruncation_zero_of_tiny (by show |(0 : ℚ)| < _; unfold ibmTiny; norm_num)
      · rw [h] at hy ⊢
        exact hy

theorem format_of {h : Header} {t : SegYType}
    (hf : (do dataSampleFormatToSegYType (← h.get "data_sample_format")) = .ok t) :
    t ∈ [SegYType.ibm, .int .int32, .int .int16, .int .int8, .float32] := by
  obtain ⟨dsf, -, hf⟩ := res_bind_ok hf
  unfold dataSampleFormatToSegYType at hf
  split_ifs at hf <;> cases hf <;> simp

/-- Scaling with any relation that holds between samples and their scaled values. -/
private theorem scaled_contents {native : Endian} {k : PyFloat} {s s1 : FileH} (hs0 : s.pos = 0) {r : Reader} {p : List ℚ}
    (h : createReader none fmtBinaryReelHeader fmtTraceHeaderRev1 .big none s = (.ok (r, p), s1)) {t : SegYType}
    (hfmt : r.dataSampleFormat = .ok t) (hread : AllReadable native r s) {smp : PyNum → PyNum → Prop}
    (hsmp : ∀ (i : Nat) (vs : List PyNum), (r.traceSamples native i none none s).1 = .ok vs → ∀ v ∈ vs,
      ∃ w, scaleSample t k v = .ok w ∧ Fits t w ∧ ∀ w', StoredAs t w w' → smp v w') :
    ∃ p' c, scaleSamplesFile native k s = (.ok p', c) ∧ c.data.take 3200 = s.data.take 3200 ∧
      ∃ r' p'' c1, createReader none fmtBinaryReelHeader fmtTraceHeaderRev1 .big none { c with pos := 0 } =
          (.ok (r', p''), c1) ∧
        Transformed fmtTraceHeaderRev1 fmtBinaryReelHeader native (fun _ v => v) (fun _ v => v) smp
          r s r' { c with pos := 0 } := by
  have hT := C43_rev1_cataloguable .big
  have hTr := shipped_regular (F := fmtTraceHeaderRev1) (n := 240) (by decide +kernel) .big
  have hB := shipped_regular (F := fmtBinaryReelHeader) (n := 400) (by decide +kernel) .big
  obtain ⟨b1, b2⟩ := createReader_binary hB.afterStart hB.orderSafe h
  have hd : (r.asDataset native s).scaleSamples k = .ok { r.asDataset native s with
      binary_reel_header := r.binary_reel_header
      trace_samples := fun i => do ((← (r.asDataset native s).trace_samples i).mapM (scaleSample t k)) } := by
    unfold Dataset.scaleSamples
    rw [show (r.asDataset native s).dataSampleFormat = .ok t from hfmt]
    rfl
  obtain ⟨p', c, h1, h2, r', p'', c1, h3, h4⟩ := mapped_contents hT hT hTr hB hs0 h hread rfl b1 b2
    (bin := fun _ v => v) (by
      intro f hf
      obtain ⟨v, hv, -⟩ := b2 f (by rw [b1]; exact hf)
      exact ⟨v, hv, hv⟩)
    (by intro n hn; rfl) (t' := t) hfmt (f := scaleSample t k) (smp := smp) hsmp
  refine ⟨p', c, ?_, h2, r', p'', c1, h3, h4⟩
  unfold scaleSamplesFile
  simp only [h, hd]
  exact h1

/-- Scaling the samples of a file by a float, if it can be done for every sample: the new file has the same headers and
the scaled samples.  For files of binary32 samples there is no condition. -/
theorem C69_scale (native : Endian) (k : PyFloat) (s s1 : FileH) (hs0 : s.pos = 0) (r : Reader) (p : List ℚ)
    (h : createReader none fmtBinaryReelHeader fmtTraceHeaderRev1 .big none s = (.ok (r, p), s1)) (t : SegYType)
    (hfmt : r.dataSampleFormat = .ok t) (hread : AllReadable native r s)
    (hscale : ∀ (i : Nat) (vs : List PyNum), (r.traceSamples native i none none s).1 = .ok vs →
      ∀ v ∈ vs, ScalableBy t k v) :
    ∃ p' c, scaleSamplesFile native k s = (.ok p', c) ∧ c.data.take 3200 = s.data.take 3200 ∧
      ∃ r' p'' c1, createReader none fmtBinaryReelHeader fmtTraceHeaderRev1 .big none { c with pos := 0 } =
          (.ok (r', p''), c1) ∧
        Transformed fmtTraceHeaderRev1 fmtBinaryReelHeader native (fun _ v => v) (fun _ v => v) (ScaledBy t k)
          r s r' { c with pos := 0 } := by
  refine scaled_contents hs0 h hfmt hread ?_
  intro i vs hvs v hv
  obtain ⟨item, g1, g2⟩ := sample_kind (C43_rev1_cataloguable .big) h hfmt hvs hv
  exact scaleSample_ok (format_of hfmt) g1 g2 k (hscale i vs hvs v hv)

/-- Otherwise it stops with an exception: in files of IBM floats `FloatingPointError`, in files of integers
`OverflowError` or, only if the factor is not finite, `ValueError`. -/
theorem C69_raises (native : Endian) (k : PyFloat) (s s1 : FileH) (r : Reader) (p : List ℚ)
    (h : createReader none fmtBinaryReelHeader fmtTraceHeaderRev1 .big none s = (.ok (r, p), s1)) (t : SegYType)
    (hfmt : r.dataSampleFormat = .ok t) (hread : AllReadable native r s)
    (hbad : ∃ (i : Nat) (vs : List PyNum), (r.traceSamples native i none none s).1 = .ok vs ∧
      ∃ v ∈ vs, ¬ ScalableBy t k v) :
    ∃ err c, scaleSamplesFile native k s = (.error err, c) ∧
      if t = .ibm then err = .floatingPointError
      else err = .overflowError ∨ (err = .valueError ∧ k.isFinite = false) := by
  have hT := C43_rev1_cataloguable .big
  have hTr := shipped_regular (F := fmtTraceHeaderRev1) (n := 240) (by decide +kernel) .big
  have hB := shipped_regular (F := fmtBinaryReelHeader) (n := 400) (by decide +kernel) .big
  obtain ⟨b1, b2⟩ := createReader_binary hB.afterStart hB.orderSafe h
  have ht := format_of hfmt
  have hd : (r.asDataset native s).scaleSamples k = .ok { r.asDataset native s with
      binary_reel_header := r.binary_reel_header
      trace_samples := fun i => do ((← (r.asDataset native s).trace_samples i).mapM (scaleSample t k)) } := by
    unfold Dataset.scaleSamples
    rw [show (r.asDataset native s).dataSampleFormat = .ok t from hfmt]
    rfl
  have hibm : ∀ x : IBMFloat, scaleSample .ibm k (.ibm x) =
      .ok (.float (limited ibmMax ((PyFloat.fin x.value).mul k))) := by
    intro x
    show Except.ok (PyNum.float (clipFloat (.fin (-limitFloat .ibm)) (.fin (limitFloat .ibm)) (x.toFloat.mul k))) = _
    rw [IBMFloat.toFloat_eq, show limitFloat .ibm = ibmMax from IBMFloat.maxIbm_eq, clipFloat_eq ibmMax_pos]
  have hint : ∀ (n : Int) (i : IntType), |n| < 2 ^ 53 → scaleSample (.int i) k (.int n) =
      (do return .int (clipInt i.limitMin i.limitMax (← intOfFloat ((PyFloat.fin n).mul k)))) := by
    intro n i hn
    unfold scaleSample scaleNum
    simp only [floatOfNum, ofInt_int hn]
    rfl
  have hkind : ∀ (j : Nat) (vs : List PyNum), (r.traceSamples native j none none s).1 = .ok vs → ∀ v ∈ vs,
      (∀ i, t = .int i → ∃ n, v = .int n ∧ |n| < 2 ^ 53) ∧ (t = .ibm → ∃ x, v = .ibm x) := by
    intro j vs hvs v hv
    obtain ⟨item, g1, g2⟩ := sample_kind hT h hfmt hvs hv
    constructor
    · rintro i rfl
      obtain ⟨c1, c2⟩ := storedInt_bounds (e := .big) (t := i) g1
      exact ⟨_, g2, int_sample_bounds i c1 c2⟩
    · rintro rfl
      obtain ⟨a, b, c, d, -, rfl⟩ := g2
      exact ⟨_, rfl⟩
  obtain ⟨j, vs, err, c, h1, h2, h3⟩ := mapped_raises hT hT hTr hB h hread rfl b1 b2
    (bin := fun _ v => v) (by
      intro f hf
      obtain ⟨v, hv, -⟩ := b2 f (by rw [b1]; exact hf)
      exact ⟨v, hv, hv⟩)
    (by intro n hn; rfl) (t' := t) hfmt (f := scaleSample t k) (by
      rintro rfl v w hw
      obtain ⟨g, -, h2⟩ := res_bind_ok hw
      exact ⟨_, (Except.ok.inj h2).symm⟩)
    (by
      obtain ⟨i, vs, h1, v, h2, h3⟩ := hbad
      refine ⟨i, vs, h1, v, h2, ?_⟩
      rintro ⟨w, h4, h5⟩
      apply h3
      obtain ⟨k1, k2⟩ := hkind i vs h1 v h2
      cases t with
      | float32 => trivial
      | int i =>
        obtain ⟨n, rfl, hn⟩ := k1 i rfl
        rintro n' h6
        cases h6
        rw [hint n i hn] at h4
        obtain ⟨m, h7, -⟩ := res_bind_ok h4
        cases hm : (PyFloat.fin n).mul k with
        | fin _ => rfl
        | negZero => rfl
        | inf _ => rw [hm] at h7; cases h7
        | nan => rw [hm] at h7; cases h7
      | ibm =>
        obtain ⟨x, rfl⟩ := k2 rfl
        rintro x' q h6 h7
        cases h6
        rw [hibm, h7] at h4
        cases h4
        have h5' : max (-ibmMax) (min ibmMax q) = 0 ∨ (ibmTiny ≤ |max (-ibmMax) (min ibmMax q)| ∧ _) := h5
        by_cases hq : |q| ≤ ibmMax
        · obtain ⟨q1, q2⟩ := abs_le.mp hq
          rw [min_eq_right q2, max_eq_right q1] at h5'
          rcases h5' with h5' | ⟨h5', -⟩
          · exact Or.inl h5'
          · exact Or.inr h5'
        · right
          have htiny : ibmTiny ≤ ibmMax := by unfold ibmTiny ibmMax; norm_num
          linarith)
  refine ⟨err, c, ?_, ?_⟩
  · unfold scaleSamplesFile
    simp only [h, hd]
    exact h2
  · cases t with
    | float32 =>
      obtain ⟨i, vs, -, v, -, h3⟩ := hbad
      exact absurd trivial h3
    | int i =>
      rw [if_neg (by simp)]
      rcases h3 with h3 | ⟨ws, h3, h4, -, h5⟩
      · obtain ⟨v, hv, hverr⟩ := mapM_error h3
        obtain ⟨n, rfl, hn⟩ := (hkind j vs h1 v hv).1 i rfl
        rw [hint n i hn] at hverr
        have hx : intOfFloat ((PyFloat.fin n).mul k) = .error err := by
          cases hm : intOfFloat ((PyFloat.fin n).mul k) with
          | ok m => rw [hm] at hverr; cases hverr
          | error err' => rw [hm] at hverr; cases hverr; rfl
        cases hm : (PyFloat.fin n).mul k with
        | fin _ => rw [hm] at hx; cases hx
        | negZero => rw [hm] at hx; cases hx
        | inf _ => rw [hm] at hx; cases hx; exact Or.inl rfl
        | nan =>
          rw [hm] at hx
          cases hx
          refine Or.inr ⟨rfl, ?_⟩
          cases k with
          | inf _ => rfl
          | nan => rfl
          | fin q =>
            exfalso
            simp only [PyFloat.mul, PyFloat.zero, PyFloat.ofRat] at hm
            split_ifs at hm
          | negZero =>
            exfalso
            simp only [PyFloat.mul, PyFloat.zero, PyFloat.ofRat] at hm
            split_ifs at hm
      · exfalso
        have hfit : ∀ w ∈ ws, ∃ n, w = .int n ∧ intLo i ≤ n ∧ n ≤ intHi i := by
          intro w hw
          obtain ⟨v, hv, hvw⟩ := forall2_right (res_mapM_rel h3) hw
          obtain ⟨n, rfl, hn⟩ := (hkind j vs h1 v hv).1 i rfl
          rw [hint n i hn] at hvw
          obtain ⟨m, -, hm⟩ := res_bind_ok hvw
          cases hm
          have hlim : i.limitMin = intLo i ∧ i.limitMax = intHi i ∧ intLo i ≤ intHi i := by
            revert ht
            cases i <;> decide
          rw [hlim.1, hlim.2.1, clipInt_eq _ _ _ hlim.2.2]
          exact ⟨_, rfl, le_max_left _ _, max_le hlim.2.2 (min_le_left _ _)⟩
        obtain ⟨buf, hb⟩ := (C42_int_accepts .big i ws).mpr hfit
        have : sampleBytes ws (.int i) .big = packValues ws (.int i) .big := by
          unfold sampleBytes
          rw [if_neg (by simp)]
        rw [this, hb] at h4
        cases h4
    | ibm =>
      rw [if_pos rfl]
      rcases h3 with h3 | ⟨ws, h3, h4, -⟩
      · obtain ⟨v, hv, hverr⟩ := mapM_error h3
        obtain ⟨x, rfl⟩ := (hkind j vs h1 v hv).2 rfl
        rw [hibm] at hverr
        cases hverr
      · have h5 : packIbmFloats ws = .error err := by
          unfold sampleBytes at h4
          rw [if_pos rfl] at h4
          exact h4
        unfold packIbmFloats at h5
        have h6 : ws.mapM (fun v => do return (← ibmFromReal v).toBytes) = (.error err : Res (List Bytes)) := by
          cases hm : ws.mapM (fun v => (do return (← ibmFromReal v).toBytes : Res Bytes)) with
          | ok l => rw [hm] at h5; cases h5
          | error e' => rw [hm] at h5; cases h5; rfl
        obtain ⟨w, hw, hwerr⟩ := mapM_error h6
        obtain ⟨v, hv, hvw⟩ := forall2_right (res_mapM_rel h3) hw
        obtain ⟨x, rfl⟩ := (hkind j vs h1 v hv).2 rfl
        rw [hibm] at hvw
        cases hvw
        have hx : IBMFloat.fromFloat (limited ibmMax ((PyFloat.fin x.value).mul k)) = .error err := by
          cases hm : IBMFloat.fromFloat (limited ibmMax ((PyFloat.fin x.value).mul k)) with
          | ok y =>
            have : (do return (← ibmFromReal (.float (limited ibmMax ((PyFloat.fin x.value).mul k)))).toBytes : Res Bytes) =
                .ok y.toBytes := by
              rw [ibmFromReal, hm]
              rfl
            rw [this] at hwerr
            cases hwerr
          | error e' =>
            have : (do return (← ibmFromReal (.float (limited ibmMax ((PyFloat.fin x.value).mul k)))).toBytes : Res Bytes) =
                .error e' := by
              rw [ibmFromReal, hm]
              rfl
            rw [this] at hwerr
            rw [Except.error.inj hwerr]
        obtain ⟨-, -, o3, o4⟩ := C04_outcomes (limited ibmMax ((PyFloat.fin x.value).mul k))
        rcases limited_bounds ibmMax_pos ((PyFloat.fin x.value).mul k) with hz | ⟨q, hq, hq'⟩
        · rw [o3 hz] at hx; cases hx
        · obtain ⟨-, o5, o6⟩ := o4 q hq
          by_cases hok : q = 0 ∨ (ibmTiny ≤ |q| ∧ |q| ≤ ibmMax)
          · obtain ⟨y, hy⟩ := o6.mpr hok
            rw [hy] at hx
            cases hx
          · push Not at hok
            have hlt : |q| < ibmTiny := by
              by_contra hn
              exact absurd (hok.2 (not_lt.mp hn)) (not_lt.mpr hq')
            rw [o5.mpr ⟨hok.1, hlt⟩] at hx
            exact (Except.error.inj hx).symm

/-- Multiplying a float by one. -/
private theorem mul_one_fin {q : ℚ} {p : ℕ} {emin : ℤ} (hr : Representable p emin q) (hp : p ≤ 53) (he : -1074 ≤ emin)
    (hb : |q| < (2 : ℚ) ^ (1024 : ℤ)) : (PyFloat.fin q).mul (.fin 1) = .fin q := by
  obtain ⟨m, u, h1, h2, h3⟩ := hr
  by_cases h0 : q = 0
  · subst h0
    rw [mul_fin_zero (by simp)]
    rfl
  · rw [mul_fin (by simpa using h0), mul_one]
    refine ofRat_exact m u h1 (lt_of_lt_of_le h2 ?_) (by omega) hb
    exact pow_le_pow_right₀ (by norm_num) hp

private theorem limited_inside {L q : ℚ} (h : |q| ≤ L) : limited L (.fin q) = .fin q := by
  obtain ⟨h1, h2⟩ := abs_le.mp h
  show PyFloat.fin (max (-L) (min L q)) = _
  rw [min_eq_right h2, max_eq_right h1]

/-- Scaling by one changes no sample, if in files of binary32 samples all are finite and within the limits. -/
theorem C69_by_one_partial (native : Endian) (s s1 : FileH) (hs0 : s.pos = 0) (r : Reader) (p : List ℚ)
    (h : createReader none fmtBinaryReelHeader fmtTraceHeaderRev1 .big none s = (.ok (r, p), s1)) (t : SegYType)
    (hfmt : r.dataSampleFormat = .ok t) (hread : AllReadable native r s)
    (hin : t = .float32 → ∀ (i : Nat) (vs : List PyNum), (r.traceSamples native i none none s).1 = .ok vs →
      ∀ f, .float f ∈ vs → f.isFinite = true ∧ |f.val| ≤ float32Limit) :
    ∃ p' c, scaleSamplesFile native (.fin 1) s = (.ok p', c) ∧ c.data.take 3200 = s.data.take 3200 ∧
      ∃ r' p'' c1, createReader none fmtBinaryReelHeader fmtTraceHeaderRev1 .big none { c with pos := 0 } =
          (.ok (r', p''), c1) ∧
        Transformed fmtTraceHeaderRev1 fmtBinaryReelHeader native (fun _ v => v) (fun _ v => v) SameNumber
          r s r' { c with pos := 0 } := by
  refine scaled_contents hs0 h hfmt hread ?_
  intro i vs hvs v hv
  obtain ⟨item, g1, g2⟩ := sample_kind (C43_rev1_cataloguable .big) h hfmt hvs hv
  have hstored := (standsFor_stored g1 g2).2
  have hwide : ∀ n : ℤ, n ≤ 1024 → (2 : ℚ) ^ n ≤ 2 ^ (1024 : ℤ) := fun n hn =>
    zpow_le_zpow_right₀ (by norm_num) hn
  cases t with
  | int t =>
    have hv' : v = .int (storedInt .big t item) := g2
    obtain ⟨b1, b2⟩ := storedInt_bounds (e := .big) (t := t) g1
    generalize storedInt .big t item = n at hv' b1 b2
    subst hv'
    have hn := int_sample_bounds t b1 b2
    have hone : (PyFloat.fin (n : ℚ)).mul (.fin 1) = .fin n := by
      refine mul_one_fin (p := 53) (emin := -1074) ⟨n, 0, by simp, hn, by omega⟩ (le_refl _) (le_refl _) ?_
      refine lt_of_lt_of_le (b := (2 : ℚ) ^ (53 : ℤ)) ?_ (hwide _ (by norm_num))
      rw [← Int.cast_abs]
      exact_mod_cast hn
    obtain ⟨w, w1, w2, w3⟩ := scaleSample_ok (format_of hfmt) g1 g2 (.fin 1) (by
      intro n' h'
      cases h'
      rw [hone]
      rfl)
    refine ⟨w, w1, w2, fun w' hw' => ?_⟩
    obtain ⟨n', h1, -, h2⟩ := w3 w' hw'
    cases h1
    rw [h2, hone]
    show PyNum.int (nearestIn (intLo t) (intHi t) (integerPart (n : ℚ))) = .int n
    have h3 : integerPart (n : ℚ) = n := by unfold integerPart; split_ifs <;> simp
    rw [h3]
    unfold nearestIn
    rw [min_eq_right b2, max_eq_right b1]
  | float32 =>
    obtain ⟨w, w1, w2, -⟩ := scaleSample_ok (format_of hfmt) g1 g2 (.fin 1) trivial
    obtain ⟨f, rfl, hf⟩ := g2
    obtain ⟨hfin, hlim⟩ := hin rfl i vs hvs f hv
    have hone : limited float32Limit (f.mul (.fin 1)) = f := by
      cases f with
      | fin q =>
        have h32 : IsFloat32 q := by
          by_cases hx : bytesNat .big item / 2 ^ 23 % 2 ^ 8 = 255
          · rw [if_pos hx] at hf
            split at hf <;> cases hf
          · rw [if_neg hx] at hf
            have hv := hf.2.1
            simp only [PyFloat.val] at hv
            rw [hv]
            exact float32Value_isFloat32 _ hx
        rw [mul_one_fin h32.1 (by norm_num) (by norm_num) (lt_of_lt_of_le h32.2 (hwide _ (by norm_num)))]
        exact limited_inside hlim
      | negZero => decide +kernel
      | inf _ => cases hfin
      | nan => cases hfin
    have hw : w = .float f := by
      have : scaleSample .float32 (.fin 1) (.float f) =
          .ok (.float (clipFloat (.fin (-limitFloat .float32)) (.fin (limitFloat .float32)) (f.mul (.fin 1)))) := rfl
      rw [this, limitFloat_float32, clipFloat_eq float32Limit_bounds.1, hone] at w1
      exact (Except.ok.inj w1).symm
    subst hw
    exact ⟨_, w1, w2, fun w' hw' => hstored w' hw'⟩
  | ibm =>
    obtain ⟨a, b, c, d, -, rfl⟩ := g2
    generalize hx : IBMFloat.mk a b c d = x at hv hstored
    have hone : (PyFloat.fin x.value).mul (.fin 1) = .fin x.value := by
      have h1 := IBMFloat.exp16_range x
      refine mul_one_fin (p := 24) (emin := -1074)
        ⟨_, _, IBMFloat.value_dyadic x, by exact_mod_cast IBMFloat.value_dyadic_abs x, by omega⟩ (by norm_num)
        (le_refl _) ?_
      exact lt_of_le_of_lt (IBMFloat.abs_value_le_max x)
        (lt_of_lt_of_le IBMFloat.ibmMax_lt_252 (hwide _ (by norm_num)))
    have hfit := value_fits x
    obtain ⟨w, w1, w2, w3⟩ := scaleSample_ok (e := .big) (item := [a, b, c, d]) (v := .ibm x) (format_of hfmt) rfl
      ⟨a, b, c, d, rfl, by rw [hx]⟩ (.fin 1) (by
      intro x' q h1 h2
      cases h1
      rw [hone] at h2
      cases h2
      rcases hfit with h | h
      · exact Or.inl h
      · exact Or.inr h.1)
    refine ⟨w, w1, w2, fun w' hw' => ?_⟩
    obtain ⟨x', y, h1, rfl, h2⟩ := w3 w' hw'
    cases h1
    rw [hone, limited_inside (IBMFloat.abs_value_le_max x)] at h2
    exact ⟨y, rfl, truncation_of_value h2⟩

section Example

/-- A file of the two byte integers 7 and -30000. -/
private def shortFile : FileH := oneTrace 3 2 [0, 7, 0x8A, 0xD0]

private theorem shortFile_check : oneTraceCheck shortFile =
    .ok ⟨.ok 1, .ok [0], .ok (), .ok [.int 7, .int (-30000)], .ok (.int .int16)⟩ := by
  unfold oneTraceCheck
  decide +kernel

-- scaled by 1.5, these are 10 and -32768
example : ∃ p' c r' p'' c1, scaleSamplesFile .little (.fin (3 / 2)) shortFile = (.ok p', c) ∧
    createReader none fmtBinaryReelHeader fmtTraceHeaderRev1 .big none { c with pos := 0 } = (.ok (r', p''), c1) ∧
    (r'.traceSamples .little 0 none none { c with pos := 0 }).1 = .ok [.int 10, .int (-32768)] := by
  obtain ⟨r, p, s1, h1, h2, h3, h4, h5⟩ := oneTrace_ready shortFile_check
  obtain ⟨p', c, h6, -, r', p'', c1, h7, h8⟩ := C69_scale .little (.fin (3 / 2)) shortFile s1 rfl r p h1 _ h3 h2 (by
    intro i vs hvs v hv n hn
    rw [h5 i vs hvs] at hv
    subst hn
    simp only [List.mem_cons, PyNum.int.injEq, List.not_mem_nil, or_false] at hv
    rcases hv with rfl | rfl <;> decide +kernel)
  refine ⟨p', c, r', p'', c1, h6, h7, ?_⟩
  rcases h8.trace_samples 0 none none 0 0 with ⟨vs, ws, g1, g2, g3⟩ | ⟨g1, -⟩
  · obtain rfl := Except.ok.inj (g1.symm.trans h4)
    rw [g2]
    simp only [List.forall₂_cons_left_iff, List.forall₂_nil_left_iff] at g3
    obtain ⟨w, u, ⟨x, hx, -, hw⟩, ⟨w', u', ⟨x', hx', -, hw'⟩, rfl, rfl⟩, rfl⟩ := g3
    cases hx
    cases hx'
    have e1 : nearestIn (intLo .int16) (intHi .int16) (integerPart ((PyFloat.fin (7 : Int)).mul (.fin (3 / 2))).val) = 10 := by
      decide +kernel
    have e2 : nearestIn (intLo .int16) (intHi .int16)
        (integerPart ((PyFloat.fin (-30000 : Int)).mul (.fin (3 / 2))).val) = -32768 := by decide +kernel
    rw [hw, hw', e1, e2]
  · cases g1.symm.trans h4

-- by a NaN they cannot be scaled
example : ∃ err c, scaleSamplesFile .little .nan shortFile = (.error err, c) ∧
    (err = .overflowError ∨ (err = .valueError ∧ PyFloat.nan.isFinite = false)) := by
  obtain ⟨r, p, s1, h1, h2, h3, h4, -⟩ := oneTrace_ready shortFile_check
  obtain ⟨err, c, h5, h6⟩ := C69_raises .little .nan shortFile s1 r p h1 _ h3 h2 ⟨0, _, h4, .int 7, by simp, fun h => by
    cases h 7 rfl⟩
  exact ⟨err, c, h5, by simpa using h6⟩

-- by one they can
example : ∃ r p s1, createReader none fmtBinaryReelHeader fmtTraceHeaderRev1 .big none shortFile = (.ok (r, p), s1) ∧
    r.dataSampleFormat = .ok (.int .int16) ∧ AllReadable .little r shortFile := by
  obtain ⟨r, p, s1, h1, h2, h3, h4, -⟩ := oneTrace_ready shortFile_check
  exact ⟨r, p, s1, h1, h3, h2⟩

/-- A file of the greatest binary32 number and a NaN. -/
private def extremeFile : FileH := oneTrace 5 2 [0x7F, 0x7F, 0xFF, 0xFF, 0x7F, 0xC0, 0, 0]

private theorem extremeFile_check : oneTraceCheck extremeFile =
    .ok ⟨.ok 1, .ok [0], .ok (), .ok [.float (.fin (2 ^ 128 - 2 ^ 104)), .float .nan], .ok .float32⟩ := by
  unfold oneTraceCheck
  decide +kernel

/-- Scaling by one changes binary32 samples beyond `3.402823e38`, and makes numbers of NaNs. -/
theorem C69_by_one_changes : ∃ s r p s1 p' c r' p'' c1, s.pos = 0 ∧
    createReader none fmtBinaryReelHeader fmtTraceHeaderRev1 .big none s = (.ok (r, p), s1) ∧
    scaleSamplesFile .little (.fin 1) s = (.ok p', c) ∧
    createReader none fmtBinaryReelHeader fmtTraceHeaderRev1 .big none { c with pos := 0 } = (.ok (r', p''), c1) ∧
    (r.traceSamples .little 0 none none s).1 = .ok [.float (.fin (2 ^ 128 - 2 ^ 104)), .float .nan] ∧
    ∃ q q', (r'.traceSamples .little 0 none none { c with pos := 0 }).1 = .ok [.float (.fin q), .float (.fin q')] ∧
      q < 2 ^ 128 - 2 ^ 104 := by
  obtain ⟨r, p, s1, h1, h2, h3, h4, h5⟩ := oneTrace_ready extremeFile_check
  obtain ⟨p', c, h6, -, r', p'', c1, h7, h8⟩ := C69_scale .little (.fin 1) extremeFile s1 rfl r p h1 _ h3 h2
    (fun _ _ _ _ _ => trivial)
  refine ⟨extremeFile, r, p, s1, p', c, r', p'', c1, rfl, h1, h6, h7, h4, ?_⟩
  rcases h8.trace_samples 0 none none 0 0 with ⟨vs, ws, g1, g2, g3⟩ | ⟨g1, -⟩
  · obtain rfl := Except.ok.inj (g1.symm.trans h4)
    rw [g2]
    simp only [List.forall₂_cons_left_iff, List.forall₂_nil_left_iff] at g3
    obtain ⟨w, u, ⟨f, g, hf, hw, hst⟩, ⟨w', u', ⟨f', g', hf', hw', hst'⟩, rfl, rfl⟩, rfl⟩ := g3
    cases hf
    cases hf'
    have e1 : limited float32Limit ((PyFloat.fin (2 ^ 128 - 2 ^ 104)).mul (.fin 1)) = .fin float32Limit := by
      decide +kernel
    have e2 : limited float32Limit (PyFloat.nan.mul (.fin 1)) = .fin float32Limit := rfl
    have key : ∀ g, StoredAs32 (.fin float32Limit) g → ∃ q, g = .fin q ∧ q < 2 ^ 128 - 2 ^ 104 := by
      rintro g ⟨q, hq, k1, k2⟩
      have hw : IsFloat32 (16777213 * 2 ^ (104 : ℤ)) :=
        ⟨⟨16777213, 104, by norm_num, by norm_num, by norm_num⟩, by decide +kernel⟩
      have h1 := hq.nearest _ hw
      have h2 : 0 < float32Limit - |16777213 * 2 ^ (104 : ℤ) - float32Limit| ∧
          float32Limit + |16777213 * 2 ^ (104 : ℤ) - float32Limit| < 2 ^ 128 - 2 ^ 104 := by decide +kernel
      generalize |16777213 * 2 ^ (104 : ℤ) - float32Limit| = b at h1 h2
      obtain ⟨h3, h4⟩ := abs_le.mp h1
      refine ⟨q, k1 (ne_of_gt (by linarith)), ?_⟩
      exact lt_of_le_of_lt (by linarith) h2.2
    rw [e1] at hst
    rw [e2] at hst'
    obtain ⟨q, rfl, hq⟩ := key g hst
    obtain ⟨q', rfl, -⟩ := key g' hst'
    exact ⟨q, q', by rw [hw, hw'], hq⟩
  · cases g1.symm.trans h4

end Example

end Segpy.Props
