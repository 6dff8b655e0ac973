import Verif.Props.Scaling

/-! # Properties of scaling the source coordinates of a file: C70 -/

namespace Segpy.Props

open Segpy.Spec Segpy.FileM

private theorem coordinate_field (n : String) (hn : n = "source_x" ∨ n = "source_y") :
    ∃ f ∈ fmtTraceHeaderRev1.fields, fmtTraceHeaderRev1.attr n = some f ∧ f.name = n ∧ f.value_type = vtInt32 := by
  rcases hn with rfl | rfl <;> decide +kernel

private theorem admits_int32 (v : Int) : vtInt32.Admits v ↔ -2147483648 ≤ v ∧ v ≤ 2147483647 := Iff.rfl

/-- Scaling one field. -/
private theorem scaleField_eq {h : Header} (hf : h.format = fmtTraceHeaderRev1) {n : String}
    (hn : n = "source_x" ∨ n = "source_y") {v : Int} (hv : h.get n = .ok v) (ha : vtInt32.Admits v) (k : PyFloat) :
    (CoordinateScales k v → ∃ h', h.scaleField n k = .ok h' ∧ h'.format = h.format ∧
      ∀ m, h'.get m = if n = m then .ok (integerPart ((PyFloat.fin v).mul k).val) else h.get m) ∧
    (¬ CoordinateScales k v → ∃ err, h.scaleField n k = .error err ∧
      (err = .valueError ∨ err = .overflowError) ∧ (((PyFloat.fin v).mul k).isFinite = true → err = .valueError)) := by
  obtain ⟨f, -, h1, h2, h3⟩ := coordinate_field n hn
  rw [← hf] at h1
  obtain ⟨a1, a2⟩ := (admits_int32 v).mp ha
  have hsmall : |v| < 2 ^ 53 := by rw [abs_lt]; omega
  have heq : h.scaleField n k = (do h.set n (← intOfFloat ((PyFloat.fin v).mul k))) := by
    unfold Header.scaleField
    rw [hv]
    show (do
      let f ← PyFloat.ofInt v
      h.set n (← intOfFloat (f.mul k))) = _
    rw [ofInt_int hsmall]
    rfl
  constructor
  · rintro ⟨c1, c2, c3⟩
    have hset : h.set n (integerPart ((PyFloat.fin v).mul k).val) =
        .ok { h with data := odictSet h.data n (integerPart ((PyFloat.fin v).mul k).val) } := by
      rw [Header.set_eq h1, h3, if_pos ((admits_int32 _).mpr ⟨c2, c3⟩)]
    refine ⟨{ h with data := odictSet h.data n (integerPart ((PyFloat.fin v).mul k).val) }, ?_, rfl, ?_⟩
    · rw [heq, intOfFloat_eq c1]
      exact hset
    · exact Header.get_set h1 hset
  · intro hbad
    rw [heq]
    by_cases c1 : ((PyFloat.fin v).mul k).isFinite = true
    · rw [intOfFloat_eq c1]
      refine ⟨.valueError, ?_, Or.inl rfl, fun _ => rfl⟩
      show h.set n _ = _
      rw [Header.set_eq h1, h3, if_neg]
      intro hc
      exact hbad ⟨c1, (admits_int32 _).mp hc⟩
    · cases hm : (PyFloat.fin (v : ℚ)).mul k with
      | fin _ => rw [hm] at c1; exact absurd rfl c1
      | negZero => rw [hm] at c1; exact absurd rfl c1
      | inf _ => exact ⟨.overflowError, rfl, Or.inr rfl, fun h => by cases h⟩
      | nan => exact ⟨.valueError, rfl, Or.inl rfl, fun _ => rfl⟩

/-- Scaling both. -/
private def scaleBoth (h : Header) (k : PyFloat) : Res Header := do
  let h ← h.scaleField "source_x" k
  h.scaleField "source_y" k

/-- The coordinates of a header can be scaled. -/
def HeaderScales (k : PyFloat) (h : Header) : Prop :=
  ∀ n v, (n = "source_x" ∨ n = "source_y") → h.get n = .ok v → CoordinateScales k v

private theorem coordinate_valid {h : Header} (hf : h.format = fmtTraceHeaderRev1) (hv : h.Valid) {n : String}
    (hn : n = "source_x" ∨ n = "source_y") : ∃ v, h.get n = .ok v ∧ vtInt32.Admits v := by
  obtain ⟨f, h0, h1, h2, h3⟩ := coordinate_field n hn
  obtain ⟨v, v1, v2⟩ := hv f (by rw [hf]; exact h0)
  rw [h2] at v1
  rw [h3] at v2
  exact ⟨v, v1, v2⟩

private theorem scaleBoth_ok {h : Header} (hf : h.format = fmtTraceHeaderRev1) (hv : h.Valid) {k : PyFloat}
    (hk : HeaderScales k h) :
    ∃ h', scaleBoth h k = .ok h' ∧ h'.format = fmtTraceHeaderRev1 ∧ h'.Valid ∧
      ∀ f ∈ fmtTraceHeaderRev1.fields, ∃ v, h.get f.name = .ok v ∧ h'.get f.name = .ok (scaledCoordinates k f.name v) := by
  obtain ⟨x, x1, x2⟩ := coordinate_valid hf hv (Or.inl rfl)
  obtain ⟨y, y1, y2⟩ := coordinate_valid hf hv (Or.inr rfl)
  have hx := hk _ x (Or.inl rfl) x1
  have hy := hk _ y (Or.inr rfl) y1
  obtain ⟨h1, a1, a2, a3⟩ := (scaleField_eq hf (Or.inl rfl) x1 x2 k).1 hx
  have y1' : h1.get "source_y" = .ok y := by rw [a3, if_neg (by decide), y1]
  obtain ⟨h2, b1, b2, b3⟩ := (scaleField_eq (a2.trans hf) (Or.inr rfl) y1' y2 k).1 hy
  have hget : ∀ f ∈ fmtTraceHeaderRev1.fields, ∃ v, h.get f.name = .ok v ∧
      h2.get f.name = .ok (scaledCoordinates k f.name v) := by
    intro f hfm
    obtain ⟨v, v1, -⟩ := hv f (by rw [hf]; exact hfm)
    refine ⟨v, v1, ?_⟩
    rw [b3, a3]
    unfold scaledCoordinates
    by_cases c1 : f.name = "source_y"
    · rw [c1, y1] at v1
      cases v1
      rw [if_pos c1.symm, if_pos (Or.inr c1)]
    · rw [if_neg (fun h => c1 h.symm)]
      by_cases c2 : f.name = "source_x"
      · rw [c2, x1] at v1
        cases v1
        rw [if_pos c2.symm, if_pos (Or.inl c2)]
      · rw [if_neg (fun h => c2 h.symm), if_neg (by rintro (h | h) <;> contradiction), v1]
  refine ⟨h2, ?_, by rw [b2, a2, hf], ?_, hget⟩
  · unfold scaleBoth
    rw [a1]
    exact b1
  · intro f hfm
    rw [b2, a2, hf] at hfm
    obtain ⟨v, v1, v2⟩ := hv f (by rw [hf]; exact hfm)
    obtain ⟨v', w1, w2⟩ := hget f hfm
    rw [v1] at w1
    cases w1
    refine ⟨_, w2, ?_⟩
    unfold scaledCoordinates
    split_ifs with hn
    · obtain ⟨g, g0, g1, g2, g3⟩ := coordinate_field f.name hn
      have : f = g := Option.some.inj ((Format.mem_fields.mp hfm).symm.trans g1)
      rw [this, g3]
      exact (admits_int32 _).mpr (hk f.name v hn v1).2
    · exact v2

private theorem scaleBoth_error {h : Header} (hf : h.format = fmtTraceHeaderRev1) (hv : h.Valid) {k : PyFloat}
    (hk : ¬ HeaderScales k h) :
    ∃ err, scaleBoth h k = .error err ∧ (err = .valueError ∨ err = .overflowError) ∧
      ((∀ n v, (n = "source_x" ∨ n = "source_y") → h.get n = .ok v → ((PyFloat.fin v).mul k).isFinite = true) →
        err = .valueError) := by
  obtain ⟨x, x1, x2⟩ := coordinate_valid hf hv (Or.inl rfl)
  obtain ⟨y, y1, y2⟩ := coordinate_valid hf hv (Or.inr rfl)
  by_cases hx : CoordinateScales k x
  · obtain ⟨h1, a1, a2, a3⟩ := (scaleField_eq hf (Or.inl rfl) x1 x2 k).1 hx
    have y1' : h1.get "source_y" = .ok y := by rw [a3, if_neg (by decide), y1]
    have hy : ¬ CoordinateScales k y := by
      intro hy
      apply hk
      rintro n v (rfl | rfl) hv
      · rw [x1] at hv; cases hv; exact hx
      · rw [y1] at hv; cases hv; exact hy
    obtain ⟨err, e1, e2, e3⟩ := (scaleField_eq (a2.trans hf) (Or.inr rfl) y1' y2 k).2 hy
    refine ⟨err, ?_, ?_, ?_⟩
    · unfold scaleBoth
      rw [a1]
      exact e1
    · exact e2
    · intro hfin
      exact e3 (hfin _ y (Or.inr rfl) y1)
  · obtain ⟨err, e1, e2, e3⟩ := (scaleField_eq hf (Or.inl rfl) x1 x2 k).2 hx
    refine ⟨err, ?_, ?_, ?_⟩
    · unfold scaleBoth
      rw [e1]
      rfl
    · exact e2
    · intro hfin
      exact e3 (hfin _ x (Or.inl rfl) x1)

/-- Scaling the source coordinates of a file by a float, if it can be done in every trace header: the new file has the
scaled coordinates and otherwise says the same. -/
theorem C70_scale (native : Endian) (k : PyFloat) (s s1 : FileH) (hs0 : s.pos = 0) (r : Reader) (p : List ℚ)
    (h : createReader none fmtBinaryReelHeader fmtTraceHeaderRev1 .big none s = (.ok (r, p), s1))
    (hread : AllReadable native r s)
    (hscale : ∀ (i : Nat) (hd : Header), (r.traceHeader i none s).1 = .ok hd → HeaderScales k hd) :
    ∃ p' c, scaleCoordinatesFile native k s = (.ok p', c) ∧ c.data.take 3200 = s.data.take 3200 ∧
      ∃ r' p'' c1, createReader none fmtBinaryReelHeader fmtTraceHeaderRev1 .big none { c with pos := 0 } =
          (.ok (r', p''), c1) ∧
        Transformed fmtTraceHeaderRev1 fmtBinaryReelHeader native (fun _ v => v) (scaledCoordinates k) (fun v w => w = v)
          r s r' { c with pos := 0 } := by
  have hT := C43_rev1_cataloguable .big
  have hTr := shipped_regular (F := fmtTraceHeaderRev1) (n := 240) (by decide +kernel) .big
  have hB := shipped_regular (F := fmtBinaryReelHeader) (n := 400) (by decide +kernel) .big
  obtain ⟨b1, b2⟩ := createReader_binary hB.afterStart hB.orderSafe h
  obtain ⟨t, starts, hs, vss, hr, ho, hlen, hc⟩ := asDataset_consistent hT hT hTr hB h hread
  have hheader : ∀ i (hi : i < hs.length), (r.traceHeader i none s).1 = .ok hs[i] := hc.trace_header
  have hnew : ∀ i < hs.length, ∃ h', ∀ (hi : i < hs.length), scaleBoth hs[i] k = .ok h' ∧
      h'.format = fmtTraceHeaderRev1 ∧ h'.Valid ∧ ∀ f ∈ fmtTraceHeaderRev1.fields, ∃ v, hs[i].get f.name = .ok v ∧
        h'.get f.name = .ok (scaledCoordinates k f.name v) := by
    intro i hi
    obtain ⟨h', g⟩ := scaleBoth_ok (hc.header_format _ (List.getElem_mem hi)) (hc.header_valid _ (List.getElem_mem hi))
      (hscale i _ (hheader i hi))
    exact ⟨h', fun _ => g⟩
  obtain ⟨hs', hl', hnew⟩ := exists_list _ hnew
  have hvl := hc.same_length
  obtain ⟨p', c, h1, h2, r', p'', c1, h3, h4⟩ := derived_contents hT hT hTr hB hs0 h hr ho hlen hc
    (d := (r.asDataset native s).scaleCoordinates k) (t' := t) (hs' := hs') (vss' := vss) (bin := fun _ v => v)
    (hdr := scaledCoordinates k) (smp := fun v w => w = v)
    { textual := rfl
      extended := rfl
      encoding := rfl
      num_traces := rfl
      indexes := rfl
      binary_format := b1
      binary_valid := b2
      binary := by
        intro f hf
        obtain ⟨v, hv, -⟩ := b2 f (by rw [b1]; exact hf)
        exact ⟨v, hv, hv⟩
      kept_binary := by intro n _; rfl
      sample_format := hc.sample_format
      headers_length := hl'
      trace_header := by
        intro i hi
        show (do
          let header ← (r.asDataset native s).trace_header i
          scaleBoth header k) = _
        rw [hc.trace_header i (by omega)]
        exact (hnew i hi (by omega)).1
      header_format := by
        intro x hx
        obtain ⟨i, hi, rfl⟩ := List.mem_iff_getElem.mp hx
        exact (hnew i hi (by omega)).2.1
      header_valid := by
        intro x hx
        obtain ⟨i, hi, rfl⟩ := List.mem_iff_getElem.mp hx
        exact (hnew i hi (by omega)).2.2.1
      header := fun i hi hi' => (hnew i hi' hi).2.2.2
      kept_header := by
        intro n hn
        funext v
        unfold scaledCoordinates
        simp only [List.mem_cons, List.not_mem_nil, or_false] at hn
        rw [if_neg (by rcases hn with rfl | rfl | rfl | rfl <;> decide)]
        rfl
      samples_length := rfl
      num_samples := fun _ _ _ => rfl
      trace_samples := hc.trace_samples
      fits := hc.fits }
    (by
      intro i hi _ ws hws
      have hsm : (r.traceSamples native i none none { s with pos := s.pos }).1 = .ok vss[i] := hc.trace_samples i hi
      obtain ⟨-, -, h7⟩ := traceSamples_ok hT hr ho (by omega) hsm
      generalize vss[i] = l at hws h7
      clear hsm
      induction hws with
      | nil => exact .nil
      | cons q _ ih =>
        exact .cons ((h7 _ List.mem_cons_self).2 _ q) (ih fun v hv => h7 v (List.mem_cons_of_mem _ hv)))
  refine ⟨p', c, ?_, h2, r', p'', c1, h3, h4⟩
  unfold scaleCoordinatesFile
  simp only [h]
  exact h1

/-- Otherwise it stops at the first header in which it cannot be done: with `ValueError` if the products are finite but
too great, and else with `ValueError` or `OverflowError`. -/
theorem C70_raises (native : Endian) (k : PyFloat) (s s1 : FileH) (r : Reader) (p : List ℚ)
    (h : createReader none fmtBinaryReelHeader fmtTraceHeaderRev1 .big none s = (.ok (r, p), s1))
    (hread : AllReadable native r s)
    (hbad : ∃ (i : Nat) (hd : Header), (r.traceHeader i none s).1 = .ok hd ∧ ¬ HeaderScales k hd) :
    ∃ err c, scaleCoordinatesFile native k s = (.error err, c) ∧ (err = .valueError ∨ err = .overflowError) ∧
      ((∀ (i : Nat) (hd : Header), (r.traceHeader i none s).1 = .ok hd → ∀ n v, (n = "source_x" ∨ n = "source_y") →
        hd.get n = .ok v → ((PyFloat.fin v).mul k).isFinite = true) → err = .valueError) := by
  classical
  have hT := C43_rev1_cataloguable .big
  have hTr := shipped_regular (F := fmtTraceHeaderRev1) (n := 240) (by decide +kernel) .big
  have hB := shipped_regular (F := fmtBinaryReelHeader) (n := 400) (by decide +kernel) .big
  obtain ⟨b1, b2⟩ := createReader_binary hB.afterStart hB.orderSafe h
  obtain ⟨t, starts, hs, vss, hr, ho, hlen, hc⟩ := asDataset_consistent hT hT hTr hB h hread
  have hheader : ∀ i (hi : i < hs.length), (r.traceHeader i none s).1 = .ok hs[i] := hc.trace_header
  have hbad' : ∃ i, ∃ hi : i < hs.length, ¬ HeaderScales k hs[i] := by
    obtain ⟨i, hd, g1, g2⟩ := hbad
    by_cases hi : i < hs.length
    · refine ⟨i, hi, ?_⟩
      rw [hheader i hi] at g1
      cases g1
      exact g2
    · rw [traceHeader_eq, hr.describes.num_traces] at g1
      simp only at g1
      rw [if_pos (by omega)] at g1
      cases g1
  obtain ⟨hj, hjbad⟩ := Nat.find_spec hbad'
  have hmin := fun i (hi : i < Nat.find hbad') => Nat.find_min hbad' hi
  generalize Nat.find hbad' = j at hj hjbad hmin
  -- the dataset in which only the headers before that are changed
  let headers : Int → Res Header := fun i => if i < j then ((r.asDataset native s).scaleCoordinates k).trace_header i else
    (r.asDataset native s).trace_header i
  have hchanged : ∀ i (hi : i < hs.length), ((r.asDataset native s).scaleCoordinates k).trace_header i =
      scaleBoth hs[i] k := by
    intro i hi
    show (do
      let header ← (r.asDataset native s).trace_header i
      scaleBoth header k) = _
    rw [hc.trace_header i hi]
    rfl
  have hnew : ∀ i < hs.length, ∃ h', ∀ (hi : i < hs.length), headers i = .ok h' ∧
      h'.format = fmtTraceHeaderRev1 ∧ h'.Valid ∧ h'.get "num_samples" = hs[i].get "num_samples" := by
    intro i hi
    by_cases hij : i < j
    · obtain ⟨h', g1, g2, g3, g4⟩ := scaleBoth_ok (hc.header_format _ (List.getElem_mem hi))
        (hc.header_valid _ (List.getElem_mem hi)) (by
          by_contra hn
          exact hmin i hij ⟨hi, hn⟩)
      refine ⟨h', fun _ => ⟨?_, g2, g3, ?_⟩⟩
      · show (if (i : Int) < j then _ else _) = _
        rw [if_pos (by omega), hchanged i hi, g1]
      · have hf : ∃ f ∈ fmtTraceHeaderRev1.fields, f.name = "num_samples" := by decide +kernel
        obtain ⟨f, f1, f2⟩ := hf
        obtain ⟨v, v1, v2⟩ := g4 f f1
        rw [f2] at v1 v2
        rw [v1, v2]
        rfl
    · refine ⟨hs[i], fun _ => ⟨?_, hc.header_format _ (List.getElem_mem hi), hc.header_valid _ (List.getElem_mem hi), rfl⟩⟩
      show (if (i : Int) < j then _ else _) = _
      rw [if_neg (by omega), hc.trace_header i hi]
  obtain ⟨hs', hl', hnew⟩ := exists_list _ hnew
  have hcons : Consistent { r.asDataset native s with trace_header := headers } r.encoding fmtTraceHeaderRev1 .big t hs' vss :=
    { encoding := hc.encoding
      textual := hc.textual
      binary_format := hc.binary_format
      binary_valid := hc.binary_valid
      sample_format := hc.sample_format
      revision := hc.revision
      pages := hc.pages
      no_early_stop := hc.no_early_stop
      num_pages := hc.num_pages
      some_trace := by
        intro hnil
        rw [hnil] at hl'
        have : hs.length = 0 := hl'.symm
        omega
      num_traces := by rw [hl']; exact hc.num_traces
      indexes := by rw [hl']; exact hc.indexes
      trace_format := hc.trace_format
      cataloguable := hc.cataloguable
      trace_header := fun i hi => (hnew i hi (by omega)).1
      header_format := by
        intro x hx
        obtain ⟨i, hi, rfl⟩ := List.mem_iff_getElem.mp hx
        exact (hnew i hi (by omega)).2.1
      header_valid := by
        intro x hx
        obtain ⟨i, hi, rfl⟩ := List.mem_iff_getElem.mp hx
        exact (hnew i hi (by omega)).2.2.1
      same_length := by rw [hl']; exact hc.same_length
      num_samples := by
        intro i hi hi'
        rw [(hnew i hi (by omega)).2.2.2]
        exact hc.num_samples i (by omega) hi'
      trace_samples := hc.trace_samples
      fits := hc.fits }
  obtain ⟨err, e1, e2, e3⟩ := scaleBoth_error (hc.header_format _ (List.getElem_mem hj))
    (hc.header_valid _ (List.getElem_mem hj)) hjbad
  obtain ⟨progress, complete, -, g1, -⟩ := C48_dataset_raises _ _ _ _ t hs' vss hcons none rfl j (by omega)
    ((r.asDataset native s).scaleCoordinates k).trace_header (r.asDataset native s).trace_samples (by
      intro i hi
      show _ = (if (i : Int) < j then _ else _)
      rw [if_pos (by omega)]) (fun _ _ => rfl)
  obtain ⟨c, g2, -⟩ := g1 err (by rw [hchanged j hj, e1])
  refine ⟨err, c, ?_, e2, ?_⟩
  · unfold scaleCoordinatesFile
    simp only [h]
    exact g2
  · intro hfin
    exact e3 (hfin j _ (hheader j hj))

/-- A file of one trace with source coordinates 1000 and -7. -/
private def coordFile : FileH :=
  { data := (oneTrace 3 1 [0, 7]).data.take 3672 ++ [0, 0, 3, 232, 255, 255, 255, 249] ++
      (oneTrace 3 1 [0, 7]).data.drop 3680, pos := 0 }

private theorem coordFile_check : oneTraceCheck coordFile =
    .ok ⟨.ok 1, .ok [0], .ok (), .ok [.int 7], .ok (.int .int16)⟩ := by
  unfold oneTraceCheck
  decide +kernel

private theorem coordFile_coords : ((createReader none fmtBinaryReelHeader fmtTraceHeaderRev1 .big none coordFile).1.map
      fun x => (x.1.numTraces, ((x.1.traceHeader 0 none coordFile).1.bind fun h => h.get "source_x"),
        ((x.1.traceHeader 0 none coordFile).1.bind fun h => h.get "source_y"))) = .ok (.ok 1, .ok 1000, .ok (-7)) := by
  decide +kernel

private theorem coordFile_header {r : Reader} {p : List ℚ} {s1 : FileH}
    (h : createReader none fmtBinaryReelHeader fmtTraceHeaderRev1 .big none coordFile = (.ok (r, p), s1)) :
    ∃ hd, (r.traceHeader 0 none coordFile).1 = .ok hd ∧ hd.get "source_x" = .ok 1000 ∧ hd.get "source_y" = .ok (-7) ∧
      ∀ (i : Nat) (hd' : Header), (r.traceHeader i none coordFile).1 = .ok hd' → hd' = hd := by
  have key := coordFile_coords
  rw [h] at key
  obtain ⟨k1, k2, k3⟩ := by simpa only [Prod.mk.injEq] using Except.ok.inj key
  cases hh : (r.traceHeader 0 none coordFile).1 with
  | error _ => rw [hh] at k2; cases k2
  | ok hd =>
    rw [hh] at k2 k3
    refine ⟨hd, rfl, k2, k3, ?_⟩
    intro i hd' hi
    by_cases h0 : i = 0
    · subst h0
      exact Except.ok.inj (hi.symm.trans hh)
    · exfalso
      rw [traceHeader_eq, k1] at hi
      simp only at hi
      rw [if_pos (by omega)] at hi
      cases hi

-- scaling by one and a half
example : ∃ p' c r' p'' c1, scaleCoordinatesFile .little (.fin (3 / 2)) coordFile = (.ok p', c) ∧
    createReader none fmtBinaryReelHeader fmtTraceHeaderRev1 .big none { c with pos := 0 } = (.ok (r', p''), c1) ∧
    ∃ hd, (r'.traceHeader 0 none { c with pos := 0 }).1 = .ok hd ∧ hd.get "source_x" = .ok 1500 ∧
      hd.get "source_y" = .ok (-10) := by
  obtain ⟨r, p, s1, h1, h2, h3, h4, -⟩ := oneTrace_ready coordFile_check
  obtain ⟨hd, d1, d2, d3, d4⟩ := coordFile_header h1
  obtain ⟨p', c, h6, -, r', p'', c1, h7, h8⟩ := C70_scale .little (.fin (3 / 2)) coordFile s1 rfl r p h1 h2 (by
    intro i hd' hi n v hn hv
    rw [d4 i hd' hi] at hv
    rcases hn with rfl | rfl
    · rw [d2] at hv; cases hv
      exact ⟨by decide +kernel, by decide +kernel, by decide +kernel⟩
    · rw [d3] at hv; cases hv
      exact ⟨by decide +kernel, by decide +kernel, by decide +kernel⟩)
  refine ⟨p', c, r', p'', c1, h6, h7, ?_⟩
  rcases h8.trace_header 0 0 0 with ⟨a, b, g1, g2, -, -, g3⟩ | ⟨g1, -⟩
  · obtain rfl := Except.ok.inj (g1.symm.trans d1)
    obtain ⟨f, f0, -, f1, -⟩ := coordinate_field "source_x" (Or.inl rfl)
    obtain ⟨f', f0', -, f1', -⟩ := coordinate_field "source_y" (Or.inr rfl)
    obtain ⟨v, v1, v2⟩ := g3 f f0
    obtain ⟨v', v1', v2'⟩ := g3 f' f0'
    rw [f1] at v1 v2
    rw [f1'] at v1' v2'
    obtain rfl := Except.ok.inj (v1.symm.trans d2)
    obtain rfl := Except.ok.inj (v1'.symm.trans d3)
    have e1 : scaledCoordinates (.fin (3 / 2)) "source_x" 1000 = 1500 := by decide +kernel
    have e2 : scaledCoordinates (.fin (3 / 2)) "source_y" (-7) = -10 := by decide +kernel
    rw [e1] at v2
    rw [e2] at v2'
    exact ⟨b, g2, v2, v2'⟩
  · cases g1.symm.trans d1

-- scaling by three million is too much
example : ∃ c, scaleCoordinatesFile .little (.fin 3000000) coordFile = (.error .valueError, c) := by
  obtain ⟨r, p, s1, h1, h2, h3, h4, -⟩ := oneTrace_ready coordFile_check
  obtain ⟨hd, d1, d2, d3, d4⟩ := coordFile_header h1
  obtain ⟨err, c, h5, -, h6⟩ := C70_raises .little (.fin 3000000) coordFile s1 r p h1 h2 ⟨0, hd, d1, fun h => by
    have := (h _ _ (Or.inl rfl) d2).2.2
    revert this
    decide +kernel⟩
  refine ⟨c, ?_⟩
  rw [h5, h6]
  intro i hd' hi n v hn hv
  rw [d4 i hd' hi] at hv
  rcases hn with rfl | rfl
  · rw [d2] at hv; cases hv
    decide +kernel
  · rw [d3] at hv; cases hv
    decide +kernel

end Segpy.Props
