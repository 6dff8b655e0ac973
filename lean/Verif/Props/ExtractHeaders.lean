import Verif.Lemmas.Extract4
import Verif.Props.Extract
import Verif.Lemmas.ExampleFile

/-! # Extracting fields of trace headers: C65 -/

namespace Segpy.Props

open Segpy Spec FileM

/-! ## C65 fields of trace headers

Partial: the fields must be given in the order of their offsets (`C65_order_fails`), at least one of them
(`C65_none_fails`), and they must not be of an unsigned type (`C65_unsigned_fails`). -/

private theorem names_ok {fields : List FieldArg} {names : List String} (h : List.Forall₂ Names fields names) :
    fields.mapM extractFieldName = .ok names := by
  induction h with
  | nil => rfl
  | @cons a n l l' h1 _ ih =>
    rw [List.mapM_cons, ih]
    cases a with
    | other => exact h1.elim
    | _ => rw [← (show _ = n from h1)]; rfl

private theorem namedtuple_ok {T : Format} {names : List String} (h : Extractable T names) :
    namedtupleFields names = .ok () := by
  unfold namedtupleFields
  rw [if_neg]
  rintro (h1 | h1)
  · exact h1 h.distinct
  · obtain ⟨n, n1, n2⟩ := List.any_eq_true.mp h1
    rw [h.no_underscore n n1] at n2
    cases n2

/-- The trace headers with the given numbers, one column for each field, in the order of the fields. -/
theorem C65_trace_headers_partial (T : Format) (e : Endian) (hT : Cataloguable T e) (encoding : Option Encoding)
    (B : Format) (dim : Option Int) (s s' : FileH) (r : Reader) (progress : List ℚ)
    (h : createReader encoding B T e dim s = (.ok (r, progress), s')) :
    ∃ t starts, Describes T e s.data t starts r ∧
      Traces T e s.data t.size (3600 + 3200 * r.extended_textual_headers.length) starts ∧
      ∀ (fields : List FieldArg) (names : List String) (sel : Option (List Int)) (indexes : List (Fin starts.length))
        (pos : Nat), List.Forall₂ Names fields names → Extractable T names →
        (sel = none ∧ indexes = List.finRange starts.length ∨ sel = some (indexes.map fun i => (i.val : Int))) →
        (∀ i ∈ indexes, HeldAt T e s.data names starts[i]) →
        ∃ k, extractTraceHeaders r fields sel { s with pos := pos } =
          (.ok (names.map fun n => (n, indexes.map fun i => .int (fieldAt T e s.data starts[i] n))), { s with pos := k }) := by
  obtain ⟨t, starts, g1, g2, ho, -⟩ := createReader_described hT h
  refine ⟨t, starts, g1, g2, ?_⟩
  intro fields names sel indexes pos hnames hex hsel hheld
  obtain ⟨S, q, hS, hq, hf, hu⟩ := extractable_packer hT hex
  have hformat : r.trace_header_packer.format = T := by
    obtain ⟨d, n, P⟩ := makeHeaderPacker_spec ho.packer hT.afterStart
    exact P.format
  have hsel' : (match sel with
      | none => r.traceIndexes
      | some l => .ok l : Res (List Int)) = .ok (indexes.map fun i => (i.val : Int)) := by
    rcases hsel with ⟨rfl, rfl⟩ | rfl
    · simp only
      rw [g1.trace_indexes, ← List.map_coe_finRange_eq_range, List.map_map]
      rfl
    · rfl
  obtain ⟨hs, hs1, hs2⟩ := FileM.Yields.mapM (s := s) (f := fun i : Int => r.traceHeader i (some q))
    (P := fun (i : Int) (hd : Header) => ∀ j : Fin starts.length, j ∈ indexes → (j.val : Int) = i →
      starts[j] + 240 ≤ s.data.length ∧ ∀ n ∈ names, hd.get n = .ok (fieldAt T e s.data starts[j] n))
    (indexes.map fun i => (i.val : Int)) (by
      intro i hi
      obtain ⟨j, j1, rfl⟩ := List.mem_map.mp hi
      obtain ⟨hroom, hd, hd1, hd2⟩ := traceHeader_yields hT g1 ho hu j.isLt (hheld j j1)
      refine ⟨hd, hd1, fun j' _ hj' => ?_⟩
      have : j' = j := Fin.ext (by exact_mod_cast hj')
      subst this
      exact ⟨hroom, hd2⟩)
  have hcol : ∀ n ∈ names, headerColumn S hs n = .ok (indexes.map fun i => .int (fieldAt T e s.data starts[i] n)) := by
    intro n hn
    obtain ⟨f, d, f1, f2, f3, f4⟩ := hf n hn
    unfold headerColumn fieldDtype
    simp only [f3, f4, bind, Except.bind]
    rw [List.forall₂_map_left_iff] at hs2
    have hall : List.Forall₂ (fun (i : Fin starts.length) (hd : Header) =>
        starts[i] + 240 ≤ s.data.length ∧ hd.get n = .ok (fieldAt T e s.data starts[i] n)) indexes hs := by
      rw [List.forall₂_iff_get] at hs2 ⊢
      refine ⟨hs2.1, fun k h1 h2 => ?_⟩
      obtain ⟨a, b⟩ := hs2.2 k h1 h2 (indexes.get ⟨k, h1⟩) (List.get_mem _ _) rfl
      exact ⟨a, b n hn⟩
    clear hs1 hs2 hheld hsel hsel'
    induction hall with
    | nil => rfl
    | @cons i hd l l' h1 _ ih =>
      rw [List.mapM_cons, ih]
      have hc := fieldAt_cast hT h1.1 f1 f4
      rw [f2] at hc
      simp only [h1.2, hc, bind, Except.bind, pure, Except.pure, List.map_cons]
  have hcols : (names.mapM fun name => do return (name, ← headerColumn S hs name) : Res (List (String × List Scalar))) =
      .ok (names.map fun n => (n, indexes.map fun i => .int (fieldAt T e s.data starts[i] n))) := by
    clear hnames hex hf hu hs2 hs1 hheld hS
    induction names with
    | nil => rfl
    | cons n names ih =>
      rw [List.mapM_cons, ih (fun m hm => hcol m (List.mem_cons_of_mem _ hm)), hcol n List.mem_cons_self]
      rfl
  have hy : (extractTraceHeaders r fields sel).Yields s
      (names.map fun n => (n, indexes.map fun i => .int (fieldAt T e s.data starts[i] n))) := by
    unfold extractTraceHeaders
    refine FileM.Yields.bind (a := indexes.map fun i => (i.val : Int)) (FileM.Yields.lift ?_) ?_
    · cases sel <;> exact hsel'
    refine FileM.Yields.bind (FileM.Yields.lift (names_ok hnames)) ?_
    rw [hformat, ho.endian]
    exact (FileM.Yields.lift hS).bind ((FileM.Yields.lift hq).bind ((FileM.Yields.lift (namedtuple_ok hex)).bind
      (hs1.bind (FileM.Yields.lift hcols))))
  exact hy pos

/-- Fields of the trace headers of a 3D reader, on the grid of the selected inlines and crosslines: at each place of the
arrays is the value of the field in the header of the trace with these line numbers, or null if there is none. -/
theorem C65_field_3d_partial (T : Format) (e : Endian) (hT : Cataloguable T e) (encoding : Option Encoding)
    (B : Format) (dim : Option Int) (s s' : FileH) (r : Reader) (progress : List ℚ)
    (h : createReader encoding B T e dim s = (.ok (r, progress), s')) (h3 : r.dimensionality = .ok 3) :
    ∃ t starts, Describes T e s.data t starts r ∧
      Traces T e s.data t.size (3600 + 3200 * r.extended_textual_headers.length) starts ∧
      ((linePairs T e s.data starts).Nodup →
        ∀ fields names isel xsel null pos inlines xlines I X, List.Forall₂ Names fields names → Extractable T names →
          Arranges ((linePairs T e s.data starts).map Prod.fst) inlines → Chooses inlines isel I →
          Arranges ((linePairs T e s.data starts).map Prod.snd) xlines → Chooses xlines xsel X →
          (∀ p ∈ starts, ∀ i ∈ I, ∀ x ∈ X, linesAt T e s.data p = (i, x) → HeldAt T e s.data names p) →
          ∃ rows k, extractTraceHeaderField3d r fields isel xsel null { s with pos := pos } =
              (.ok (names, rows), { s with pos := k }) ∧
            Tabulates I X (fun i x c => FieldsOf T e s.data starts null names (i, x) c) rows) := by
  obtain ⟨t, starts, g1, g2, ho, g3⟩ := createReader_described hT h
  refine ⟨t, starts, g1, g2, fun hn => ?_⟩
  have hs := g3 h3 hn
  intro fields names isel xsel null pos inlines xlines I X hnames hex hi hI hx hX hheld
  obtain ⟨S, q, hS, hq, hf, hu⟩ := extractable_packer hT hex
  have hformat : r.trace_header_packer.format = T := by
    obtain ⟨d, n, P⟩ := makeHeaderPacker_spec ho.packer hT.afterStart
    exact P.format
  obtain ⟨is, ri, i1, i2⟩ := hs.finds.inlines
  obtain ⟨io, io1, io2⟩ := lines_ensure (hs.inline_canonical _ _ i1) i2 hi hI
  obtain ⟨xs, rx, x1, x2⟩ := hs.finds.xlines
  obtain ⟨xo, xo1, xo2⟩ := lines_ensure (hs.xline_canonical _ _ x1) x2 hx hX
  obtain ⟨cols, c1, c2⟩ := res_mapM (f := fun name => (do return (name, ← fieldDtype S name) : Res (String × DType)))
    (P := fun n c => c.1 = n ∧ ∃ f ∈ T.fields, f.name = n ∧ makeDtype (.int f.value_type.segy) = .ok c.2) names (by
      intro n hn'
      obtain ⟨f, d, f1, f2, f3, f4⟩ := hf n hn'
      refine ⟨(n, d), ?_, rfl, f, f1, f2, f4⟩
      unfold fieldDtype
      simp only [f3, f4, bind, Except.bind, pure, Except.pure])
  have hcell : ∀ i ∈ I, ∀ x ∈ X, ∃ c, (headerCells r q cols (i, x) null).Yields s c ∧
      FieldsOf T e s.data starts null names (i, x) c := by
    intro i hi' x hx'
    rcases hs.cases (i, x) with ⟨k1, k2⟩ | ⟨j, hj, k1, k2, k3, k4⟩
    · refine ⟨names.map fun _ => null, ?_, fun p hp hpk => absurd hpk (k2 p hp), fun _ => rfl⟩
      unfold headerCells
      have : (names.map fun _ => null) = cols.map fun _ => null := by
        have := c2.length_eq
        rw [List.map_const', List.map_const', this]
      rw [this]
      exact (FileM.Yields.lift k1).bind (FileM.Yields.pure s _)
    · obtain ⟨hroom, hd, hd1, hd2⟩ := traceHeader_yields hT g1 ho hu hj
        (hheld _ (List.getElem_mem hj) i hi' x hx' k3)
      refine ⟨names.map fun n => some (.int (fieldAt T e s.data starts[j] n)), ?_, ?_, ?_⟩
      · unfold headerCells
        refine (FileM.Yields.lift k1).bind ?_
        rw [if_pos rfl]
        refine (FileM.Yields.lift k2).bind (hd1.bind (FileM.Yields.lift ?_))
        have hsub : ∀ n ∈ names, hd.get n = .ok (fieldAt T e s.data starts[j] n) := hd2
        clear c1 hex hf hu hS hq hheld hnames hd2
        induction c2 with
        | nil => rfl
        | @cons n c l l' h1 _ ih =>
          obtain ⟨e1, f, f1, f2, f3⟩ := h1
          rw [List.mapM_cons, ih (fun m hm => hsub m (List.mem_cons_of_mem _ hm))]
          have hc := fieldAt_cast hT hroom f1 f3
          rw [f2] at hc
          simp only [e1, hsub n List.mem_cons_self, hc, bind, Except.bind, pure, Except.pure, List.map_cons]
      · intro p hp hpk
        rw [k4 p hp hpk]
      · intro hno
        exact absurd k3 (hno _ (List.getElem_mem hj))
  obtain ⟨rows, hr1, hr2⟩ := FileM.Yields.mapM (s := s)
    (f := fun i => xo.toList.mapM fun x => headerCells r q cols (i, x) null)
    (P := fun i row => List.Forall₂ (fun x c => FieldsOf T e s.data starts null names (i, x) c) X row) io.toList
    (fun i hi' => by
      have := FileM.Yields.mapM (s := s) (f := fun x => headerCells r q cols (i, x) null)
        (P := fun x c => FieldsOf T e s.data starts null names (i, x) c) xo.toList (fun x hx' =>
          hcell i (by rw [← io2]; exact hi') x (by rw [← xo2]; exact hx'))
      obtain ⟨row, w1, w2⟩ := this
      rw [xo2] at w2
      exact ⟨row, w1, w2⟩)
  have hy : (extractTraceHeaderField3d r fields isel xsel null).Yields s (names, rows) := by
    unfold extractTraceHeaderField3d
    refine FileM.Yields.bind (FileM.Yields.lift (names_ok hnames)) ?_
    rw [hformat, ho.endian]
    exact (FileM.Yields.lift i1).bind ((FileM.Yields.lift io1).bind ((FileM.Yields.lift x1).bind
      ((FileM.Yields.lift xo1).bind ((FileM.Yields.lift hS).bind ((FileM.Yields.lift hq).bind
      ((FileM.Yields.lift (namedtuple_ok hex)).bind ((FileM.Yields.lift c1).bind
      (hr1.bind (FileM.Yields.pure s _)))))))))
  obtain ⟨k, hk⟩ := hy pos
  rw [io2] at hr2
  exact ⟨rows, k, hk, hr2⟩

/-- Fields that are not given in the order of their offsets get each other's values.  Here the inline numbers of the
three traces are 5, 6, 7 and their ensemble numbers 1, 1, 2. -/
theorem C65_order_fails : ∃ r progress s',
    createReader (some .ebcdic) fmtBinaryReelHeader fmtTraceHeaderRev1 .big none sampleFile = (.ok (r, progress), s') ∧
    (extractTraceHeaders r [.str "inline_number", .named "ensemble_num"] none sampleFile).1 =
      .ok [("inline_number", [.int 1, .int 1, .int 2]), ("ensemble_num", [.int 5, .int 6, .int 7])] ∧
    [3600, 3844, 4084].map (fun p => fieldAt fmtTraceHeaderRev1 .big sampleFile.data p "inline_number") = [5, 6, 7] := by
  obtain ⟨r, progress, s', h⟩ := sampleFile_ok none (by simp)
  have key : ((createReader (some .ebcdic) fmtBinaryReelHeader fmtTraceHeaderRev1 .big none sampleFile).1.map fun x =>
      (extractTraceHeaders x.1 [.str "inline_number", .named "ensemble_num"] none sampleFile).1) =
      .ok (.ok [("inline_number", [.int 1, .int 1, .int 2]), ("ensemble_num", [.int 5, .int 6, .int 7])]) := by
    decide +kernel
  rw [h] at key
  simp only [Except.map, Except.ok.injEq] at key
  exact ⟨r, progress, s', h, key, by decide +kernel⟩

/-- A field of an unsigned type cannot be extracted. -/
theorem C65_unsigned_fails : ∃ r progress s',
    createReader (some .ebcdic) fmtBinaryReelHeader fmtTraceHeaderRev1 .big none sampleFile = (.ok (r, progress), s') ∧
    (extractTraceHeaders r [.str "num_samples"] none sampleFile).1 = .error .valueError := by
  obtain ⟨r, progress, s', h⟩ := sampleFile_ok none (by simp)
  have key : ((createReader (some .ebcdic) fmtBinaryReelHeader fmtTraceHeaderRev1 .big none sampleFile).1.map fun x =>
      (extractTraceHeaders x.1 [.str "num_samples"] none sampleFile).1) = .ok (.error .valueError) := by
    decide +kernel
  rw [h] at key
  simp only [Except.map, Except.ok.injEq] at key
  exact ⟨r, progress, s', h, key⟩

/-- Extracting no fields is refused. -/
theorem C65_none_fails : ∃ r progress s',
    createReader (some .ebcdic) fmtBinaryReelHeader fmtTraceHeaderRev1 .big none sampleFile = (.ok (r, progress), s') ∧
    (extractTraceHeaders r [] none sampleFile).1 = .error .typeError := by
  obtain ⟨r, progress, s', h⟩ := sampleFile_ok none (by simp)
  have key : ((createReader (some .ebcdic) fmtBinaryReelHeader fmtTraceHeaderRev1 .big none sampleFile).1.map fun x =>
      (extractTraceHeaders x.1 [] none sampleFile).1) = .ok (.error .typeError) := by
    decide +kernel
  rw [h] at key
  simp only [Except.map, Except.ok.injEq] at key
  exact ⟨r, progress, s', h, key⟩

-- fields that are extracted correctly
example : ((createReader (some .ebcdic) fmtBinaryReelHeader fmtTraceHeaderRev1 .big none sampleFile).1.map fun x =>
    (extractTraceHeaders x.1 [.str "ensemble_num", .named "inline_number"] (some [2, 0]) sampleFile).1) =
    .ok (.ok [("ensemble_num", [.int 2, .int 1]), ("inline_number", [.int 7, .int 5])]) := by
  decide +kernel

example : ((createReader (some .ebcdic) fmtBinaryReelHeader fmtTraceHeaderRev1 .big none sampleFile).1.map fun x =>
    (extractTraceHeaderField3d x.1 [.str "ensemble_num", .str "inline_number"] (.items (.list [6, 7])) .all none
      sampleFile).1) =
    .ok (.ok (["ensemble_num", "inline_number"],
      [[[some (.int 1), some (.int 6)]], [[some (.int 2), some (.int 7)]]])) := by
  decide +kernel

example : Extractable fmtTraceHeaderRev1 ["ensemble_num", "inline_number"] ∧
    HeldAt fmtTraceHeaderRev1 .big sampleFile.data ["ensemble_num", "inline_number"] 3844 :=
  ⟨⟨by simp, by decide, by decide +kernel, by decide +kernel, by decide +kernel⟩, by unfold HeldAt; decide +kernel⟩

end Segpy.Props
