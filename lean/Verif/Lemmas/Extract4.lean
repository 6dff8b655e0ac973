import Verif.Lemmas.Extract3
import Verif.Props.Packer

/-! # Lemmas about extracting trace headers -/

namespace Segpy

open FileM Spec

theorem createReader_described {T : Format} {e : Endian} (hT : Cataloguable T e) {encoding : Option Encoding} {B : Format}
    {dim : Option Int} {s s' : FileH} {r : Reader} {progress : List ℚ}
    (h : createReader encoding B T e dim s = (.ok (r, progress), s')) :
    ∃ t starts, Describes T e s.data t starts r ∧
      Traces T e s.data t.size (3600 + 3200 * r.extended_textual_headers.length) starts ∧
      Opened T e dim s.data (3600 + 3200 * r.extended_textual_headers.length) t starts r ∧
      (r.dimensionality = .ok 3 → (linePairs T e s.data starts).Nodup → Sectioned T e s t starts r) := by
  obtain ⟨t, starts, g1, g2, -, g3, -⟩ := createReader_sectioned hT h
  obtain ⟨t', starts', ho⟩ := createReader_opened hT h
  have htt : t' = t := by
    have := ho.format
    rw [g1.data_sample_format] at this
    exact (Except.ok.inj this).symm
  subst htt
  have hss := Props.C61_unique _ _ _ _ _ _ _ ho.traces g2
  subst hss
  exact ⟨t', starts', g1, g2, ho, g3⟩

/-- A packer of the selected fields. -/
theorem extractable_packer {T : Format} {e : Endian} (hT : Cataloguable T e) {names : List String}
    (hn : Extractable T names) : ∃ S q, T.subFormat "SubFormat" names = .ok S ∧ makeHeaderPacker S e = .ok q ∧
      (∀ n ∈ names, ∃ f d, f ∈ T.fields ∧ f.name = n ∧ S.getField n = .ok f ∧ makeDtype (.int f.value_type.segy) = .ok d) ∧
      ∀ (data : Bytes) (p : Nat), p + 240 ≤ data.length → HeldAt T e data names p →
        ∃ hd, q.unpack (headerBytes data p) = .ok hd ∧ ∀ n ∈ names, hd.get n = .ok (fieldAt T e data p n) := by
  have hattr : ∀ n ∈ names, ∃ f, T.attr n = some f ∧ f ∈ T.fields ∧ f.name = n ∧
      f.value_type.segy ∈ [.int32, .int16, .int8] := by
    intro n hn'
    obtain ⟨f, f1, f2, f3⟩ := hn.fields n hn'
    exact ⟨f, by rw [← f2]; exact Format.mem_fields.mp f1, f1, f2, f3⟩
  have hmem : ∀ n ∈ names, n ∈ T.orderedFieldNames := by
    intro n hn'
    obtain ⟨f, f1, f2, f3, -⟩ := hattr n hn'
    unfold Format.fields at f2
    obtain ⟨m, m1, m2⟩ := List.mem_filterMap.mp f2
    have := Format.attr_name m2
    rw [f3] at this
    rw [this]
    exact m1
  have hsel : names.Pairwise fun a b => ∀ f g, T.attr a = some f → T.attr b = some g → f.offset ≤ g.offset := by
    refine hn.ordered.imp ?_
    intro a b h f g hf hg
    have ef := Format.attr_name hf
    have eg := Format.attr_name hg
    exact h f (Format.mem_fields.mpr (by rw [ef]; exact hf)) g (Format.mem_fields.mpr (by rw [eg]; exact hg)) ef eg
  have hS := subFormat_eq hT.defaults "SubFormat" names hmem hn.distinct
  obtain ⟨p0, hp0⟩ := hT.packs
  obtain ⟨q, hq, hu⟩ := Props.C30_sub_unpack_partial T _ e p0 "SubFormat" names hp0 hT.afterStart hT.defaults 240 hT.length
    hT.oneLayout hmem hn.some_name hn.distinct hsel hS
  refine ⟨_, q, hS, hq, ?_, ?_⟩
  · intro n hn'
    obtain ⟨f, f1, f2, f3, f4⟩ := hattr n hn'
    have hd : ∃ d, makeDtype (.int f.value_type.segy) = .ok d := by
      generalize f.value_type.segy = ty at f4
      cases ty with
      | int32 => exact ⟨_, rfl⟩
      | int16 => exact ⟨_, rfl⟩
      | int8 => exact ⟨_, rfl⟩
      | _ => exact absurd f4 (by decide)
    obtain ⟨d, hd⟩ := hd
    refine ⟨f, d, f2, f3, ?_, hd⟩
    unfold Format.getField
    have : Format.attr [⟨"SubFormat", names.filterMap T.attr, T.findSome? Level.start_offset,
        T.findSome? Level.length_in_bytes⟩] n = some f := by
      rw [← f3]
      refine attr_single ?_ (List.mem_filterMap.mpr ⟨n, hn', f1⟩)
      show ((names.filterMap T.attr).map Field.name).Nodup
      rw [filterMap_attr_names names hmem]
      exact hn.distinct
    rw [this]
  · intro data p hp hheld
    have hlen : ((headerBytes data p).length : Int) = 240 := by
      unfold headerBytes
      rw [List.length_take, List.length_drop]
      omega
    have hval : ∀ n f, T.attr n = some f →
        storedInt e f.value_type.segy (T.fieldBytes f (headerBytes data p)) = fieldAt T e data p n := by
      intro n f hf
      unfold fieldAt
      rw [hf]
    rcases hu (headerBytes data p) with ⟨hd, h1, -, h3⟩ | ⟨-, h2 | ⟨n, n1, f, n2, n3⟩⟩
    · refine ⟨hd, h1, fun n hn' => ?_⟩
      obtain ⟨f, f1, -⟩ := hattr n hn'
      rw [(h3 n hn' f f1).2, hval n f f1]
    · exact absurd hlen h2
    · exfalso
      apply n3
      have hname := Format.attr_name n2
      rw [hval n f n2, ← hname]
      exact hheld f (Format.mem_fields.mpr (by rw [hname]; exact n2)) (by rw [hname]; exact n1)

theorem fieldAt_cast {T : Format} {e : Endian} (hT : Cataloguable T e) {data : Bytes} {p : Nat} (hp : p + 240 ≤ data.length)
    {f : Field} (hf : f ∈ T.fields) {d : DType} (hd : makeDtype (.int f.value_type.segy) = .ok d) :
    d.cast (.int (fieldAt T e data p f.name)) = .ok (.int (fieldAt T e data p f.name)) := by
  obtain ⟨p0, hp0⟩ := hT.packs
  obtain ⟨ds, n, P⟩ := makeHeaderPacker_spec hp0 hT.afterStart
  have hn : (n : Int) = 240 := by
    have := P.length
    unfold Format.packedLength at this
    rw [hT.length] at this
    exact this
  have hval : fieldAt T e data p f.name = storedInt e f.value_type.segy (T.fieldBytes f (headerBytes data p)) := by
    unfold fieldAt
    rw [Format.mem_fields.mp hf]
  have hlen : (T.fieldBytes f (headerBytes data p)).length = (SegYType.int f.value_type.segy).size := by
    have h1 := P.fits f hf
    have h2 := hT.afterStart f hf
    show _ = f.value_type.size
    unfold Format.fieldBytes slice headerBytes
    rw [List.length_take, List.length_drop, List.length_take, List.length_drop]
    omega
  obtain ⟨x, x1, x2⟩ := cast_elementOf (e := e) (v := .int (fieldAt T e data p f.name)) hd hlen (by
    show PyNum.int _ = PyNum.int _
    rw [hval])
  rw [x1, show x = .int _ from x2, hval]

/-- The selected fields of a trace header. -/
theorem traceHeader_yields {T : Format} {e : Endian} (hT : Cataloguable T e) {dim : Option Int} {s : FileH} {pos0 : Nat}
    {t : SegYType} {starts : List Nat} {r : Reader} (hd : Describes T e s.data t starts r)
    (ho : Opened T e dim s.data pos0 t starts r) {names : List String} {q : HeaderPacker}
    (hq : ∀ (data : Bytes) (p : Nat), p + 240 ≤ data.length → HeldAt T e data names p →
        ∃ hd, q.unpack (headerBytes data p) = .ok hd ∧ ∀ n ∈ names, hd.get n = .ok (fieldAt T e data p n))
    {i : Nat} (hi : i < starts.length) (hheld : HeldAt T e s.data names starts[i]) :
    starts[i] + 240 ≤ s.data.length ∧
    ∃ h, (r.traceHeader i (some q)).Yields s h ∧ ∀ n ∈ names, h.get n = .ok (fieldAt T e s.data starts[i] n) := by
  obtain ⟨hroom, -, -⟩ := Props.start_facts hT ho (List.getElem_mem hi)
  obtain ⟨h, h1, h2⟩ := hq s.data starts[i] hroom hheld
  refine ⟨hroom, h, ?_, h2⟩
  unfold Reader.traceHeader
  refine (FileM.Yields.lift hd.num_traces).bind ?_
  rw [if_neg (by omega)]
  refine (FileM.Yields.lift (ho.offset.get_number hi)).bind ?_
  intro pos
  refine ⟨starts[i] + 240, ?_⟩
  unfold readTraceHeader
  simp only [Option.getD_some, FileM.bind_apply, FileM.seek_apply, FileM.read_apply, TRACE_HEADER_NUM_BYTES]
  unfold headerBytes at h1
  rw [h1, List.length_take, List.length_drop, Nat.min_eq_left (by omega)]
  rfl

end Segpy
