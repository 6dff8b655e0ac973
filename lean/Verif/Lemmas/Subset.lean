import Verif.Lemmas.Copy2
import Verif.Model.Subset
import Verif.Spec.Subset

/-! # Lemmas on writing selected traces -/

namespace Segpy

open Spec FileM

/-- The selected traces, numbered from zero. -/
def Dataset.renumbered (d : Dataset) (l : List Int) : Dataset :=
  { d with
    num_traces := l.length
    trace_indexes := (List.range l.length).map fun i : Nat => (i : Int)
    trace_header := fun i => d.trace_header (l.getD i.toNat 0)
    trace_samples := fun i => d.trace_samples (l.getD i.toNat 0) }

theorem writeTraces_renumber {d d' : Dataset} {p : HeaderPacker} {e : Endian}
    (hb : d'.binary_reel_header = d.binary_reel_header) (hn : d.num_traces ≠ 0) (l : List Int) :
    ∀ (a : Nat) (s s' : FileH) (ps : List ℚ),
      (∀ j (hj : j < l.length), d'.trace_header ((a + j : Nat) : Int) = d.trace_header l[j]) →
      (∀ j (hj : j < l.length), d'.trace_samples ((a + j : Nat) : Int) = d.trace_samples l[j]) →
      writeTraces d' p e ((List.range' a l.length).map fun i : Nat => (i : Int)) s = (.ok ps, s') →
      writeTraces d p e l s = (.ok (l.map fun i : Int => round64 ((i : ℚ) / d.num_traces)), s') := by
  have hf : d'.dataSampleFormat = d.dataSampleFormat := by unfold Dataset.dataSampleFormat; rw [hb]
  induction l with
  | nil =>
    intro a s s' ps _ _ h
    have h2 : s = s' := congrArg Prod.snd h
    rw [h2]
    rfl
  | cons i l ih =>
    intro a s s' ps hh hs h
    have h0 := hh 0 (by simp)
    have s0 := hs 0 (by simp)
    simp only [Nat.add_zero, List.getElem_cons_zero] at h0 s0
    rw [List.length_cons, List.range'_succ, List.map_cons, writeTraces, h0, s0, hf] at h
    rw [writeTraces]
    obtain ⟨hd, s1, g1, h⟩ := bind_eq_ok h
    obtain ⟨_, s2, g2, h⟩ := bind_eq_ok h
    obtain ⟨vs, s3, g3, h⟩ := bind_eq_ok h
    obtain ⟨t, s4, g4, h⟩ := bind_eq_ok h
    obtain ⟨_, s5, g5, h⟩ := bind_eq_ok h
    rw [bind_ok g1, bind_ok g2, bind_ok g3, bind_ok g4, bind_ok g5, if_neg hn]
    split at h
    · cases h
    obtain ⟨later, s6, g6, h⟩ := bind_eq_ok h
    have := ih (a + 1) s5 s6 later
      (fun j hj => by
        have := hh (j + 1) (by simpa using hj)
        rw [show a + (j + 1) = a + 1 + j by omega] at this
        simpa using this)
      (fun j hj => by
        have := hs (j + 1) (by simpa using hj)
        rw [show a + (j + 1) = a + 1 + j by omega] at this
        simpa using this) g6
    rw [bind_ok this]
    have hs6 : s6 = s' := congrArg Prod.snd h
    rw [hs6]
    rfl

/-- Writing a selection is writing the renumbered traces, but for the progress. -/
theorem writeSegy_select {d : Dataset} {l : List Int} (hl : l ≠ []) {encoding : Option Encoding} {T : Format} {e : Endian}
    {s s' : FileH} {ps : List ℚ} (h : writeSegy (d.renumbered l) encoding T e s = (.ok ps, s')) :
    writeSegy (d.select l) encoding T e s =
      (.ok ((l.map fun i : Int => round64 ((i : ℚ) / ((l.length : Nat) : Int))) ++ [1]), s') := by
  unfold writeSegy at h ⊢
  have e1 : (d.select l).encoding = (d.renumbered l).encoding := rfl
  rw [e1]
  split at h
  · cases h
  rename_i hsup
  rw [if_neg hsup]
  obtain ⟨_, s1, g1, h⟩ := bind_eq_ok h
  obtain ⟨_, s2, g2, h⟩ := bind_eq_ok h
  obtain ⟨_, s3, g3, h⟩ := bind_eq_ok h
  obtain ⟨p, s4, g4, h⟩ := bind_eq_ok h
  obtain ⟨q, s5, g5, h⟩ := bind_eq_ok h
  have hs5 : s5 = s' := congrArg Prod.snd h
  subst hs5
  have hne : (d.select l).num_traces ≠ 0 := by
    show ((l.length : Nat) : Int) ≠ 0
    have := List.length_pos_iff.mpr hl
    omega
  have hidx : (d.renumbered l).trace_indexes = (List.range' 0 l.length).map fun i : Nat => (i : Int) := by
    rw [← List.range_eq_range']; rfl
  rw [hidx] at g5
  have := writeTraces_renumber (d := d.select l) (d' := d.renumbered l) (p := p) (e := e) rfl hne l 0 s4 s5 q
    (fun j hj => by
      show d.trace_header (l.getD (((0 + j : Nat) : Int)).toNat 0) = _
      simp [List.getD_eq_getElem?_getD, List.getElem?_eq_getElem hj, Dataset.select])
    (fun j hj => by
      show d.trace_samples (l.getD (((0 + j : Nat) : Int)).toNat 0) = _
      simp [List.getD_eq_getElem?_getD, List.getElem?_eq_getElem hj, Dataset.select]) g5
  have g1' : writeTextualReelHeader (d.select l).textual_reel_header
      ((encoding.or (d.renumbered l).encoding).getD .ascii) s = (.ok _, s1) := g1
  have g2' : writeBinaryReelHeader (d.select l).binary_reel_header e s1 = (.ok _, s2) := g2
  have g3' : writeExtendedTextualHeaders (d.select l).extended_textual_header
      ((encoding.or (d.renumbered l).encoding).getD .ascii) s2 = (.ok _, s3) := g3
  have hidx' : (d.select l).trace_indexes = l := rfl
  rw [bind_ok g1', bind_ok g2', bind_ok g3', bind_ok g4, hidx', bind_ok this]
  rfl

/-- A trace that can be read is one of the file. -/
theorem readable_index {T : Format} {e : Endian} {s : FileH} {t : SegYType} {starts : List Nat} {r : Reader}
    (hr : Readable T e s t starts r) {i : Int} {hd : Header} (h : (r.traceHeader i none s).1 = .ok hd) :
    ∃ k : Nat, i = k ∧ k < starts.length := by
  rw [traceHeader_eq, hr.describes.num_traces] at h
  simp only at h
  split at h
  · cases h
  · rename_i hi
    have hi := not_not.mp hi
    obtain ⟨k, rfl⟩ := Int.eq_ofNat_of_zero_le hi.1
    exact ⟨k, rfl, by omega⟩

theorem exists_listOf {α β : Type} {P : α → β → Prop} (l : List α) (h : ∀ a ∈ l, ∃ b, P a b) :
    ∃ m : List β, m.length = l.length ∧ ∀ j (hj : j < l.length) (hj' : j < m.length), P l[j] m[j] := by
  induction l with
  | nil => exact ⟨[], rfl, by simp⟩
  | cons a l ih =>
    obtain ⟨m, h1, h2⟩ := ih fun b hb => h b (List.mem_cons_of_mem _ hb)
    obtain ⟨b, hb⟩ := h a List.mem_cons_self
    refine ⟨b :: m, by simp [h1], ?_⟩
    intro j hj hj'
    cases j with
    | zero => exact hb
    | succ j => exact h2 j (by simpa using hj) (by simpa using hj')

/-- The dataset that the selected traces are. -/
theorem select_consistent {T : Format} {e e' : Endian} (hT : Cataloguable T e) (hT' : Cataloguable T e')
    (hTr : Regular T e' 240) {B : Format} (hB : Regular B e' 400) {encoding : Option Encoding} {dim : Option Int}
    {s s' : FileH} {r : Reader} {progress : List ℚ} (h : createReader encoding B T e dim s = (.ok (r, progress), s'))
    {native : Endian} {l : List Int} (hl : l ≠ []) (hread : ∀ i ∈ l, (∃ hd, (r.traceHeader i none s).1 = .ok hd) ∧
      ∃ vs, (r.traceSamples native i none none s).1 = .ok vs) :
    ∃ t starts hs vss, Readable T e s t starts r ∧
      Opened T e dim s.data (3600 + 3200 * r.extended_textual_headers.length) t starts r ∧
      hs.length = l.length ∧ (∀ j (_ : j < l.length) (hj' : j < hs.length), (r.traceHeader l[j] none s).1 = .ok hs[j]) ∧
      (∀ j (_ : j < l.length) (hj' : j < vss.length), (r.traceSamples native l[j] none none s).1 = .ok vss[j] ∧
        r.numTraceSamples l[j] = .ok (vss[j].length : Int) ∧
        ∀ v ∈ vss[j], ∀ w, StoredAs t v w → w = v) ∧
      Consistent ((r.asDataset native s).renumbered l) r.encoding T e' t hs vss := by
  obtain ⟨t, starts, hr, ho⟩ := createReader_all hT h
  obtain ⟨henc, ⟨s1, ht⟩, s2, s3, hx⟩ := createReader_reel h
  obtain ⟨t1, t2, -⟩ := readTextual_page ht
  obtain ⟨x1, x2, x3⟩ := extendedOf_pages hx
  obtain ⟨b1, b2⟩ := createReader_binary hB.afterStart hB.orderSafe h
  have hdesc := hr.describes
  obtain ⟨hs, hs1, hs2⟩ := exists_listOf l fun i hi => (hread i hi).1
  obtain ⟨vss, vs1, vs2⟩ := exists_listOf l fun i hi => (hread i hi).2
  have hidx : ∀ j (hj : j < l.length), ∃ k : Nat, l[j] = k ∧ k < starts.length := fun j hj =>
    readable_index hr (hs2 j hj (by omega))
  have hget : ∀ j (hj : j < l.length), l.getD (((j : Nat) : Int)).toNat 0 = l[j] := by
    intro j hj
    simp [List.getD_eq_getElem?_getD, List.getElem?_eq_getElem hj]
  have hhok : ∀ j (hj : j < l.length) (hj' : j < hs.length), hs[j].format = T ∧ hs[j].Valid := by
    intro j hj hj'
    obtain ⟨k, hk, hks⟩ := hidx j hj
    have := hs2 j hj hj'
    rw [hk] at this
    have := traceHeader_ok hT hTr.orderSafe hr ho hks (pos := s.pos) this
    exact ⟨this.1, this.2.1⟩
  refine ⟨t, starts, hs, vss, hr, ho, hs1, hs2, ?_, ?_⟩
  · intro j hj hj'
    obtain ⟨k, hk, hks⟩ := hidx j hj
    have hv := vs2 j hj hj'
    refine ⟨hv, ?_⟩
    rw [hk] at hv ⊢
    have := traceSamples_ok hT hr ho hks (pos := s.pos) hv
    exact ⟨by rw [hdesc.num_trace_samples k hks, this.1], fun v hv => (this.2.2 v hv).2⟩
  have hrev := Props.C55_canonical_partial T e encoding B dim s s' r progress h
  refine
    { encoding := t1
      textual := fun i hi => page_encodable t2 i hi
      binary_format := by show Regular r.binary_reel_header.format e' 400; rw [b1]; exact hB
      binary_valid := b2
      sample_format := hdesc.data_sample_format
      revision := ?_
      pages := x1
      no_early_stop := x2
      num_pages := x3
      some_trace := ?_
      num_traces := by rw [hs1]; rfl
      indexes := by rw [hs1]; rfl
      trace_format := hTr
      cataloguable := hT'
      trace_header := ?_
      header_format := ?_
      header_valid := ?_
      same_length := by rw [vs1, hs1]
      num_samples := ?_
      trace_samples := ?_
      fits := ?_ }
  · obtain ⟨v, hv, hv'⟩ := hrev
    refine ⟨v, hv, ?_⟩
    rcases hv' with ⟨hv', -⟩ | ⟨hv', -⟩
    · exact Or.inl hv'
    · exact Or.inr hv'
  · intro hnil
    rw [hnil] at hs1
    exact hl (List.eq_nil_of_length_eq_zero hs1.symm)
  · intro j hj
    show (r.asDataset native s).trace_header (l.getD (((j : Nat) : Int)).toNat 0) = _
    rw [hget j (by omega)]
    exact hs2 j (by omega) hj
  · intro hd hmem
    obtain ⟨j, hj, rfl⟩ := List.mem_iff_getElem.mp hmem
    exact (hhok j (by omega) hj).1
  · intro hd hmem
    obtain ⟨j, hj, rfl⟩ := List.mem_iff_getElem.mp hmem
    exact (hhok j (by omega) hj).2
  · intro j hj hj'
    obtain ⟨k, hk, hks⟩ := hidx j (by omega)
    have hp := hT.present "num_samples" (by simp)
    obtain ⟨f, hf, hfn⟩ : ∃ f ∈ T.fields, f.name = "num_samples" := by
      obtain ⟨f, hf⟩ := Format.attr_of_mem hp
      exact ⟨f, Format.mem_fields.mpr (by rw [Format.attr_name hf]; exact hf), Format.attr_name hf⟩
    have h1 := hs2 j (by omega) hj
    have h2 := vs2 j (by omega) hj'
    rw [hk] at h1 h2
    have := (traceHeader_ok hT hTr.orderSafe hr ho hks (pos := s.pos) h1).2.2 f hf
    rw [hfn, (traceSamples_ok hT hr ho hks (pos := s.pos) h2).1] at this
    exact this
  · intro j hj
    show (r.asDataset native s).trace_samples (l.getD (((j : Nat) : Int)).toNat 0) = _
    rw [hget j (by omega)]
    exact vs2 j (by omega) hj
  · intro vs hmem v hv
    obtain ⟨j, hj, rfl⟩ := List.mem_iff_getElem.mp hmem
    obtain ⟨k, hk, hks⟩ := hidx j (by omega)
    have h2 := vs2 j (by omega) hj
    rw [hk] at h2
    exact ((traceSamples_ok hT hr ho hks (pos := s.pos) h2).2.2 v hv).1

end Segpy
