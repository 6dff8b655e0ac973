import Verif.Lemmas.Subset
import Verif.Lemmas.ExampleFile
import Verif.Props.Writer

/-! # Properties of writing selected traces: C90 -/

namespace Segpy.Props

open Segpy.Spec Segpy.FileM

/-- Any traces of an opened file that can be read are written to another file, in any order and with repetitions if they
are asked for; that file opens with the same arguments, has the same reel headers, and those traces. -/
theorem C90_select (T B : Format) (e e' : Endian) (hT : Cataloguable T e) (hT' : Cataloguable T e') (hTr : Regular T e' 240)
    (hB : Regular B e' 400) (encoding : Option Encoding) (dim : Option Int) (s s1 : FileH) (hs0 : s.pos = 0) (r : Reader)
    (p : List ℚ) (h : createReader encoding B T e dim s = (.ok (r, p), s1)) (native : Endian) (l : List Int) (hl : l ≠ [])
    (hread : ∀ i ∈ l, (∃ hd, (r.traceHeader i none s).1 = .ok hd) ∧ ∃ vs, (r.traceSamples native i none none s).1 = .ok vs) :
    ∃ p' c, writeSegy ((r.asDataset native s).select l) none T e' { data := [], pos := 0 } = (.ok p', c) ∧
      c.data.take 3200 = s.data.take 3200 ∧
      ∃ r' p'' c1, createReader encoding B T e' dim { c with pos := 0 } = (.ok (r', p''), c1) ∧
        Selected T B native r s l r' { c with pos := 0 } := by
  obtain ⟨t, starts, hs, vss, hr, ho, hlen, hh, hv, hc⟩ := select_consistent hT hT' hTr hB h hl hread
  obtain ⟨henc, ⟨s2, ht⟩, -⟩ := createReader_reel h
  obtain ⟨b1, -⟩ := createReader_binary hB.afterStart hB.orderSafe h
  have hpage := (readTextual_page ht).2.1
  have hvl := hc.same_length
  obtain ⟨p', c, h1, h2, h3⟩ := C47_round_trip _ _ T e' t hs vss hc none rfl
  have hdims := ho.dims
  have hf : fortyCards ((r.asDataset native s).renumbered l).textual_reel_header = r.textual_reel_header :=
    fortyCards_page hpage
  have htake : c.data.take 3200 = s.data.take 3200 := by
    obtain ⟨r', p'', c1, g1, g2⟩ := h3 (some r.encoding) dim rfl hdims
    obtain ⟨-, ⟨c2, k⟩, -⟩ := createReader_reel g1
    obtain ⟨k1, -⟩ := createReader_reel g1
    rw [g2.textual, k1, hf] at k
    have := readTextual_inj k ht
    rw [hs0] at this
    simpa using this
  refine ⟨_, c, writeSegy_select hl h1, htake, ?_⟩
  have hused : usedEncoding encoding c.data = r.encoding := by
    rw [henc]
    unfold usedEncoding
    rw [htake]
  obtain ⟨r', p'', c1, g1, g2⟩ := h3 encoding dim hused hdims
  have hfmt : ((r.asDataset native s).renumbered l).binary_reel_header.format = B := b1
  rw [hfmt] at g1
  have hfull : ∀ i < hs.length,
      traceStart (firstTrace ((r.asDataset native s).renumbered l)) t vss (i + 1) ≤ c.data.length := by
    intro i hi
    rw [h2]
    exact traceStart_mono _ _ _ (by omega)
  have hfull' : ∀ i < hs.length,
      traceStart (firstTrace ((r.asDataset native s).renumbered l)) t vss i + 240 ≤ c.data.length := by
    intro i hi
    have := hfull i hi
    rw [traceStart_succ _ _ _ _ (by omega)] at this
    omega
  refine ⟨r', p'', c1, g1,
    { textual := by rw [g2.textual, hf]
      binary_format := ⟨by rw [g2.binary_format]; exact b1, b1⟩
      binary := ?_
      extended := g2.extended
      num_traces := ?_
      num_trace_samples := ?_
      trace_header := ?_
      trace_samples := ?_ }⟩
  · intro f hf
    refine g2.binary f ?_
    rw [hfmt]; exact hf
  · have hfil : (List.range hs.length).filter (fun i =>
        traceStart (firstTrace ((r.asDataset native s).renumbered l)) t vss i + 240 ≤ c.data.length) =
        List.range hs.length := by
      rw [List.filter_eq_self]
      intro i hi
      simpa using hfull' i (List.mem_range.mp hi)
    have := g2.num_traces
    rw [hfil, List.length_range, hlen] at this
    exact this
  · intro j hj
    rw [g2.num_trace_samples j (by omega) (by omega) (hfull' j (by omega)), (hv j hj (by omega)).2.1]
  · intro j hj pos pos'
    obtain ⟨hd', k1, k2, k3⟩ := g2.trace_header j (by omega) pos' (hfull' j (by omega))
    refine ⟨hs[j], hd', ?_, k1, hc.header_format _ (List.getElem_mem _), k2, k3⟩
    rw [traceHeader_pos]
    exact hh j hj (by omega)
  · intro j hj pos pos'
    obtain ⟨ws, w1, w2⟩ := g2.trace_samples native j (by omega) pos' (by omega) (hfull j (by omega))
    have hvj := hv j hj (by omega)
    rw [traceSamples_pos r, hvj.1, w1, forall2_eq w2 hvj.2.2]

section Example

/-- The sample file without its last byte: the last trace cannot be read. -/
private def cutFile : FileH := { sampleFile with data := sampleFile.data.dropLast }

/-- Traces 1, 0 and 0 of the file, or any others: whether they can be read, and what is found in the file they are
written to. -/
private def written (l : List Int) : Res (Bool × Res (List ℚ) × Res Int × List (Res (List PyNum))) := do
  let x ← (createReader (some .ebcdic) fmtBinaryReelHeader fmtTraceHeaderRev1 .big none cutFile).1
  let w := writeSegy ((x.1.asDataset .little cutFile).select l) none fmtTraceHeaderRev1 .little { data := [], pos := 0 }
  let y ← (createReader (some .ebcdic) fmtBinaryReelHeader fmtTraceHeaderRev1 .little none { w.2 with pos := 0 }).1
  return (l.all fun i => (x.1.traceHeader i none cutFile).1.toOption.isSome &&
      (x.1.traceSamples .little i none none cutFile).1.toOption.isSome, w.1, y.1.numTraces,
    (List.range l.length).map fun i : Nat => (y.1.traceSamples .little i none none w.2).1)

private def check (l : List Int) (a : Bool) (b : Res (List ℚ)) (c : Res Int) (d : List (Res (List PyNum))) : Bool :=
  match written l with
  | .error _ => false
  | .ok (a', b', c', d') => decide (a' = a) && decide (b' = b) && decide (c' = c) && decide (d' = d)

-- the hypothesis holds of traces 1, 0 and 0, and these are found in the new file
example : check [1, 0, 0] true (.ok [round64 (1 / 3), 0, 0, 1]) (.ok 3)
    [.ok [], .ok [.int 7, .int (-1)], .ok [.int 7, .int (-1)]] = true := by
  decide +kernel

/-- The progress reported while selected traces are written is not always between 0 and 1. -/
theorem C63_above_one_fails : ∃ (d : Dataset) (progress : List ℚ) (s : FileH), d.num_traces = d.trace_indexes.length ∧
    d.trace_indexes.Pairwise (· < ·) ∧
    writeSegy d none fmtTraceHeaderRev1 .little { data := [], pos := 0 } = (.ok progress, s) ∧ 2 ∈ progress := by
  have key : (match createReader (some .ebcdic) fmtBinaryReelHeader fmtTraceHeaderRev1 .big none sampleFile with
      | (.ok x, _) => decide ((writeSegy ((x.1.asDataset .little sampleFile).select [2]) none fmtTraceHeaderRev1 .little
          { data := [], pos := 0 }).1 = .ok [2, 1])
      | _ => false) = true := by decide +kernel
  cases hc : createReader (some .ebcdic) fmtBinaryReelHeader fmtTraceHeaderRev1 .big none sampleFile with
  | mk x s1 =>
  cases x with
  | error err => rw [hc] at key; cases key
  | ok x =>
  rw [hc] at key
  simp only [decide_eq_true_eq] at key
  exact ⟨(x.1.asDataset .little sampleFile).select [2], [2, 1], _, rfl, by simp [Dataset.select],
    Prod.ext key rfl, by simp⟩

end Example

end Segpy.Props
