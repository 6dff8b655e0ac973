import Verif.Props.Extract
import Verif.Lemmas.ExampleFile

/-! # Extracting a trace: C66 -/

namespace Segpy.Props

open Segpy Spec FileM

/-- Extracting a trace never works on a reader that is neither 2D nor 3D. -/
theorem C66_plain_fails (r : Reader) (h : r.dimensionality = .ok 0 ∨ r.dimensionality = .ok 1) (native : Endian)
    (trace : TraceArg) (sel : Selection) (s : FileH) :
    (extractTrace r native trace sel s).1 = .error .attributeError := by
  have hk : r.kind = .plain := by
    unfold Reader.dimensionality at h
    cases hk : r.kind with
    | plain => rfl
    | _ => rw [hk] at h; rcases h with h | h <;> injection h with h <;> omega
  have hb : r.hasTraceIndexArg trace = .error .attributeError := by
    unfold Reader.hasTraceIndexArg
    cases trace <;> rw [hk]
  unfold extractTrace
  simp only [bind, FileM.bind, FileM.lift, hb]

/-- Nor on a 3D reader, although the documentation asks for one: whatever trace is asked for, an index or a pair of line
numbers, an exception is raised. -/
theorem C66_3d_fails (r : Reader) (h : r.dimensionality = .ok 3) (native : Endian) (trace : TraceArg) (sel : Selection)
    (s : FileH) : ∃ err, (extractTrace r native trace sel s).1 = .error err := by
  unfold extractTrace
  cases hb : r.hasTraceIndexArg trace with
  | error err => exact ⟨err, by rw [FileM.bind_error (FileM.lift_apply _ _)]⟩
  | ok b =>
    cases trace with
    | index i =>
      have : b = false := by
        unfold Reader.hasTraceIndexArg at hb
        unfold Reader.dimensionality at h
        cases hk : r.kind with
        | threeD c a a' =>
          rw [hk] at hb
          cases c with
          | none => exact (Except.ok.inj hb).symm
          | some c => cases hb
        | plain =>
          rw [hk] at hb; cases hb
        | twoD c n => rw [hk] at h; injection h with h; omega
      subst this
      exact ⟨.valueError, rfl⟩
    | pair k =>
      cases b with
      | false => exact ⟨.valueError, rfl⟩
      | true =>
        rw [FileM.bind_ok (FileM.lift_apply _ _), if_neg (by simp)]
        cases h1 : r.maxNumTraceSamples with
        | error err => exact ⟨err, by rw [FileM.bind_error (FileM.lift_apply _ _)]⟩
        | ok m =>
          rw [FileM.bind_ok (FileM.lift_apply _ _)]
          cases h2 : ensureSuperset (.range (PyRange.make1 0 m.1)) sel with
          | error err => exact ⟨err, by simp only [h2]; rw [FileM.bind_error (FileM.lift_apply _ _)]⟩
          | ok out =>
            simp only [h2]
            rw [FileM.bind_ok (FileM.lift_apply _ _)]
            cases h3 : out.get 0 with
            | error err => exact ⟨err, by rw [FileM.bind_error (FileM.lift_apply _ _)]⟩
            | ok a =>
              rw [FileM.bind_ok (FileM.lift_apply _ _)]
              cases h4 : out.get (-1) with
              | error err => exact ⟨err, by rw [FileM.bind_error (FileM.lift_apply _ _)]⟩
              | ok b => exact ⟨.keyError, by rw [FileM.bind_ok (FileM.lift_apply _ _)]; rfl⟩

/-- Extracting a trace from a 2D reader.  The argument is used both as an ensemble (CDP) number and as a trace index;
if it is both, the samples extracted are the selected ones of the trace with that *index*.
Partial: the index must also be an ensemble number of the file (see `C66_2d_index_fails`), there must be something
selected, and the trace must have all the samples asked for. -/
theorem C66_2d_partial (T : Format) (e : Endian) (hT : Cataloguable T e) (encoding : Option Encoding) (B : Format)
    (dim : Option Int) (s s' : FileH) (r : Reader) (progress : List ℚ)
    (h : createReader encoding B T e dim s = (.ok (r, progress), s')) (h2 : r.dimensionality = .ok 2) :
    ∃ t starts, Describes T e s.data t starts r ∧
      Traces T e s.data t.size (3600 + 3200 * r.extended_textual_headers.length) starts ∧
      ((ensembles T e s.data starts).Nodup →
        (∀ native i ssel pos, i ∉ ensembles T e s.data starts →
          (extractTrace r native (.index i) ssel { s with pos := pos }).1 = .error .valueError) ∧
        ∀ native (i : Nat) (hi : i < starts.length) ssel pos m S, (i : Int) ∈ ensembles T e s.data starts →
          MostSamples T e s.data starts m → Chooses (sampleNumbers m) ssel S → S ≠ [] →
          Whole T e s.data t starts[i] → (∀ n ∈ S, n < fieldAt T e s.data starts[i] "num_samples") →
          ∃ xs k, extractTrace r native (.index i) ssel { s with pos := pos } = (.ok xs, { s with pos := k }) ∧
            List.Forall₂ (fun n x => ElementOf e t (storedSample t s.data starts[i] n.toNat) x) S xs) := by
  obtain ⟨t, starts, g1, g2, hs, -, g3⟩ := createReader_sectioned hT h
  refine ⟨t, starts, g1, g2, fun hn => ?_⟩
  have hf := g3 h2 hn
  have hhas : ∀ i : Int, r.hasTraceIndexArg (.index i) = .ok (decide (i ∈ ensembles T e s.data starts)) := by
    intro i
    rw [← hf.has]
    unfold Reader.hasTraceIndexArg
    unfold Reader.dimensionality at h2
    cases hk : r.kind with
    | twoD c n => rfl
    | threeD a b c => rw [hk] at h2; injection h2 with h2; omega
    | plain =>
      have := hf.has i
      unfold Reader.hasTraceIndex2 at this
      rw [hk] at this
      cases this
  constructor
  · intro native i ssel pos hi
    have := hhas i
    rw [decide_eq_false hi] at this
    unfold extractTrace
    simp only [bind, FileM.bind, FileM.lift, this]
    rfl
  · intro native i hi ssel pos m S hin hm hS hne hw hlt
    have hb := hhas i
    rw [decide_eq_true hin] at hb
    obtain ⟨r', out, s1, s2, s3, s4, s5⟩ := samples_ensure hs hm hS
    obtain ⟨d, hd⟩ := makeDtype_of_format g1.data_sample_format
    obtain ⟨l, l1, l2, l3⟩ := hs.trace native hi hw
    obtain ⟨hnum, hsub⟩ := traceSamples_sub l1
    rw [s3] at s5
    have hsorted : S.Pairwise (· < ·) := by
      rw [← s3]
      cases out with
      | range q => exact range_sorted_pos q s4.1
      | sfs q => exact s4.1
      | _ => exact s4.elim
    have hlen : 0 < S.length := List.length_pos_iff.mpr hne
    have hget0 : out.get 0 = .ok S[0] := by rw [PyIter.get_eq, s3]; exact pyGet_zero _ hlen
    have hget1 : out.get (-1) = .ok S[S.length - 1] := by rw [PyIter.get_eq, s3]; exact pyGet_last _ hlen
    have hbd : ∀ n ∈ S, 0 ≤ n ∧ n < l.length := fun n hn => ⟨s5 n hn, by rw [l2]; exact hlt n hn⟩
    obtain ⟨f0, f1⟩ := hbd S[0] (List.getElem_mem hlen)
    obtain ⟨e0, e1⟩ := hbd S[S.length - 1] (List.getElem_mem (by omega : S.length - 1 < S.length))
    have hle : ∀ x ∈ S, S[0] ≤ x ∧ x ≤ S[S.length - 1] := by
      intro x hx
      obtain ⟨j, hj, rfl⟩ := List.mem_iff_getElem.mp hx
      constructor
      · rcases Nat.eq_zero_or_pos j with rfl | h
        · exact le_refl _
        · exact (List.pairwise_iff_getElem.mp hsorted 0 j hlen hj h).le
      · rcases Nat.lt_or_ge j (S.length - 1) with h | h
        · exact (List.pairwise_iff_getElem.mp hsorted j _ hj (by omega) h).le
        · have : j = S.length - 1 := by omega
          subst this
          exact le_refl _
    have hsame := (hle _ (List.getElem_mem hlen)).2
    have hmin : min (S[S.length - 1] + 1) (l.length : Int) = ((S[S.length - 1].toNat + 1 : Nat) : Int) := by omega
    have hread := hsub S[0].toNat (S[S.length - 1].toNat + 1) (by omega) (by omega)
    rw [Int.toNat_of_nonneg f0, ← hmin] at hread
    obtain ⟨xs, x1, x2⟩ := res_mapM (f := fun n => (do
        d.cast (← pyGet ((l.take (S[S.length - 1].toNat + 1)).drop S[0].toNat) (n - S[0])) : Res Scalar))
      (P := fun n x => ElementOf e t (storedSample t s.data starts[i] n.toNat) x) S (by
        intro n hn
        obtain ⟨a1, a2⟩ := hle n hn
        obtain ⟨n0, n1⟩ := hbd n hn
        have hlt' : n.toNat < l.length := by omega
        obtain ⟨x, hx1, hx2⟩ := l3 d hd _ _ (List.getElem?_eq_getElem hlt')
        refine ⟨x, ?_, hx2⟩
        have hj : n - S[0] = ((n.toNat - S[0].toNat : Nat) : Int) := by omega
        rw [hj, pyGet_nat _ _ (by rw [List.length_drop, List.length_take]; omega)]
        simp only [bind, Except.bind, List.getElem_drop, List.getElem_take]
        have : S[0].toNat + (n.toNat - S[0].toNat) = n.toNat := by omega
        simp only [this, hx1])
    have hdt : (do makeDtype (← r.dataSampleFormat) : Res DType) = .ok d := by
      rw [g1.data_sample_format]; exact hd
    have hy : (extractTrace r native (.index i) ssel).Yields s xs := by
      unfold extractTrace
      refine (FileM.Yields.lift hb).bind ?_
      rw [if_neg (by simp)]
      refine (FileM.Yields.lift s1).bind ((FileM.Yields.lift s2).bind ((FileM.Yields.lift hget0).bind
        ((FileM.Yields.lift hget1).bind ?_)))
      exact (FileM.Yields.lift hnum).bind (hread.bind ((FileM.Yields.lift hdt).bind (FileM.Yields.lift
        (by rw [s3]; exact x1))))
    obtain ⟨k, hk⟩ := hy pos
    exact ⟨xs, k, hk, x2⟩

/-- Two traces, of one and two samples, with ensemble numbers 1 and 2. -/
def twoTraces : FileH :=
  { data := sampleReel ++ (sampleHeader 1 1 5 ++ [0, 7]) ++ (sampleHeader 2 2 5 ++ [0, 8, 0, 9]), pos := 0 }

theorem twoTraces_ok : ∃ r progress s',
    createReader (some .ebcdic) fmtBinaryReelHeader fmtTraceHeaderRev1 .big (some 2) twoTraces = (.ok (r, progress), s') := by
  have key : ((createReader (some .ebcdic) fmtBinaryReelHeader fmtTraceHeaderRev1 .big (some 2) twoTraces).1.map
      fun _ => ()) = .ok () := by decide +kernel
  cases hc : createReader (some .ebcdic) fmtBinaryReelHeader fmtTraceHeaderRev1 .big (some 2) twoTraces with
  | mk x s' =>
    rw [hc] at key
    cases x with
    | error err => cases key
    | ok y => exact ⟨y.1, y.2, s', rfl⟩

instance : DecidableEq (Res (List Scalar)) := inferInstance

/-- On a 2D reader a trace cannot be extracted by its index, as documented, nor by its ensemble number.  In a file of two
traces with ensemble numbers 1 and 2 there is no ensemble 0, so trace index 0 is refused; 1 gives trace index 1, which is
ensemble 2; and ensemble number 2 is refused because there is no trace index 2. -/
theorem C66_2d_index_fails : ∃ r progress s',
    createReader (some .ebcdic) fmtBinaryReelHeader fmtTraceHeaderRev1 .big (some 2) twoTraces = (.ok (r, progress), s') ∧
    r.dimensionality = .ok 2 ∧ r.traceIndexes = .ok [0, 1] ∧ r.traceIndex2 1 = .ok 0 ∧ r.traceIndex2 2 = .ok 1 ∧
    (extractTrace r .big (.index 0) (.items (.list [0])) twoTraces).1 = .error .valueError ∧
    (extractTrace r .big (.index 1) (.items (.list [0])) twoTraces).1 = .ok [.int 8] ∧
    (extractTrace r .big (.index 2) (.items (.list [0])) twoTraces).1 = .error .keyError := by
  obtain ⟨r, progress, s', h⟩ := twoTraces_ok
  have key1 : ((createReader (some .ebcdic) fmtBinaryReelHeader fmtTraceHeaderRev1 .big (some 2) twoTraces).1.map fun x =>
      (x.1.dimensionality, x.1.traceIndexes, x.1.traceIndex2 1, x.1.traceIndex2 2)) =
      .ok (.ok 2, .ok [0, 1], .ok 0, .ok 1) := by
    decide +kernel
  have key2 : ((createReader (some .ebcdic) fmtBinaryReelHeader fmtTraceHeaderRev1 .big (some 2) twoTraces).1.map fun x =>
      ((extractTrace x.1 .big (.index 0) (.items (.list [0])) twoTraces).1,
        (extractTrace x.1 .big (.index 1) (.items (.list [0])) twoTraces).1,
        (extractTrace x.1 .big (.index 2) (.items (.list [0])) twoTraces).1)) =
      .ok (.error .valueError, .ok [.int 8], .error .keyError) := by
    decide +kernel
  rw [h] at key1 key2
  simp only [Except.map, Except.ok.injEq, Prod.mk.injEq] at key1 key2
  exact ⟨r, progress, s', h, key1.1, key1.2.1, key1.2.2.1, key1.2.2.2, key2⟩

-- the hypotheses of `C66_2d_partial` for the second trace of this file
example : ensembles fmtTraceHeaderRev1 .big twoTraces.data [3600, 3842] = [1, 2] ∧
    MostSamples fmtTraceHeaderRev1 .big twoTraces.data [3600, 3842] 2 ∧
    Whole fmtTraceHeaderRev1 .big twoTraces.data (.int .int16) 3842 ∧ Chooses (sampleNumbers 2) .all [0, 1] ∧
    (∀ n ∈ [(0 : Int), 1], n < fieldAt fmtTraceHeaderRev1 .big twoTraces.data 3842 "num_samples") :=
  ⟨by decide +kernel, ⟨⟨3842, by simp, by decide +kernel⟩, by decide +kernel⟩,
    ⟨2, by decide +kernel, by decide +kernel⟩, rfl, by decide +kernel⟩

end Segpy.Props
