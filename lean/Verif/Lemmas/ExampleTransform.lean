import Verif.Lemmas.Transform
import Verif.Lemmas.ExampleFile

/-! # Files of one trace, for the examples of C68, C69, C70 -/

namespace Segpy

open Segpy.Spec Segpy.FileM

/-- A file of one trace in the sample format with the given code, having the given number of samples. -/
def oneTrace (code n : UInt8) (samples : Bytes) : FileH :=
  { data := List.replicate 3200 0x40 ++ List.replicate 24 0 ++ [0, code] ++ List.replicate 374 0 ++ sampleHeader 1 n 5 ++
      samples, pos := 0 }

/-- What has to be evaluated to see that such a file opens and can be read. -/
structure OneTraceCheck where
  num_traces : Res Int
  indexes : Res (List Int)
  header : Res Unit
  samples : Res (List PyNum)
  format : Res SegYType
  deriving DecidableEq

def oneTraceCheck (s : FileH) : Res OneTraceCheck :=
  (createReader none fmtBinaryReelHeader fmtTraceHeaderRev1 .big none s).1.map fun x =>
    ⟨x.1.numTraces, x.1.traceIndexes, (x.1.traceHeader 0 none s).1.map (fun _ => ()),
      (x.1.traceSamples .little 0 none none s).1, x.1.dataSampleFormat⟩

theorem oneTrace_ready {s : FileH} {vs : List PyNum} {t : SegYType}
    (key : oneTraceCheck s = .ok ⟨.ok 1, .ok [0], .ok (), .ok vs, .ok t⟩) :
    ∃ r p s1, createReader none fmtBinaryReelHeader fmtTraceHeaderRev1 .big none s = (.ok (r, p), s1) ∧
      AllReadable .little r s ∧ r.dataSampleFormat = .ok t ∧ (r.traceSamples .little 0 none none s).1 = .ok vs ∧
      ∀ (i : Nat) (ws : List PyNum), (r.traceSamples .little i none none s).1 = .ok ws → ws = vs := by
  unfold oneTraceCheck at key
  cases hc : createReader none fmtBinaryReelHeader fmtTraceHeaderRev1 .big none s with
  | mk x s1 =>
  cases x with
  | error err => rw [hc] at key; cases key
  | ok x =>
  obtain ⟨r, p⟩ := x
  rw [hc] at key
  have key' := Except.ok.inj key
  simp only [OneTraceCheck.mk.injEq] at key'
  obtain ⟨k0, k1, k2, k3, k4⟩ := key'
  refine ⟨r, p, s1, rfl, ⟨_, k1, ?_⟩, k4, k3, ?_⟩
  · intro i hi
    rw [List.mem_singleton.mp hi]
    refine ⟨?_, _, k3⟩
    cases hh : (r.traceHeader 0 none s).1 with
    | error _ => rw [hh] at k2; cases k2
    | ok hd => exact ⟨hd, rfl⟩
  · intro i ws hws
    by_cases hi : i = 0
    · subst hi
      exact Except.ok.inj (hws.symm.trans k3)
    · rw [Props.C45_invalid r .little i 1 0 none none s k0 (Or.inr (by omega)) (by omega)] at hws
      cases hws

end Segpy
