import Verif.Lemmas.Reader2

/-! # A small concrete file, used to show that the hypotheses of theorems about readers can be met -/

namespace Segpy

open Spec

/-- A trace header that the default format admits: ensemble number, number of samples and inline number. -/
def sampleHeader (ensemble samples inline : UInt8) : Bytes :=
  List.replicate 23 0 ++ [ensemble] ++ List.replicate 11 0 ++ [1] ++ List.replicate 79 0 ++ [samples] ++
    List.replicate 9 0 ++ [1] ++ List.replicate 65 0 ++ [inline] ++ List.replicate 48 0

/-- Reel headers: blank text in EBCDIC, sample format 3 (two byte integers) and otherwise zeros. -/
def sampleReel : Bytes := List.replicate 3200 0x40 ++ List.replicate 24 0 ++ [0, 3] ++ List.replicate 374 0

/-- Three traces, of two, no and one samples; the first two have the same ensemble number. -/
def sampleTraces : Bytes :=
  sampleHeader 1 2 5 ++ [0, 7, 255, 255] ++ sampleHeader 1 0 6 ++ sampleHeader 2 1 7 ++ [1, 0]

/-- The file, positioned at its beginning. -/
def sampleFile : FileH := { data := sampleReel ++ sampleTraces, pos := 0 }

/-- The file opens; as the pairs of line numbers are distinct, without a dimensionality argument the reader is 3D. -/
theorem sampleFile_opens : ((createReader (some .ebcdic) fmtBinaryReelHeader fmtTraceHeaderRev1 .big none sampleFile).1.map
    fun x => (x.1.dimensionality, x.1.numTraces, x.1.traceIndex3 (7, 0))) = .ok (.ok 3, .ok 3, .ok 2) := by
  decide +kernel

/-- It opens whichever dimensionality is asked for. -/
theorem sampleFile_ok (dim : Option Int) (h : dim ∈ [none, some 1, some 2, some 3]) :
    ∃ r progress s', createReader (some .ebcdic) fmtBinaryReelHeader fmtTraceHeaderRev1 .big dim sampleFile =
      (.ok (r, progress), s') := by
  have key : ∀ dim ∈ [none, some 1, some 2, some 3],
      ((createReader (some .ebcdic) fmtBinaryReelHeader fmtTraceHeaderRev1 .big dim sampleFile).1.map fun _ => ()) =
        .ok () := by
    decide +kernel
  have := key dim h
  cases hc : createReader (some .ebcdic) fmtBinaryReelHeader fmtTraceHeaderRev1 .big dim sampleFile with
  | mk x s' =>
    rw [hc] at this
    cases x with
    | error err => cases this
    | ok y => exact ⟨y.1, y.2, s', rfl⟩

end Segpy
