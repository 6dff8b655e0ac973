import Verif.Spec.Reel
import Verif.Model.Formats
import Mathlib.Data.Finset.Card
import Mathlib.Data.Finset.Dedup

/-! # What the commands say about a file -/

namespace Segpy.Spec

/-- The sample formats by their codes: the short name and the description. -/
def sampleFormatNames : List (Int × String × String) :=
  [(1, "ibm", "IBM 32 bit float"), (2, "int32", "32 bit signed integer"), (3, "int16", "16 bit signed integer"),
   (5, "float32", "IEEE float32"), (8, "int8", "8 bit signed integer (byte)")]

/-- How many different numbers there are in a list. -/
def numDistinct (l : List Int) : Nat := l.toFinset.card

/-- A survey has three dimensions if no two traces have the same line numbers, else two if no two have the same ensemble
number. -/
def dimensionOf (lines : List (Int × Int)) (ensembles : List Int) : Int :=
  if lines.Nodup then 3 else if ensembles.Nodup then 2 else 0

/-- The traces of a big endian file with the standard header formats and `pages` pages of extended textual header: its
sample format, taken from bytes 3225 and 3226, and where its traces begin. -/
structure Survey (data : Bytes) (pages : Nat) (code : Int) (starts : List Nat) : Prop where
  format : code = storedInt .big .int16 ((data.drop 3224).take 2)
  traces : ∃ t, formatCode t = some code ∧ Traces fmtTraceHeaderRev1 .big data t.size (3600 + 3200 * pages) starts

/-- The pairs of line numbers in the trace headers. -/
def surveyLines (data : Bytes) (starts : List Nat) : List (Int × Int) := linePairs fmtTraceHeaderRev1 .big data starts

/-- The ensemble numbers in the trace headers. -/
def surveyEnsembles (data : Bytes) (starts : List Nat) : List Int := ensembles fmtTraceHeaderRev1 .big data starts

/-- The numbers of samples in the trace headers. -/
def surveySamples (data : Bytes) (starts : List Nat) : List Int :=
  starts.map fun p => fieldAt fmtTraceHeaderRev1 .big data p "num_samples"

end Segpy.Spec
