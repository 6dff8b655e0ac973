import Verif.Model.Cli
import Verif.Model.Copy

/-!
# Model of `examples/check_equal.py` and `examples/custom_header.py`

Header formats derived from the shipped ones, and what the scripts do with them.
-/

namespace Segpy

/-- `CustomTraceHeader`, examples/check_equal.py:10-22. -/
def levelCustomTraceHeader : Level where
  name := "CustomTraceHeader"
  start_offset := none
  length_in_bytes := none
  fields := [
    ⟨"unassigned_1", vtInt16, 233, 0⟩,  -- 12-13
    ⟨"unassigned_2", vtInt16, 235, 0⟩,  -- 15-16
    ⟨"unassigned_3", vtInt16, 237, 0⟩,  -- 18-19
    ⟨"unassigned_4", vtInt16, 239, 0⟩]  -- 21-22

/-- The format that `CustomTraceHeader` defines together with its base classes. -/
def fmtCustomTraceHeader : Format := fmtTraceHeaderRev1 ++ [levelCustomTraceHeader]

/-- `UInt16`, examples/custom_header.py:36-42. -/
def vtUInt16 : ValueType := .mkInt "UInt16" .nnint16 (some 0) (some 65535)

/-- `CustomBinaryReelHeader`, examples/custom_header.py:47-55: one field is redefined. -/
def levelCustomBinaryReelHeader : Level where
  name := "CustomBinaryReelHeader"
  start_offset := none
  length_in_bytes := none
  fields := [⟨"num_samples", vtUInt16, 3221, 0⟩]  -- 49-54

/-- The format that `CustomBinaryReelHeader` defines together with its base class. -/
def fmtCustomBinaryReelHeader : Format := fmtBinaryReelHeader ++ [levelCustomBinaryReelHeader]

/-- `==` between two samples of the same sample format: two ints, two floats or two `IBMFloat`s.  Others are not
compared by `check_equal.py`, because both files have the same sample format. -/
def PyNum.eq : PyNum → PyNum → Res Bool
  | .int n, .int m => .ok (decide (n = m))
  | .float f, .float g => .ok (f.eq g)
  | .ibm x, .ibm y => x.eqIbm y
  | _, _ => .ok false

/-- `==` between two sequences of samples that have no element in common (two `array`s, or two lists of new objects). -/
def samplesEq : List PyNum → List PyNum → Res Bool
  | [], [] => .ok true
  | v :: vs, w :: ws => do if ← v.eq w then samplesEq vs ws else return false
  | _, _ => .ok false

/-- One round of the loop of `check_equal.py`, examples/check_equal.py:37-46: what is printed.  The methods of the readers
read the files `s` and `s'`, and what they return does not depend on their positions (`C46_history`).  (If the lengths of
the samples differ, `==` is false without the elements being compared; comparing elements first makes no difference, as
`==` between samples does not raise, `C06_total`.) -/
def checkEqualRound (native : Endian) (r r' : Reader) (s s' : FileH) (i : Int) : Res (Int × Int) := do
  let trace_offset ← r.trace_offset_catalog.get i
  let head0 ← (r.traceHeader i none s).1
  let head1 ← (r'.traceHeader i none s').1
  if ¬ (← head0.areEqual head1) then .error .assertionError
  else
    let data0 ← (r.traceSamples native i none none s).1
    let data1 ← (r'.traceSamples native i none none s').1
    if ¬ (← samplesEq data0 data1) then .error .assertionError
    else return (i, trace_offset)

/-- `check_equal.py`, examples/check_equal.py:25-46, for any two different file names: the numbers and offsets printed. -/
def checkEqual (native : Endian) (s : FileH) : Res (List (Int × Int)) := do
  let (r, _) ← (createReader none fmtBinaryReelHeader fmtCustomTraceHeader .big none s).1
  match writeSegy (r.asDataset native s) none fmtCustomTraceHeader .big { data := [], pos := 0 } with
  | (.error err, _) => .error err
  | (.ok _, out) =>
    let s' : FileH := { out with pos := 0 }
    let (r', _) ← (createReader none fmtBinaryReelHeader fmtCustomTraceHeader .big none s').1
    let trace_indexes ← r.traceIndexes
    trace_indexes.mapM (checkEqualRound native r r' s s')

/-- `report_segy(in_filename)`, examples/custom_header.py:58-95. -/
def customReport : FileM (List Printed) := reportWith fmtCustomBinaryReelHeader

end Segpy
