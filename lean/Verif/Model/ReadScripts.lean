import Verif.Model.Scripts
import Verif.Model.CustomFormats
import Verif.Model.Examples

/-!
# Model of the command lines of the example scripts that only read SEG Y files

`main` of `examples/report.py`, `custom_header.py`, `trace_positions.py` and `timeslice.py`.  The last two use `argparse`,
which is not modelled: their `main` is given the arguments it has recognised.  What the scripts print is not part of the
result here (`report`, `customReport` and `tracePositions` say what it is), and printing is assumed to succeed.
-/

namespace Segpy

/-- A file is opened, `work` reads it, it is closed, and exceptions are turned into exit codes: the common part of the
scripts, examples/report.py:20-22, 62-73. -/
def FileSystem.read {α : Type} (fs : FileSystem) (in_filename : String) (work : FileM α) : Int :=
  match fs.openRead in_filename with
  | .error err => err.exitCode
  | .ok in_file =>
    match (work { data := fs.contents in_file, pos := 0 }).1 with
    | .error err => err.exitCode
    | .ok _ => exitOk

/-- `main(argv)`, examples/report.py:52-73. -/
def reportMain (argv : List String) (fs : FileSystem) : Int :=
  match argv with
  | in_filename :: _ => fs.read in_filename report
  | _ => exitUsage

/-- `main(argv)`, examples/custom_header.py:94-115. -/
def customHeaderMain (argv : List String) (fs : FileSystem) : Int :=
  match argv with
  | in_filename :: _ => fs.read in_filename customReport
  | _ => exitUsage

/-- `main(argv)` after `parse_args`, examples/trace_positions.py:57-69. -/
def tracePositionsMain (segy_file : String) (fs : FileSystem) : Int := fs.read segy_file tracePositions

/-- The file to which `np.save` writes: it appends `.npy` to a name that does not end so. -/
def npyName (file : String) : String :=
  if ".npy".toList.isSuffixOf file.toList then file else file ++ ".npy"

/-- `main(argv)` after `parse_args`, without `--dtype`, examples/timeslice.py:118-135, with `np.save` in line 91.  `save` is
what `np.save` makes of an array.  The null value is given as an element of the array. -/
def timesliceMain (save : List (List Scalar) → Bytes) (native : Endian) (segy_file npy_file : String) (slice_index : Int)
    (null : Scalar) (fs : FileSystem) : Int × FileSystem :=
  match fs.openRead segy_file with
  | .error err => (err.exitCode, fs)
  | .ok in_file =>
    match (extractTimeslice native slice_index null { data := fs.contents in_file, pos := 0 }).1 with
    | .error err => (err.exitCode, fs)
    | .ok timeslice =>
      match fs.openWrite (npyName npy_file) with
      | .error err => (err.exitCode, fs)
      | .ok out_file => (exitOk, fs.put out_file (save timeslice))

end Segpy
