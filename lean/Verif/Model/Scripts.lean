import Verif.Model.Transform
import Verif.Model.TimedReader
import Verif.Model.Cli

/-!
# Model of the command lines of the example scripts

`main` of `examples/loadsave.py`, `convert_sample_type.py`, `scale_samples.py`, `scale_source_coords.py` and
`timed_reader.py`.  What they print is not modelled.  The arguments are those after the name of the script.
-/

namespace Segpy

/-- The ways in which `open` fails that the scripts distinguish. -/
inductive OpenError where
  | fileNotFound
  | isADirectory
  | permission
  | other
  deriving DecidableEq

/-- The files of a computer.  Different names may lead to the same file: links, `./a` and `a`.  `openRead` and `openWrite`
say which file a name leads to when it is opened for reading or writing (a new one, if it is created), or why it cannot
be opened.  A file that is not there yet has no contents. -/
structure FileSystem where
  openRead : String → Except OpenError Nat
  openWrite : String → Except OpenError Nat
  contents : Nat → Bytes

/-- The file system after a file has been given other contents. -/
def FileSystem.put (fs : FileSystem) (file : Nat) (data : Bytes) : FileSystem :=
  { fs with contents := fun i => if i = file then data else fs.contents i }

/-- The codes of `sysexits.h` that Python has as `os.EX_...`. -/
def exitOk : Int := 0
def exitUsage : Int := 64
def exitNoInput : Int := 66
def exitSoftware : Int := 70
def exitNoPerm : Int := 77

/-- `except (FileNotFoundError, IsADirectoryError)`, `except PermissionError` and `except Exception`, for exceptions of
`open`; examples/loadsave.py:58-66 and likewise in the other scripts. -/
def OpenError.exitCode : OpenError → Int
  | .fileNotFound => exitNoInput
  | .isADirectory => exitNoInput
  | .permission => exitNoPerm
  | .other => exitSoftware

/-- The same for exceptions of the calls that follow. -/
def Err.exitCode : Err → Int
  | .fileNotFoundError => exitNoInput
  | _ => exitSoftware

/-- The files are opened, the output file is emptied by that, `work` reads the first and writes the second, both are
closed, and exceptions are turned into exit codes: the common part of the scripts, examples/loadsave.py:37-42, 56-67.

If both names lead to the same file, `work` reads a file that is empty.  That `work` gets two files even then is a
simplification, but one that makes no difference: `create_reader` raises, so that nothing is written
(`C94_same_file_fails`). -/
def FileSystem.run (fs : FileSystem) (in_filename out_filename : String) (work : FileH → Res (List ℚ) × FileH) :
    Int × FileSystem :=
  match fs.openRead in_filename with
  | .error err => (err.exitCode, fs)
  | .ok in_file =>
    match fs.openWrite out_filename with
    | .error err => (err.exitCode, fs)
    | .ok out_file =>
      let fs := fs.put out_file []
      match work { data := fs.contents in_file, pos := 0 } with
      | (.error err, written) => (err.exitCode, fs.put out_file written.data)
      | (.ok _, written) => (exitOk, fs.put out_file written.data)

/-- `load_save`, examples/loadsave.py:40-41: from one open file to another. -/
def loadSaveFile (native : Endian) (s : FileH) : Res (List ℚ) × FileH :=
  let out : FileH := { data := [], pos := 0 }
  match createReader none fmtBinaryReelHeader fmtTraceHeaderRev1 .big none s with
  | (.error err, _) => (.error err, out)
  | (.ok (r, _), _) => writeSegy (r.asDataset native s) none fmtTraceHeaderRev1 .big out

/-- `main(argv)`, examples/loadsave.py:45-67. -/
def loadSaveMain (native : Endian) (argv : List String) (fs : FileSystem) : Int × FileSystem :=
  match argv with
  | in_filename :: out_filename :: _ => fs.run in_filename out_filename (loadSaveFile native)
  | _ => (exitUsage, fs)

/-- `data_sample_format in SEG_Y_TYPE_DESCRIPTION`, examples/convert_sample_type.py:79: the type of which this is the value,
if there is one. -/
def segYTypeOfValue (value : String) : Option SegYType :=
  [SegYType.ibm, .int .int32, .int .nnint32, .int .int16, .int .nnint16, .float32, .int .int8, .int .nnint8].find?
    fun t => t.value = value

/-- `main(argv)`, examples/convert_sample_type.py:67-100. -/
def convertMain (native : Endian) (argv : List String) (fs : FileSystem) : Int × FileSystem :=
  match argv with
  | data_sample_format :: in_filename :: out_filename :: _ =>
    match segYTypeOfValue data_sample_format with
    | none => (exitUsage, fs)
    | some t =>
      if out_filename = in_filename then (exitUsage, fs)
      else fs.run in_filename out_filename (convertFile native t)
  | _ => (exitUsage, fs)

/-- `main(argv)`, examples/scale_samples.py:58-81; `float` is Python's conversion of strings to floats, which raises
`ValueError` for some (`none`). -/
def scaleSamplesMain (float : String → Option PyFloat) (native : Endian) (argv : List String) (fs : FileSystem) :
    Int × FileSystem :=
  match argv with
  | factor :: rest =>
    match float factor with
    | none => (exitUsage, fs)
    | some scale_factor =>
      match rest with
      | in_filename :: out_filename :: _ => fs.run in_filename out_filename (scaleSamplesFile native scale_factor)
      | _ => (exitUsage, fs)
  | _ => (exitUsage, fs)

/-- `main(argv)`, examples/scale_source_coords.py:66-89. -/
def scaleCoordinatesMain (float : String → Option PyFloat) (native : Endian) (argv : List String) (fs : FileSystem) :
    Int × FileSystem :=
  match argv with
  | factor :: rest =>
    match float factor with
    | none => (exitUsage, fs)
    | some scale_factor =>
      match rest with
      | in_filename :: out_filename :: _ => fs.run in_filename out_filename (scaleCoordinatesFile native scale_factor)
      | _ => (exitUsage, fs)
  | _ => (exitUsage, fs)

/-- `main(argv)`, examples/timed_reader.py:45-66: it writes no file. -/
def timedReaderMain (native : Endian) (argv : List String) (fs : FileSystem) : Int :=
  match argv with
  | in_filename :: _ =>
    match fs.openRead in_filename with
    | .error err => err.exitCode
    | .ok in_file =>
      match (readTraces native { data := fs.contents in_file, pos := 0 }).1 with
      | .error err => err.exitCode
      | .ok () => exitOk
  | _ => exitUsage

end Segpy
