import Verif.Model.Scripts
import Verif.Spec.Copy

/-! # What is expected of the command lines of the example scripts -/

namespace Segpy.Spec

open Segpy

/-- The exit status for a file that cannot be opened: 66 if it is not there or is a directory, 77 if permission is
missing, and 70 otherwise. -/
def statusOf : OpenError → Int
  | .fileNotFound => 66
  | .isADirectory => 66
  | .permission => 77
  | .other => 70

/-- A script that reads the file called `a` and writes the one called `b` has ended with a status, and the files of the
computer are as given.  If one of the two could not be opened, the status says why, and nothing has changed.  Otherwise the
status is 0, 66 or 70, and no file other than the output has changed. -/
structure Ended (fs : FileSystem) (a b : String) (status : Int) (fs' : FileSystem) : Prop where
  no_input : ∀ err, fs.openRead a = .error err → status = statusOf err ∧ fs' = fs
  no_output : ∀ i err, fs.openRead a = .ok i → fs.openWrite b = .error err → status = statusOf err ∧ fs' = fs
  ended : ∀ i o, fs.openRead a = .ok i → fs.openWrite b = .ok o → status ∈ ([0, 66, 70] : List Int) ∧
    fs'.openRead = fs.openRead ∧ fs'.openWrite = fs.openWrite ∧ ∀ f, f ≠ o → fs'.contents f = fs.contents f

/-- A file positioned at its start. -/
def atStart (data : Bytes) : FileH := { data := data, pos := 0 }

end Segpy.Spec
