import Verif.Spec.Opens
import Verif.Spec.Scripts
import Verif.Spec.Cli
import Verif.Spec.Examples
import Verif.Spec.Numpy
import Verif.Model.CustomFormats

/-! # What is expected of the command lines of the scripts that only read SEG Y files -/

namespace Segpy.Spec

open Segpy

/-- A big endian file, and its traces: its reel headers are sound, its revision is known, its
samples have type `t`, and traces begin at these places. -/
structure Intact (enc : Encoding) (B : Format) (data : Bytes) (t : SegYType) (starts : List Nat) : Prop where
  reel : ∃ pages : Nat, SoundReel enc B .big data t pages ∧
    Traces fmtTraceHeaderRev1 .big data t.size (3600 + 3200 * pages) starts
  revision : KnownRevision B .big data
  some_trace : starts ≠ []

/-- The status with which a script ends that reads the file called `a`: why it cannot be opened, 0 if its contents are as
the script needs them, and else 70. -/
structure Exits (fs : FileSystem) (a : String) (good : Bytes → Prop) (status : Int) : Prop where
  no_input : ∀ err, fs.openRead a = .error err → status = statusOf err
  succeeds : ∀ i, fs.openRead a = .ok i → good (fs.contents i) → status = 0
  fails : ∀ i, fs.openRead a = .ok i → ¬ good (fs.contents i) → status = 70

/-- The file in which an array is saved under a name: the name, with `.npy` appended unless it ends so. -/
def SavedAs (name file : String) : Prop :=
  (file = name ∧ ∃ p, name = p ++ ".npy") ∨ (file = name ++ ".npy" ∧ ¬ ∃ p, name = p ++ ".npy")

end Segpy.Spec
