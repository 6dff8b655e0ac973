import Verif.Spec.Reader
import Verif.Model.Reader

/-! # A file that grows while it is read -/

namespace Segpy.Spec

open Segpy

/-- Calls on a reader, before each of which another program has appended bytes to the file. -/
def growingCalls (native : Endian) : List (Bytes × Call) → Reader → FileH → Reader × FileH
  | [], r, s => (r, s)
  | (extra, c) :: rest, r, s =>
    let q := r.call native c { s with data := s.data ++ extra }
    growingCalls native rest q.2.1 q.2.2

end Segpy.Spec
