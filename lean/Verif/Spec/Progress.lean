import Verif.Model.Progress

/-! What a progress callback that may raise does when it is called again and again. -/

namespace Segpy

/-- What a callback first raises, if anything, when it has been called for the numbers `past` and is then called for the
numbers `reports` one after the other. -/
def Callback.firstRaise (cb : Callback) (past : List ℚ) : List ℚ → Option Err
  | [] => none
  | x :: rest =>
    match cb.raises (past ++ [x]) with
    | some err => some err
    | none => cb.firstRaise (past ++ [x]) rest

/-- The value, unless there is an exception. -/
def orRaise {α : Type} (err : Option Err) (a : α) : Res α :=
  match err with
  | some err => .error err
  | none => .ok a

end Segpy
