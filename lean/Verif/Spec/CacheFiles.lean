import Verif.Model.Cache

/-! What a history makes of the data files. -/

namespace Segpy.Spec

/-- The data files after an event of a history, given those before: storing, removing and renaming do what they say, and
nothing else has an effect on any data file. -/
def FilesAfter {Key : Type} (before after : DataPath → Option Bytes) : Event Key → Prop
  | .store p data => after p = some data ∧ ∀ q ≠ p, after q = before q
  | .remove p => after p = none ∧ ∀ q ≠ p, after q = before q
  | .rename p q =>
    (before p = none → after = before) ∧
    (before p ≠ none → after q = before p ∧ (q ≠ p → after p = none) ∧ ∀ x, x ≠ p → x ≠ q → after x = before x)
  | .dropCache _ => after = before
  | .damageCache _ => after = before
  | .openFile _ => after = before

end Segpy.Spec
