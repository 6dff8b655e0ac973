import Verif.Model.Copy

/-! # Writing selected traces of a dataset -/

namespace Segpy

/-- A `DelegatingDataset` (dataset.py:100-149) whose `trace_indexes()` and `num_traces()` are overridden to give the
numbers in `l` and how many there are. -/
def Dataset.select (d : Dataset) (l : List Int) : Dataset :=
  { d with num_traces := l.length, trace_indexes := l }

end Segpy
