import Verif.Model.IbmFloat
import Verif.Model.Samples

/-!
# Model of `IBMFloat` objects: constructing, pickling and copying them

`segpy/ibm_float.py:136-148`.  The class has `__slots__` and a `__new__` with a required argument, and defines none of
`__reduce__`, `__getstate__`, `__getnewargs__` and `__copy__`; so `pickle` and `copy` do what `object.__reduce_ex__` says.
-/

namespace Segpy

/-- What may be given to `bytes(b)`: a sequence of ints (`bytes`, a tuple, a list), an int, an `IBMFloat`, or something
else that is neither iterable nor an integer, like a float. -/
inductive BytesArg where
  | ints (items : List Int)
  | int (n : Int)
  | ibm (x : IBMFloat)
  | other

/-- `bytes(b)`: a sequence of ints must be of bytes; an int is the number of zero bytes (that it may be too large for the
memory is left out); an `IBMFloat` has `__bytes__`, ibm_float.py:227-228. -/
def BytesArg.toBytes : BytesArg → Res Bytes
  | .ints items => items.mapM fun v => if 0 ≤ v ∧ v < 256 then .ok (UInt8.ofNat v.toNat) else .error .valueError
  | .int n => if n < 0 then .error .valueError else .ok (List.replicate n.toNat 0)
  | .ibm x => .ok x.toBytes
  | .other => .error .typeError

namespace IBMFloat

/-- `IBMFloat(b)`, ibm_float.py:140-148. -/
def new (b : BytesArg) : Res IBMFloat := do fromBytes (← b.toBytes)

/-- A call of `IBMFloat.__new__` with these arguments. -/
def call : List BytesArg → Res IBMFloat
  | [b] => new b
  | _ => .error .typeError

/-- `x.__reduce_ex__(protocol)`, inherited from `object`: before protocol 2 objects with `__slots__` are refused; later the
arguments for `__new__`, of which there are none without `__getnewargs__`, and the values of the slots. -/
def reduceEx (x : IBMFloat) (protocol : Nat) : Res (List BytesArg × Bytes) :=
  if protocol < 2 then .error .typeError else .ok ([], x.toBytes)

/-- `pickle.loads`, or `copy`, of what `reduce` returned: the object is created by `__new__`, then its slot is set. -/
def rebuild (reduced : List BytesArg × Bytes) : Res IBMFloat := do
  let _ ← call reduced.1
  fromBytes reduced.2

/-- `pickle.loads(pickle.dumps(x, protocol))`; with protocol 4 also `copy.copy(x)` and `copy.deepcopy(x)`. -/
def pickled (x : IBMFloat) (protocol : Nat) : Res IBMFloat := do rebuild (← x.reduceEx protocol)

end IBMFloat

/-- Pickling and loading one sample: ints and floats stay what they are. -/
def PyNum.pickled (protocol : Nat) : PyNum → Res PyNum
  | .ibm x => do return .ibm (← x.pickled protocol)
  | v => .ok v

/-- The same for the samples of a trace: an `array`, or a list of `IBMFloat`s (`copy.copy` of a list does not copy its
items, but `copy.deepcopy` does). -/
def pickledSamples (protocol : Nat) (samples : List PyNum) : Res (List PyNum) := samples.mapM (PyNum.pickled protocol)

end Segpy
