import Verif.Model.HeaderWorld

/-!
# Header objects that come and go

The dictionaries in which field descriptors keep the values of header objects are `WeakKeyDictionary`s
(header.py:2, 267): they do not keep the objects alive, and when an object is collected its entries go too.  The
address of a collected object can be used for a new one, and objects hash and compare by address.  This file models
that: objects with addresses, which live until the program forgets them, and dictionaries keyed by weak references.
-/

namespace Segpy

/-- A header object: `type(obj)`, `id(obj)`, and whether it has not been collected yet. -/
structure HeaderObject where
  cls : Format
  address : Nat
  alive : Bool
deriving DecidableEq

/-- The header objects made so far in the order of their creation, and the `_instance_data` dictionaries of all
descriptors (header.py:264-267) as one list of entries: descriptor, number of the object that the weak reference was made
for, value. -/
structure HeaderMemory where
  objects : List HeaderObject
  data : List ((Field × Nat) × Int)

namespace HeaderMemory

/-- No objects. -/
def empty : HeaderMemory := ⟨[], []⟩

/-- `type(obj)`. -/
def classOf (m : HeaderMemory) (i : Nat) : Format :=
  match m.objects[i]? with
  | some o => o.cls
  | none => []

/-- Whether object `i` has been made and not collected. -/
def live (m : HeaderMemory) (i : Nat) : Bool :=
  match m.objects[i]? with
  | some o => o.alive
  | none => false

/-- `weakref.ref(a) == weakref.ref(b)` for references held apart: references to living objects compare their objects,
which as headers define no `__eq__` (header.py:95-99) is by address; a dead reference equals only itself. -/
def refEq (m : HeaderMemory) (a b : Nat) : Bool :=
  match m.objects[a]?, m.objects[b]? with
  | some x, some y => x.alive && y.alive && x.address == y.address
  | _, _ => false

/-- `self._instance_data[instance]` (header.py:292-294), if present. -/
def find (m : HeaderMemory) (f : Field) (i : Nat) : Option Int :=
  (m.data.find? fun e => e.1.1 = f && m.refEq e.1.2 i).map Prod.snd

/-- `self._instance_data[instance] = v` (header.py:299): an entry with an equal key gets the value, else there is a new
entry. -/
def storeIn (m : HeaderMemory) (f : Field) (i : Nat) (v : Int) :
    List ((Field × Nat) × Int) → List ((Field × Nat) × Int)
  | [] => [((f, i), v)]
  | e :: rest => if e.1.1 = f && m.refEq e.1.2 i then (e.1, v) :: rest else e :: m.storeIn f i v rest

/-- `getattr(obj, name)`, header.py:278-294, 67-68. -/
def get (m : HeaderMemory) (i : Nat) (name : String) : Res Int :=
  match (m.classOf i).attr name with
  | none => .error .attributeError
  | some f =>
    match m.find f i with
    | some v => .ok v
    | none => .ok f.default

/-- `setattr(obj, name, v)`, header.py:296-302. -/
def set (m : HeaderMemory) (i : Nat) (name : String) (v : Int) : HeaderMemory × Res Unit :=
  match (m.classOf i).attr name with
  | none => (m, .ok ())
  | some f =>
    match f.value_type.call v with
    | .error e => (m, .error e)
    | .ok v => ({ m with data := m.storeIn f i v m.data }, .ok ())

/-- header.py:30-31. -/
def setAll (m : HeaderMemory) (i : Nat) : List (String × Int) → HeaderMemory × Res Unit
  | [] => (m, .ok ())
  | (k, v) :: rest =>
    match m.set i k v with
    | (m, .error e) => (m, .error e)
    | (m, .ok ()) => m.setAll i rest

/-- header.py:33-40. -/
def setKeywords (m : HeaderMemory) (i : Nat) : List (String × Int) → HeaderMemory × Res Unit
  | [] => (m, .ok ())
  | (k, v) :: rest =>
    match m.get i k with
    | .error _ => if k ∈ (m.classOf i).otherAttributes then m.setKeywords i rest else (m, .error .typeError)
    | .ok _ =>
      match m.set i k v with
      | (m, .error e) => (m, .error e)
      | (m, .ok ()) => m.setKeywords i rest

/-- `format_class(*args, **kwargs)`, header.py:15-40, for which the interpreter has found room at `address`. -/
def make (m : HeaderMemory) (F : Format) (args : List Int) (kwargs : List (String × Int)) (address : Nat) :
    HeaderMemory × Res Unit :=
  let i := m.objects.length
  match setAll { m with objects := m.objects ++ [⟨F, address, true⟩] } i (List.zip F.orderedFieldNames args) with
  | (m, .error e) => (m, .error e)
  | (m, .ok ()) => m.setKeywords i kwargs

/-- header.py:59. -/
def collect (m : HeaderMemory) (i : Nat) (names : List String) : Res (List (String × Int)) := do
  let vs ← names.mapM fun n => do return (n, ← m.get i n)
  return odictOf vs

/-- `obj.copy(**updates)`, header.py:58-62. -/
def copy (m : HeaderMemory) (i : Nat) (updates : List (String × Int)) (address : Nat) : HeaderMemory × Res Unit :=
  match m.collect i (m.classOf i).orderedFieldNames with
  | .error e => (m, .error e)
  | .ok fields => m.make (m.classOf i) [] (updates.foldl (fun d p => odictSet d p.1 p.2) fields) address

/-- The last reference to object `i` goes away: the object is collected, and the callback of each weak reference to it
removes the entry that it is the key of (`WeakKeyDictionary.__init__`). -/
def forget (m : HeaderMemory) (i : Nat) : HeaderMemory :=
  ⟨m.objects.modify i fun o => { o with alive := false }, m.data.filter fun e => e.1.2 ≠ i⟩

/-- What a program can do with header objects. -/
inductive Op where
  | make (F : Format) (args : List Int) (kwargs : List (String × Int)) (address : Nat)
  | assign (i : Nat) (name : String) (v : Int)
  | copy (i : Nat) (updates : List (String × Int)) (address : Nat)
  | forget (i : Nat)

/-- One operation: the state after it, and whether it raised. -/
def step (m : HeaderMemory) : Op → HeaderMemory × Res Unit
  | .make F args kwargs address => m.make F args kwargs address
  | .assign i name v => m.set i name v
  | .copy i updates address => m.copy i updates address
  | .forget i => (m.forget i, .ok ())

/-- A history of operations: the state after it. -/
def run (m : HeaderMemory) (ops : List Op) : HeaderMemory := ops.foldl (fun m op => (m.step op).1) m

end HeaderMemory

end Segpy
