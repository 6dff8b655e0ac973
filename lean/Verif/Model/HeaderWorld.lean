import Verif.Model.Header

/-!
# Header objects that share their descriptors' dictionaries

A header object holds no values itself: each field descriptor of its class has one dictionary, shared by all
objects of the class and of its subclasses, from objects to values (header.py:262-302).  This file models that
store, with several objects of several classes, and the operations on it.  `Header` (Model/Header.lean) is one
object with its own values; that the two agree is a theorem (C31).
-/

namespace Segpy

/-- The header objects made so far, numbered in the order of their creation, with their classes, and the
`_instance_data` dictionaries of all descriptors as one map from descriptor and object to value
(header.py:264-267).  Objects hash and compare by identity.  Objects are never forgotten, so that the weak
references do not matter. -/
structure HeaderWorld where
  classes : List Format
  data : List ((Field × Nat) × Int)

namespace HeaderWorld

/-- No objects. -/
def empty : HeaderWorld := ⟨[], []⟩

/-- `type(obj)`; a number that is no object's gives the empty format. -/
def classOf (w : HeaderWorld) (i : Nat) : Format := (w.classes[i]?).getD []

/-- `getattr(obj, name)`: `HeaderFieldDescriptor.__get__`, header.py:278-294, and `__getattr__`, 67-68. -/
def get (w : HeaderWorld) (i : Nat) (name : String) : Res Int :=
  match (w.classOf i).attr name with
  | none => .error .attributeError
  | some f =>
    match odictGet w.data (f, i) with
    | .ok v => .ok v
    | .error _ => .ok f.default

/-- `setattr(obj, name, v)`: `HeaderFieldDescriptor.__set__`, header.py:296-302.  The state after, and whether it
raised. -/
def set (w : HeaderWorld) (i : Nat) (name : String) (v : Int) : HeaderWorld × Res Unit :=
  match (w.classOf i).attr name with
  | none => (w, .ok ())
  | some f =>
    match f.value_type.call v with
    | .error e => (w, .error e)
    | .ok v => ({ w with data := odictSet w.data (f, i) v }, .ok ())

/-- header.py:30-31: assignments up to the first that raises. -/
def setAll (w : HeaderWorld) (i : Nat) : List (String × Int) → HeaderWorld × Res Unit
  | [] => (w, .ok ())
  | (k, v) :: rest =>
    match w.set i k v with
    | (w, .error e) => (w, .error e)
    | (w, .ok ()) => w.setAll i rest

/-- header.py:33-40. -/
def setKeywords (w : HeaderWorld) (i : Nat) : List (String × Int) → HeaderWorld × Res Unit
  | [] => (w, .ok ())
  | (k, v) :: rest =>
    match w.get i k with
    | .error _ => if k ∈ (w.classOf i).otherAttributes then w.setKeywords i rest else (w, .error .typeError)
    | .ok _ =>
      match w.set i k v with
      | (w, .error e) => (w, .error e)
      | (w, .ok ()) => w.setKeywords i rest

/-- `format_class(*args, **kwargs)`, header.py:15-40: a new object, which is numbered even if its `__init__`
raises (a traceback or a subclass may still hold it). -/
def make (w : HeaderWorld) (F : Format) (args : List Int) (kwargs : List (String × Int)) :
    HeaderWorld × Res Unit :=
  let i := w.classes.length
  match setAll { w with classes := w.classes ++ [F] } i (List.zip F.orderedFieldNames args) with
  | (w, .error e) => (w, .error e)
  | (w, .ok ()) => w.setKeywords i kwargs

/-- `{name: getattr(self, name) for name in names}`, header.py:59. -/
def collect (w : HeaderWorld) (i : Nat) (names : List String) : Res (List (String × Int)) := do
  let vs ← names.mapM fun n => do return (n, ← w.get i n)
  return odictOf vs

/-- `obj.copy(**updates)`, header.py:58-62. -/
def copy (w : HeaderWorld) (i : Nat) (updates : List (String × Int)) : HeaderWorld × Res Unit :=
  match w.collect i (w.classOf i).orderedFieldNames with
  | .error e => (w, .error e)
  | .ok fields => w.make (w.classOf i) [] (updates.foldl (fun d p => odictSet d p.1 p.2) fields)

/-- What a program can do with header objects. -/
inductive Op where
  | make (F : Format) (args : List Int) (kwargs : List (String × Int))
  | assign (i : Nat) (name : String) (v : Int)
  | copy (i : Nat) (updates : List (String × Int))

/-- One operation: the state after it, and whether it raised.  An operation on an object that does not exist is
no operation. -/
def step (w : HeaderWorld) : Op → HeaderWorld × Res Unit
  | .make F args kwargs => w.make F args kwargs
  | .assign i name v => if i < w.classes.length then w.set i name v else (w, .ok ())
  | .copy i updates => if i < w.classes.length then w.copy i updates else (w, .ok ())

/-- A history of operations: the state after it. -/
def run (w : HeaderWorld) (ops : List Op) : HeaderWorld := ops.foldl (fun w op => (w.step op).1) w

end HeaderWorld

end Segpy
