import Verif.Py.Struct
import Verif.Model.Catalog

/-!
# Model of `segpy/datatypes.py` (integer types), `segpy/field_types.py` and `segpy/header.py`

Field values are Python integers.  `value_type(v)` also accepts strings and floats by way of `int(v)`; those
conversions are not modelled.  Header fields of the two floating point SEG Y types (`'float32'`, `'ibm'`),
which the package never declares, are not modelled either.
-/

namespace Segpy

/-- The integer members of `SegYType`, datatypes.py:28-36. -/
inductive IntType where
  | int32
  | nnint32
  | int16
  | nnint16
  | int8
  | nnint8
  deriving DecidableEq, Repr

namespace IntType

/-- `SEG_Y_TYPE_TO_CTYPE`, datatypes.py:52-60. -/
def ctype : IntType → Char
  | int32 => 'i'
  | nnint32 => 'I'
  | int16 => 'h'
  | nnint16 => 'H'
  | int8 => 'b'
  | nnint8 => 'B'

/-- `CTYPE_TO_SIZE`, datatypes.py:76-84. -/
def ctypeToSize : Char → Option Nat
  | 'i' => some 4
  | 'I' => some 4
  | 'h' => some 2
  | 'H' => some 2
  | 'b' => some 1
  | 'B' => some 1
  | 'f' => some 4
  | _ => none

/-- `size_in_bytes(SEG_Y_TYPE_TO_CTYPE[seg_y_type])`, datatypes.py:99-105 as used at field_types.py:32-33. -/
def size (t : IntType) : Nat := (ctypeToSize t.ctype).getD 0

/-- `LIMITS[seg_y_type].min`, datatypes.py:109-118. -/
def limitMin : IntType → Int
  | int32 => -2147483648
  | nnint32 => 0
  | int16 => -32768
  | nnint16 => 0
  | int8 => -128
  | nnint8 => 0

/-- `LIMITS[seg_y_type].max`, datatypes.py:109-118. -/
def limitMax : IntType → Int
  | int32 => 2147483647
  | nnint32 => 2147483647
  | int16 => 32767
  | nnint16 => 32767
  | int8 => 127
  | nnint8 => 127

end IntType

/-- A field type: a class made by `IntFieldMeta` (field_types.py:5-45) or `IntEnumFieldMeta` (76-96), with its
attributes `SEG_Y_TYPE`, `MINIMUM`, `MAXIMUM` and `ENUM` (the values of the enumeration; `none` for a plain
integer type).  `SIZE` is the size of the SEG Y type: the `size` parameter of the metaclass, never used in the
package, is not modelled.  Classes are compared by `is` in the code; here they are equal when their name and
attributes are. -/
structure ValueType where
  name : String
  segy : IntType
  minimum : Int
  maximum : Int
  enum : Option (List Int)
  deriving DecidableEq, Repr

namespace ValueType

/-- `IntFieldMeta.__new__`, field_types.py:17-42. -/
def mkInt (name : String) (segy : IntType) (min_value max_value : Option Int) : ValueType :=
  ⟨name, segy, min_value.getD segy.limitMin, max_value.getD segy.limitMax, none⟩

/-- `IntEnumFieldMeta.__new__`, field_types.py:84-93. -/
def mkEnum (name : String) (enum : List Int) (segy : IntType) : Res ValueType :=
  if enum.any fun value => value < segy.limitMin || value > segy.limitMax then .error .valueError
  else .ok ⟨name, segy, segy.limitMin, segy.limitMax, some enum⟩

/-- `value_type(v)`: `IntFieldMeta.class_new`, field_types.py:9-15, or `IntEnumFieldMeta.class_new`, 80-82
(`cls.ENUM(instance)` raises `ValueError` unless the value is that of a member, which equals the integer). -/
def call (t : ValueType) (v : Int) : Res Int :=
  match t.enum with
  | none => if t.minimum ≤ v ∧ v ≤ t.maximum then .ok v else .error .valueError
  | some values => if v ∈ values then .ok v else .error .valueError

/-- `size_of(value_type)`: `SIZE`, packer.py:13-14 and field_types.py:32-39. -/
def size (t : ValueType) : Nat := t.segy.size

end ValueType

/-- A `NamedField`, header.py:200-241 (documentation left out), once named by the metaclass. -/
structure Field where
  name : String
  value_type : ValueType
  offset : Int
  default : Int
  deriving DecidableEq, Repr

/-- `field(value_type, offset, default, documentation)`, header.py:244-259 and 203-208: the default goes through
the type. -/
def mkField (name : String) (value_type : ValueType) (offset default : Int) : Res Field := do
  return ⟨name, value_type, offset, ← value_type.call default⟩

/-- One class statement of a format: its own fields in declaration order (`_ordered_field_names`,
header.py:121-122) and the layout attributes it defines itself. -/
structure Level where
  name : String
  fields : List Field
  start_offset : Option Int := none
  length_in_bytes : Option Int := none
  deriving DecidableEq, Repr

/-- A header format class, as the chain of classes from the one below `Header` (or `BaseHeader`) down to the
class itself.  Only single inheritance is modelled. -/
abbrev Format := List Level

namespace Format

/-- `ordered_field_names()`, header.py:44-56: those of the superclass, then its own. -/
def orderedFieldNames (F : Format) : List String := F.flatMap fun L => L.fields.map Field.name

/-- `getattr(cls, name)` for a field name: the definition in the most derived class that has one. -/
def attr (F : Format) (name : String) : Option Field :=
  F.reverse.findSome? fun L => L.fields.find? fun f => f.name = name

/-- `getattr(cls, name)`, raising. -/
def getField (F : Format) (name : String) : Res Field :=
  match F.attr name with
  | some f => .ok f
  | none => .error .attributeError

/-- `getattr(cls, 'START_OFFSET_IN_BYTES', 0)`, packer.py:129. -/
def startOffset (F : Format) : Int := (F.reverse.findSome? Level.start_offset).getD 0

/-- `getattr(cls, 'LENGTH_IN_BYTES', None)`, packer.py:130. -/
def lengthInBytes (F : Format) : Option Int := F.reverse.findSome? Level.length_in_bytes

/-- The attributes of a header object that are not fields, except those with two leading underscores and `_parent_format`
of sub-formats (simplification): of `BaseHeader`, header.py:42, 44-45, 58, and the layout constants of its classes. -/
def otherAttributes (F : Format) : List String :=
  ["_ordered_field_names", "ordered_field_names", "copy"] ++
    (if (F.findSome? Level.start_offset).isSome then ["START_OFFSET_IN_BYTES"] else []) ++
    (if (F.findSome? Level.length_in_bytes).isSome then ["LENGTH_IN_BYTES"] else [])

/-- `self._ordered_field_names`: the names declared by the most derived class alone (header.py:121-122). -/
def ownFieldNames (F : Format) : List String :=
  match F.getLast? with
  | none => []
  | some L => L.fields.map Field.name

/-- The loop of `SubFormatMeta.__new__` copying the requested fields, header.py:177-184. -/
def copyFields (parent : Format) : List (String × Field) → List String → Res (List (String × Field))
  | namespace_, [] => .ok namespace_
  | namespace_, name :: names =>
    match parent.attr name with
    | none => .error .attributeError
    | some nf =>
      if nf.name ≠ name then .error .assertionError
      else do
        let f ← mkField name nf.value_type nf.offset nf.default
        copyFields parent (odictSet namespace_ name f) names

/-- `SubFormatMeta.__new__`, header.py:164-193.  The layout attributes are copied by a `dict.update` in method
resolution order, most derived class first, so that the *least* derived definition wins (187-188). -/
def subFormat (name : String) (parent : Format) (parent_field_names : List String) : Res Format := do
  let ns ← copyFields parent [] parent_field_names
  return [{ name := name, fields := ns.map Prod.snd,
            start_offset := parent.findSome? Level.start_offset,
            length_in_bytes := parent.findSome? Level.length_in_bytes }]

end Format

/-- A header object: its class and the values stored for it in the descriptors' `_instance_data`
(header.py:262-302).  That the dictionaries are shared by all instances is modelled in `HeaderWorld`. -/
structure Header where
  format : Format
  data : List (String × Int)
  deriving DecidableEq, Repr

namespace Header

/-- `getattr(h, name)`: `HeaderFieldDescriptor.__get__`, header.py:278-294; a name that is not an attribute
raises `AttributeError` (67-68).  The values of attributes other than fields (methods, layout constants, attributes set
on the object) are not modelled: getting them raises here. -/
def get (h : Header) (name : String) : Res Int :=
  match h.format.attr name with
  | none => .error .attributeError
  | some f =>
    match odictGet h.data name with
    | .ok v => .ok v
    | .error _ => .ok f.default

/-- `setattr(h, name, v)`: `HeaderFieldDescriptor.__set__`, header.py:296-302; assigning to a name that is not a
field changes no field. -/
def set (h : Header) (name : String) (v : Int) : Res Header :=
  match h.format.attr name with
  | none => .ok h
  | some f => do
    let v ← f.value_type.call v
    return { h with data := odictSet h.data name v }

/-- The positional loop of `BaseHeader.__init__`, header.py:30-31. -/
def setAll (h : Header) : List (String × Int) → Res Header
  | [] => .ok h
  | (k, v) :: rest => do (← h.set k v).setAll rest

/-- The keyword loop of `BaseHeader.__init__`, header.py:33-40.  `getattr` succeeds for the names of methods and
constants as well, and then assigning changes no field. -/
def setKeywords (h : Header) : List (String × Int) → Res Header
  | [] => .ok h
  | (k, v) :: rest =>
    match h.get k with
    | .error _ => if k ∈ h.format.otherAttributes then h.setKeywords rest else .error .typeError
    | .ok _ => do (← h.set k v).setKeywords rest

/-- `format_class(*args, **kwargs)`, header.py:15-40. -/
def make (F : Format) (args : List Int) (kwargs : List (String × Int)) : Res Header := do
  let h ← setAll ⟨F, []⟩ (List.zip F.orderedFieldNames args)
  h.setKeywords kwargs

/-- The dictionary comprehension `{name: getattr(self, name) for name in names}`, header.py:59 and 78. -/
def collect (h : Header) (names : List String) : Res (List (String × Int)) := do
  let vs ← names.mapM fun n => do return (n, ← h.get n)
  return odictOf vs

/-- `h.copy(**updates)`, header.py:58-62. -/
def copy (h : Header) (updates : List (String × Int)) : Res Header := do
  let fields ← h.collect h.format.orderedFieldNames
  make h.format [] (updates.foldl (fun d p => odictSet d p.1 p.2) fields)

/-- `pickle.loads(pickle.dumps(h))` in the same version of the package: `__getstate__`, header.py:75-79, and
`__setstate__`, 81-92, on a new instance that has not been initialised. -/
def pickled (h : Header) : Res Header := do
  let state ← h.collect h.format.ownFieldNames
  setAll ⟨h.format, []⟩ state

/-- `are_equal(a, b)`, header.py:95-103. -/
def areEqual (a b : Header) : Res Bool :=
  if a.format ≠ b.format then .ok false
  else do
    let l ← a.format.orderedFieldNames.mapM fun n => do return decide ((← a.get n) = (← b.get n))
    return l.all id

end Header

end Segpy
