import Verif.Model.Packer

/-!
# Specification vocabulary for header formats and packers
-/

namespace Segpy

/-- The fields of a format in declaration order, as a user sees them: one for each field name, being the
attribute of that name. -/
def Format.fields (F : Format) : List Field := F.orderedFieldNames.filterMap F.attr

/-- No byte belongs to both fields. -/
def Field.Disjoint (f g : Field) : Prop :=
  f.offset + f.value_type.size ≤ g.offset ∨ g.offset + g.value_type.size ≤ f.offset

/-- The fields are at the same place and of the same type. -/
def Field.Coincident (f g : Field) : Prop := f.offset = g.offset ∧ f.value_type = g.value_type

instance (f g : Field) : Decidable (f.Disjoint g) := by unfold Field.Disjoint; infer_instance
instance (f g : Field) : Decidable (f.Coincident g) := by unfold Field.Coincident; infer_instance

/-- The values a type admits: those of its enumeration, or those between its bounds. -/
def ValueType.Admits (t : ValueType) (v : Int) : Prop :=
  match t.enum with
  | none => t.minimum ≤ v ∧ v ≤ t.maximum
  | some values => v ∈ values

instance (t : ValueType) (v : Int) : Decidable (t.Admits v) := by
  unfold ValueType.Admits; split <;> infer_instance

/-- `n` bytes of a buffer from a position. -/
def slice (bs : Bytes) (pos : Int) (n : Nat) : Bytes := (bs.drop pos.toNat).take n

/-- The unsigned number written in the bytes, most significant byte first. -/
def bigEndianNat (bs : Bytes) : Nat := bs.foldl (fun acc b => 256 * acc + b.toNat) 0

/-- The unsigned number written in the bytes in the given byte order. -/
def bytesNat (e : Endian) (bs : Bytes) : Nat :=
  match e with
  | .big => bigEndianNat bs
  | .little => bigEndianNat bs.reverse

/-- The bytes are the integer's two's complement representation in the given byte order. -/
def Represents (e : Endian) (bs : Bytes) (v : Int) : Prop :=
  (bytesNat e bs : Int) = v % 2 ^ (8 * bs.length)

/-- The integers a SEG Y integer type can store: signed or unsigned, in its number of bytes. -/
def IntType.Storable (t : IntType) (v : Int) : Prop :=
  match t with
  | .int32 => -2147483648 ≤ v ∧ v ≤ 2147483647
  | .nnint32 => 0 ≤ v ∧ v ≤ 4294967295
  | .int16 => -32768 ≤ v ∧ v ≤ 32767
  | .nnint16 => 0 ≤ v ∧ v ≤ 65535
  | .int8 => -128 ≤ v ∧ v ≤ 127
  | .nnint8 => 0 ≤ v ∧ v ≤ 255

instance (t : IntType) (v : Int) : Decidable (t.Storable v) := by
  unfold IntType.Storable; split <;> infer_instance

/-- Are the values of the type read as signed? -/
def IntType.signed : IntType → Bool
  | .int32 | .int16 | .int8 => true
  | _ => false

/-- The integer that bytes stand for in a field of the given type: signed or unsigned according to the type. -/
def storedInt (e : Endian) (t : IntType) (bs : Bytes) : Int :=
  let n : Int := bytesNat e bs
  if t.signed ∧ 2 ^ (8 * bs.length - 1) ≤ n then n - 2 ^ (8 * bs.length) else n

/-- The fields are declared in the order of their offsets. -/
def Format.InOrder (F : Format) : Prop := F.fields.Pairwise fun f g => f.offset ≤ g.offset

instance (F : Format) : Decidable F.InOrder := by unfold Format.InOrder; infer_instance

/-- The fields are declared in the order of their offsets, or at least two of them have the same offset.  (A packer for a
format in which no two fields share an offset passes the unpacked values by position, so the order of the declarations
matters; otherwise it passes them by name.) -/
def Format.OrderSafe (F : Format) : Prop := F.InOrder ∨ ¬ (F.fields.map Field.offset).Nodup

instance (F : Format) : Decidable F.OrderSafe := by unfold Format.OrderSafe; infer_instance

/-- No field begins before the start of the header. -/
def Format.AfterStart (F : Format) : Prop := ∀ f ∈ F.fields, F.startOffset ≤ f.offset

instance (F : Format) : Decidable F.AfterStart := by unfold Format.AfterStart; infer_instance

/-- The bytes of a buffer that belong to the field. -/
def Format.fieldBytes (F : Format) (f : Field) (bs : Bytes) : Bytes :=
  slice bs (f.offset - F.startOffset) f.value_type.size

/-- No field of the format covers byte `k` of the packed header. -/
def Format.Gap (F : Format) (k : Nat) : Prop :=
  ∀ f ∈ F.fields, ¬ (f.offset - F.startOffset ≤ k ∧ (k : Int) < f.offset - F.startOffset + f.value_type.size)

/-- The length of the packed header: the declared one, or else up to the end of the last field. -/
def Format.packedLength (F : Format) (n : Nat) : Prop :=
  match F.lengthInBytes with
  | some m => (n : Int) = m
  | none => (∀ f ∈ F.fields, f.offset - F.startOffset + f.value_type.size ≤ n) ∧
      ∃ f ∈ F.fields, f.offset - F.startOffset + f.value_type.size = n

/-- Every field of the header holds a value its type admits. -/
def Header.Valid (h : Header) : Prop :=
  ∀ f ∈ h.format.fields, ∃ v, h.get f.name = .ok v ∧ f.value_type.Admits v

/-- No class overrides the layout attributes of the one it derives from. -/
def Format.OneLayout (F : Format) : Prop :=
  F.findSome? Level.start_offset = F.reverse.findSome? Level.start_offset ∧
    F.findSome? Level.length_in_bytes = F.reverse.findSome? Level.length_in_bytes

instance (F : Format) : Decidable F.OneLayout := by unfold Format.OneLayout; infer_instance

/-- The default of every field is admitted by its type, as `field()` ensures. -/
def Format.DefaultsAdmitted (F : Format) : Prop := ∀ f ∈ F.fields, f.value_type.Admits f.default

instance (F : Format) : Decidable F.DefaultsAdmitted := by unfold Format.DefaultsAdmitted; infer_instance

/-- Every value the field types admit can be stored in the bytes of the field.  It holds of every type made
with the default bounds and of every enumeration type; an explicit `min_value` or `max_value` can break it. -/
def Format.Storable (F : Format) : Prop :=
  ∀ f ∈ F.fields, ∀ v, f.value_type.Admits v → f.value_type.segy.Storable v

end Segpy
