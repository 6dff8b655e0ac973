import Verif.Model.Header

/-!
# Model of `segpy/packer.py`
-/

namespace Segpy

/-- `range(f.offset, f.offset + size_of(f.value_type))`, packer.py:72-73.  (These ranges are never empty, so
that comparing them with `==` compares their bounds.) -/
def Field.span (f : Field) : Interval := ⟨f.offset, f.offset + f.value_type.size⟩

/-- The loop building `offset_to_fields`, packer.py:85-98. -/
def offsetToFields (start_offset : Int) :
    List (Int × List Field) → List Field → Res (List (Int × List Field))
  | d, [] => .ok d
  | d, f :: fs =>
    let relative_offset := f.offset - start_offset
    let here := match odictGet d relative_offset with
      | .ok l => l
      | .error _ => []
    match here with
    | [] => offsetToFields start_offset (odictSet d relative_offset [f]) fs
    | g :: _ =>
      if g.value_type ≠ f.value_type then .error .typeError
      else offsetToFields start_offset (odictSet d relative_offset (here ++ [f])) fs

/-- The loop assembling the format string, packer.py:109-114: `zip_longest` of the gaps with the
representative fields, the gaps being one more (so the first case, where `len(None)` would raise, never
arises with a field).  `len(range(a, b))` is `max 0 (b - a)`. -/
def formatChunks : List Interval → List Field → PyStr
  | [], _ => []
  | g :: gs, fs =>
    List.replicate (g.stop - g.start).toNat 'x' ++
      match fs with
      | [] => formatChunks gs []
      | f :: fs => f.value_type.segy.ctype :: formatChunks gs fs

/-- `compile_struct`, packer.py:17-123. -/
def compileStruct (F : Format) (start_offset : Int) (length_in_bytes : Option Int) (endian : Endian) :
    Res (PyStr × List (List String)) :=
  if start_offset < 0 then .error .valueError
  else if (match length_in_bytes with | some n => decide (n < 1) | none => false) then .error .valueError
  else do
    let fields ← F.orderedFieldNames.mapM F.getField
    let sorted_fields := pySortedBy Field.offset fields
    match sorted_fields.getLast? with
    | none => .error .typeError
    | some last_field =>
      let ps ← (if sorted_fields.length > 1 then pairwise sorted_fields else .ok [])
      if ps.any fun p => intervalsPartiallyOverlap p.1.span p.2.span then .error .valueError
      else
        let defined_length := (last_field.offset - start_offset) + last_field.value_type.size
        let specified_length := length_in_bytes.getD defined_length
        let padding_length := specified_length - defined_length
        if padding_length < 0 then .error .valueError
        else do
          let d ← offsetToFields start_offset [] sorted_fields
          let representative := d.filterMap fun p => p.2.head?
          let field_spans := d.filterMap fun p =>
            p.2.head?.map fun f => (⟨p.1, p.1 + f.value_type.size⟩ : Interval)
          let gap_intervals ← complementaryIntervals field_spans (some 0) (some specified_length)
          return (endian.char :: formatChunks gap_intervals representative,
            d.map fun p => p.2.map Field.name)

/-- A `HeaderPacker`, packer.py:141-147; `bijective` tells which of the two subclasses it is. -/
structure HeaderPacker where
  format : Format
  structure_ : Struct
  allocations : List (List String)
  bijective : Bool
  deriving DecidableEq, Repr

/-- `make_header_packer`, packer.py:126-138. -/
def makeHeaderPacker (F : Format) (endian : Endian) : Res HeaderPacker := do
  let (cformat, allocations) ← compileStruct F F.startOffset F.lengthInBytes endian
  let structure_ ← Struct.parse cformat
  return ⟨F, structure_, allocations, allocations.all fun names => names.length = 1⟩

namespace HeaderPacker

/-- `getattr(header, names[0])`. -/
def firstValue (h : Header) (names : List String) : Res Int := do h.get (← pyGet names 0)

/-- `pack`, packer.py:173-182, with `BijectiveHeaderPacker._pack` (219-221) and
`SurjectiveHeaderPacker._pack` (230-239).  `isinstance` is "has the packer's class among its classes". -/
def pack (p : HeaderPacker) (h : Header) : Res Bytes :=
  if ¬ p.format.isPrefixOf h.format then .error .typeError
  else do
    if ¬ p.bijective then
      let vss ← p.allocations.mapM fun names => names.mapM h.get
      if vss.any fun vs => ¬ allEqual vs then .error .valueError
      else p.structure_.pack (← p.allocations.mapM (firstValue h))
    else p.structure_.pack (← p.allocations.mapM (firstValue h))

/-- `BijectiveHeaderPacker._unpack` (packer.py:223-224) and `SurjectiveHeaderPacker._unpack` (241-246). -/
def unpackValues (p : HeaderPacker) (values : List Int) : Res Header :=
  if p.bijective then Header.make p.format values []
  else
    let kwargs := odictOf ((List.zip p.allocations values).flatMap fun q => q.1.map fun n => (n, q.2))
    Header.make p.format [] kwargs

/-- `unpack`, packer.py:184-200. -/
def unpack (p : HeaderPacker) (buffer : Bytes) : Res Header :=
  match p.structure_.unpack buffer with
  | .error _ => .error .valueError
  | .ok values => p.unpackValues values

end HeaderPacker

end Segpy
