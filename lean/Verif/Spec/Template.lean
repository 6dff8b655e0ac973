import Verif.Model.Template

/-! # Vocabulary for stating the properties of standard textual headers and of the encoding guess -/

namespace Segpy.Spec

/-- Letters, digits, colon, underscore, hyphen and space. -/
def isCommonChar (c : Char) : Bool :=
  ('A' ≤ c ∧ c ≤ 'Z') ∨ ('a' ≤ c ∧ c ≤ 'z') ∨ ('0' ≤ c ∧ c ≤ '9') ∨ c ∈ [':', '_', '-', ' ']

/-- Does the byte encode a common character? -/
def isCommonByte (enc : Encoding) (b : UInt8) : Bool :=
  match decodeByte enc b with
  | .ok c => isCommonChar c
  | .error _ => false

/-- How many bytes of the string encode common characters. -/
def commonCount (enc : Encoding) (bs : Bytes) : Nat := bs.countP (isCommonByte enc)

/-- The template has the placeholder `{ name }` (with any blanks around the name) from position `a` up to, not
including, position `b`. -/
def IsPlaceholder (name : PyStr) (a b : Nat) : Prop :=
  ∃ (i j : Nat) (rest : PyStr),
    TEMPLATE.drop a = '{' :: (List.replicate i ' ' ++ name ++ List.replicate j ' ' ++ '}' :: rest) ∧
    b = a + (i + name.length + j + 2) ∧ ∀ c ∈ name, c.isAlphanum ∨ c = '_'

/-- The placeholder called `name` stands for the field called `field`. -/
def NamesField (name field : PyStr) : Prop := ∃ p ∈ TEMPLATE_FIELD_NAMES, p.1.toList = name ∧ p.2.toList = field

/-- Is `field` the name of a field of the standard header? -/
def IsField (field : PyStr) : Prop := ∃ p ∈ TEMPLATE_FIELD_NAMES, p.2.toList = field

/-- The end marker of a revision. -/
def defaultEndMarker (revision : Int) : PyStr :=
  if revision = 0 then "END EBCDIC".toList else "END TEXTUAL HEADER".toList

/-- The text given for a field: the argument if there is one, for the end marker the default of the revision, otherwise
nothing. -/
def givenValue (revision : Int) (args : List (PyStr × PyStr)) (field : PyStr) : PyStr :=
  match args.lookup field with
  | some v => v
  | none => if field = "end_marker".toList then defaultEndMarker revision else []

/-- A text cut or padded with blanks to a width. -/
def fitted (s : PyStr) (width : Nat) : PyStr := s.take width ++ List.replicate (width - s.length) ' '

end Segpy.Spec
