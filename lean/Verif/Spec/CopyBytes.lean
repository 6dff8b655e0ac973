import Verif.Spec.Copy

/-! # Specification: the bytes of a copy -/

namespace Segpy.Spec

/-- Four bytes that stand for no number: all bits of the binary32 exponent are set, and some bit of the fraction. -/
def NotANumber (e : Endian) (item : Bytes) : Prop :=
  bytesNat e item / 2 ^ 23 % 2 ^ 8 = 255 ∧ bytesNat e item % 2 ^ 23 ≠ 0

/-- The bytes of sample `j` of the trace that begins at `q`. -/
def sampleItem (t : SegYType) (data : Bytes) (q j : Nat) : Bytes := (data.drop (q + 240 + j * t.size)).take t.size

/-- `copy` consists of the bytes of `data` up to the end of the last trace, except that bytes of headers which belong to
no field are zero, and that samples which are not numbers need not be the same bytes. -/
structure CopiedBytes (T B : Format) (e : Endian) (t : SegYType) (pages : Nat) (starts : List Nat) (data copy : Bytes) :
    Prop where
  /-- nothing follows the last trace -/
  length : ∀ q, starts.getLast? = some q → copy.length = q + 240 + samplesAt T e data q * t.size
  no_longer : copy.length ≤ data.length
  textual : ∀ k < 3200, copy[k]? = data[k]?
  binary : ∀ k < 400, (B.Gap k → copy[3200 + k]? = some 0) ∧ (¬ B.Gap k → copy[3200 + k]? = data[3200 + k]?)
  extended : ∀ k < 3200 * pages, copy[3600 + k]? = data[3600 + k]?
  header : ∀ q ∈ starts, ∀ k < 240, (T.Gap k → copy[q + k]? = some 0) ∧ (¬ T.Gap k → copy[q + k]? = data[q + k]?)
  samples : ∀ q ∈ starts, ∀ j < samplesAt T e data q,
    sampleItem t copy q j = sampleItem t data q j ∨
      (t = .float32 ∧ NotANumber e (sampleItem t copy q j) ∧ NotANumber e (sampleItem t data q j))

/-- A file with nothing a copy could not have: zero bytes wherever headers have no field, and nothing after the last
trace. -/
structure Tidy (T B : Format) (e : Endian) (t : SegYType) (starts : List Nat) (data : Bytes) : Prop where
  binary : ∀ k < 400, B.Gap k → data[3200 + k]? = some 0
  header : ∀ q ∈ starts, ∀ k < 240, T.Gap k → data[q + k]? = some 0
  length : ∀ q, starts.getLast? = some q → data.length = q + 240 + samplesAt T e data q * t.size

end Segpy.Spec
