import Verif.Spec.Reader
import Verif.Model.Numpy

/-! # Specification: what is expected of the numpy extension

From the model only its data types are used: selections, slices and their meaning for Python lists, and array elements. -/

namespace Segpy.Spec

/-- `chosen` has the numbers in `wanted`, in increasing order, each once. -/
def Arranges (wanted chosen : List Int) : Prop :=
  chosen.Pairwise (· < ·) ∧ ∀ x, x ∈ chosen ↔ x ∈ wanted

/-- The function succeeds on the given indexes, and takes them one-to-one to the positions of a grid. -/
def BijectsOnto (indexes : List Int) (f : Int → Option (Int × Int)) (rows cols : Nat) : Prop :=
  (∀ t ∈ indexes, ∃ p, f t = some p ∧ (0 ≤ p.1 ∧ p.1 < rows) ∧ (0 ≤ p.2 ∧ p.2 < cols)) ∧
  ∀ i j : Int, 0 ≤ i → i < rows → 0 ≤ j → j < cols → ∃! t, t ∈ indexes ∧ f t = some (i, j)

/-- The numbers are equally spaced by more than one, and there are at least two of them. -/
def Strided (l : List Int) : Prop := 2 ≤ l.length ∧ ∃ d, 2 ≤ d ∧ l.IsChain fun a b => b = a + d

/-- `chosen` is what the selection means for the numbers that are available, in increasing order: all of them, a slice
of them, or those listed, in increasing order without repetitions.  Selections that the code refuses although they are
meaningful are left out: no numbers at all, and a single one from a strided sequence.  The items of a `SortedFrozenSet`
are, as its constructor ensures, in increasing order. -/
def Chooses (available : List Int) : Selection → List Int → Prop
  | .all, chosen => chosen = available
  | .slice s, chosen => 0 < s.step.getD 1 ∧ pySliceList available s = .ok chosen
  | .items it, chosen => chosen ≠ [] ∧ Arranges it.toList chosen ∧ (∀ x ∈ chosen, x ∈ available) ∧
      (chosen.length = 1 → ¬ Strided available) ∧ ∀ s, it = .sfs s → s.items.Pairwise (· < ·)

/-- The array element that the bytes of a sample stand for.  IBM floats are rounded to binary32. -/
def ElementOf (e : Endian) (t : SegYType) (item : Bytes) (x : Scalar) : Prop :=
  match t with
  | .int t => x = .int (storedInt e t item)
  | .float32 => ∃ f, StandsFor e .float32 item (.float f) ∧ x = .float f
  | .ibm => ∃ a b c d, item = [a, b, c, d] ∧
      if |ibmValue a b c d| < (2 : ℚ) ^ (128 : Int) - 2 ^ (103 : Int) then
        ∃ g, x = .float g ∧ StoredAs32 (.fin (ibmValue a b c d)) g
      else x = .float (.inf (decide (ibmValue a b c d < 0)))

/-- The bytes of sample `k` of the trace that begins at `p`. -/
def storedSample (t : SegYType) (data : Bytes) (p k : Nat) : Bytes := (data.drop (p + 240 + k * t.size)).take t.size

/-- The pair of line numbers of the trace that begins at `p`. -/
def linesAt (T : Format) (e : Endian) (data : Bytes) (p : Nat) : Int × Int :=
  (fieldAt T e data p "inline_number", fieldAt T e data p "crossline_number")

/-- The trace that begins at `p` has a number of samples, and all of them are in the file. -/
def Whole (T : Format) (e : Endian) (data : Bytes) (t : SegYType) (p : Nat) : Prop :=
  ∃ n : Nat, fieldAt T e data p "num_samples" = n ∧ p + 240 + n * t.size ≤ data.length

/-- The greatest number of samples of a trace. -/
def MostSamples (T : Format) (e : Endian) (data : Bytes) (starts : List Nat) (m : Nat) : Prop :=
  (∃ p ∈ starts, fieldAt T e data p "num_samples" = m) ∧ ∀ p ∈ starts, fieldAt T e data p "num_samples" ≤ m

/-- The numbers of `m` samples. -/
def sampleNumbers (m : Nat) : List Int := (List.range m).map fun k : Nat => (k : Int)

/-- `x` is what belongs into an array at the place of a pair of line numbers and a sample number: the sample of the trace
with these line numbers, if there is one, and otherwise the null value, or a masked element. -/
def CellOf (T : Format) (e : Endian) (data : Bytes) (t : SegYType) (starts : List Nat) (null : Option Scalar)
    (lines : Int × Int) (sample : Int) (x : Option Scalar) : Prop :=
  (∀ p ∈ starts, linesAt T e data p = lines → ∃ y, x = some y ∧ ElementOf e t (storedSample t data p sample.toNat) y) ∧
  ((∀ p ∈ starts, linesAt T e data p ≠ lines) → x = null)

/-- The table has the given row and column labels: at each place is something that belongs there. -/
def Tabulates {α β γ : Type} (rows : List α) (cols : List β) (belongs : α → β → γ → Prop) (table : List (List γ)) : Prop :=
  List.Forall₂ (fun a row => List.Forall₂ (fun b x => belongs a b x) cols row) rows table

/-- The argument names the field: it is the name, or an object with that name. -/
def Names : FieldArg → String → Prop
  | .str m, n => m = n
  | .named m, n => m = n
  | .other, _ => False

/-- Field names that can be extracted together: there is at least one, no two are the same, none begins with an
underscore, and they are fields of the format, of signed integer type, in the order of their offsets. -/
structure Extractable (T : Format) (names : List String) : Prop where
  some_name : names ≠ []
  distinct : names.Nodup
  no_underscore : ∀ n ∈ names, n.startsWith "_" = false
  fields : ∀ n ∈ names, ∃ f ∈ T.fields, f.name = n ∧ f.value_type.segy ∈ [.int32, .int16, .int8]
  ordered : names.Pairwise fun a b => ∀ f ∈ T.fields, ∀ g ∈ T.fields, f.name = a → g.name = b → f.offset ≤ g.offset

/-- The types of the named fields admit what the header at a position holds in them. -/
def HeldAt (T : Format) (e : Endian) (data : Bytes) (names : List String) (p : Nat) : Prop :=
  ∀ f ∈ T.fields, f.name ∈ names → f.value_type.Admits (fieldAt T e data p f.name)

/-- The elements of the arrays of the named fields at the place of a pair of line numbers. -/
def FieldsOf (T : Format) (e : Endian) (data : Bytes) (starts : List Nat) (null : Option Scalar) (names : List String)
    (lines : Int × Int) (xs : List (Option Scalar)) : Prop :=
  (∀ p ∈ starts, linesAt T e data p = lines → xs = names.map fun n => some (.int (fieldAt T e data p n))) ∧
  ((∀ p ∈ starts, linesAt T e data p ≠ lines) → xs = names.map fun _ => null)

end Segpy.Spec
