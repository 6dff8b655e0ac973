import Verif.Model.Samples
import Verif.Lemmas.Float32
import Verif.Lemmas.Struct
import Verif.Lemmas.Text
import Verif.Lemmas.File

/-! # Lemmas about sample packing -/

namespace Segpy

/-- Cutting a concatenation of items of one size gives the items. -/
theorem itemsOf_flatten (size : Nat) (items : List Bytes) (h : ∀ i ∈ items, i.length = size) (rest : Bytes) :
    itemsOf size items.length (items.flatten ++ rest) = items := by
  induction items with
  | nil => rfl
  | cons i is ih =>
    have hi := h i List.mem_cons_self
    rw [List.length_cons, itemsOf, List.flatten_cons, List.append_assoc, ← hi, List.take_left, List.drop_left, hi,
      ih (fun j hj => h j (List.mem_cons_of_mem _ hj))]

theorem flatten_length_const (size : Nat) (items : List Bytes) (h : ∀ i ∈ items, i.length = size) :
    items.flatten.length = items.length * size := by
  induction items with
  | nil => simp
  | cons i is ih =>
    rw [List.flatten_cons, List.length_append, ih (fun j hj => h j (List.mem_cons_of_mem _ hj)),
      h i List.mem_cons_self, List.length_cons]
    ring

theorem itemsOf_length (size n : Nat) (buf : Bytes) : (itemsOf size n buf).length = n := by
  induction n generalizing buf with
  | zero => rfl
  | succ n ih => rw [itemsOf, List.length_cons, ih]

theorem itemsOf_item (size n : Nat) (buf : Bytes) (h : n * size ≤ buf.length) :
    ∀ i ∈ itemsOf size n buf, i.length = size := by
  induction n generalizing buf with
  | zero => intro i hi; cases hi
  | succ n ih =>
    intro i hi
    rw [Nat.succ_mul] at h
    rcases List.mem_cons.mp hi with rfl | hi
    · rw [List.length_take]; omega
    · exact ih (buf.drop size) (by rw [List.length_drop]; omega) i hi

theorem itemsOf_join (size n : Nat) (buf : Bytes) (h : buf.length = n * size) : (itemsOf size n buf).flatten = buf := by
  induction n generalizing buf with
  | zero => rw [Nat.zero_mul, List.length_eq_zero_iff] at h; subst h; rfl
  | succ n ih =>
    rw [Nat.succ_mul] at h
    rw [itemsOf, List.flatten_cons, ih _ (by rw [List.length_drop]; omega), List.take_append_drop]

theorem mapM_eq_flatten {α : Type} {f : α → Res Bytes} {l : List α} {buf : Bytes}
    (h : (do let items ← l.mapM f; return items.flatten : Res Bytes) = .ok buf) :
    ∃ items, l.mapM f = .ok items ∧ buf = items.flatten := by
  cases hm : l.mapM f with
  | error e => rw [hm] at h; cases h
  | ok items => rw [hm] at h; cases h; exact ⟨items, rfl, rfl⟩

/-- Byte order handled by swapping. -/
theorem swap_order (native e : Endian) (item : Bytes) :
    native.order (if e ≠ native then item.reverse else item) = e.order item := by
  cases native <;> cases e <;> simp [Endian.order]

theorem decodeInt_swap (native e : Endian) (s : Bool) (item : Bytes) :
    decodeInt native s (if e ≠ native then item.reverse else item) = decodeInt e s item := by
  have hl : (if e ≠ native then item.reverse else item).length = item.length := by split <;> simp
  unfold decodeInt
  rw [swap_order, hl]

theorem map_swap {α : Type} (native e : Endian) (items : List Bytes) (f : Bytes → α) :
    (if e ≠ native then items.map List.reverse else items).map f =
      items.map fun i => f (if e ≠ native then i.reverse else i) := by
  split
  · rw [List.map_map]; rfl
  · rfl

/-- Reading back items with a suitable decoder. -/
theorem unpackValues_flatten (native e : Endian) (t : SegYType) (items : List Bytes) (ht : 1 ≤ t.size)
    (h : ∀ i ∈ items, i.length = t.size) :
    unpackValues native items.flatten t e =
      .ok (items.map fun i => arrayItem native t (if e ≠ native then i.reverse else i)) := by
  unfold unpackValues
  rw [flatten_length_const _ _ h, if_neg (by simp), Nat.mul_div_cancel _ (by omega)]
  have := itemsOf_flatten t.size items h []
  rw [List.append_nil] at this
  simp only [this]
  rw [map_swap]

end Segpy
