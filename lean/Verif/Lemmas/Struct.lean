import Verif.Py.Struct
import Mathlib.Tactic.Ring
import Mathlib.Tactic.Linarith
import Mathlib.Data.List.Forall2

/-!
# Lemmas about integer encodings and `struct`
-/

namespace Segpy

theorem leBytes_length (n v : Nat) : (leBytes n v).length = n := by
  induction n generalizing v with
  | zero => rfl
  | succ n ih => simp [leBytes, ih]

theorem leNat_lt (bs : Bytes) : leNat bs < 256 ^ bs.length := by
  induction bs with
  | nil => simp [leNat]
  | cons b bs ih =>
    have := b.toNat_lt
    simp only [leNat, List.length_cons, pow_succ]
    omega

theorem leNat_leBytes (n v : Nat) : leNat (leBytes n v) = v % 256 ^ n := by
  induction n generalizing v with
  | zero => simp [leBytes, leNat, Nat.mod_one]
  | succ n ih =>
    simp only [leBytes, leNat, ih]
    have h1 : (UInt8.ofNat (v % 256)).toNat = v % 256 := by
      simp
    rw [h1, pow_succ, Nat.mul_comm (256 ^ n) 256, Nat.mod_mul]

theorem leBytes_leNat (bs : Bytes) : leBytes bs.length (leNat bs) = bs := by
  induction bs with
  | nil => rfl
  | cons b bs ih =>
    have hb := b.toNat_lt
    simp only [List.length_cons, leBytes, leNat]
    have h1 : (b.toNat + 256 * leNat bs) % 256 = b.toNat := by omega
    have h2 : (b.toNat + 256 * leNat bs) / 256 = leNat bs := by omega
    rw [h1, h2, ih]
    simp

theorem Endian.order_order (e : Endian) (bs : Bytes) : e.order (e.order bs) = bs := by
  cases e <;> simp [Endian.order]

theorem Endian.order_length (e : Endian) (bs : Bytes) : (e.order bs).length = bs.length := by
  cases e <;> simp [Endian.order]

theorem encodeInt_length (e : Endian) (n : Nat) (v : Int) : (encodeInt e n v).length = n := by
  simp [encodeInt, Endian.order_length, leBytes_length]

theorem pow256 (n : Nat) : (256 : Nat) ^ n = 2 ^ (8 * n) := by
  rw [pow_mul]; norm_num

theorem pow256_half (n : Nat) (hn : 1 ≤ n) : (256 : Nat) ^ n = 2 * 2 ^ (8 * n - 1) := by
  rw [pow256, ← pow_succ']; congr 1; omega

/-- Decoding what was encoded. -/
theorem decodeInt_encodeInt (e : Endian) (c : IntCode) (hc : 1 ≤ c.size) (v : Int) (h1 : c.lo ≤ v)
    (h2 : v ≤ c.hi) : decodeInt e c.signed (encodeInt e c.size v) = v := by
  unfold decodeInt
  simp only [encodeInt_length]
  have hn : leNat (e.order (encodeInt e c.size v)) = (v % 256 ^ c.size).toNat := by
    rw [encodeInt, Endian.order_order, leNat_leBytes]
    apply Nat.mod_eq_of_lt
    have := Int.emod_lt_of_pos v (b := 256 ^ c.size) (by positivity)
    have h0 := Int.emod_nonneg v (b := 256 ^ c.size) (by positivity)
    zify
    rw [Int.toNat_of_nonneg h0]
    exact_mod_cast this
  rw [hn]
  have hp := pow256_half c.size hc
  have hp' : (256 : Int) ^ c.size = 2 * 2 ^ (8 * c.size - 1) := by exact_mod_cast hp
  have hq' : (2 : Int) ^ (8 * c.size) = 256 ^ c.size := by exact_mod_cast (pow256 c.size).symm
  unfold IntCode.lo at h1
  unfold IntCode.hi at h2
  have hpos : (0 : Int) < 2 ^ (8 * c.size - 1) := by positivity
  have h0 := Int.emod_nonneg v (b := 256 ^ c.size) (by positivity)
  cases hs : c.signed with
  | false =>
    simp only [hs, Bool.false_eq_true, if_false, false_and] at *
    rw [Int.toNat_of_nonneg h0]
    exact Int.emod_eq_of_lt h1 (by linarith)
  | true =>
    simp only [hs, if_true, true_and] at *
    by_cases hv : 0 ≤ v
    · have hm : v % 256 ^ c.size = v := Int.emod_eq_of_lt hv (by rw [hp']; linarith)
      rw [hm]
      rw [if_neg]
      · omega
      · push Not
        zify
        rw [Int.toNat_of_nonneg hv]
        linarith
    · have hm : v % 256 ^ c.size = v + 256 ^ c.size := by
        rw [← Int.add_emod_right]
        exact Int.emod_eq_of_lt (by rw [hp']; linarith) (by linarith)
      rw [hm] at h0 ⊢
      rw [if_pos]
      · rw [Int.toNat_of_nonneg h0, hq']; ring
      · zify
        rw [Int.toNat_of_nonneg h0, hp']
        linarith

/-- Encoding what was decoded. -/
theorem encodeInt_decodeInt (e : Endian) (s : Bool) (bs : Bytes) :
    encodeInt e bs.length (decodeInt e s bs) = bs := by
  have key : ((decodeInt e s bs) % 256 ^ bs.length).toNat = leNat (e.order bs) := by
    have hlt := leNat_lt (e.order bs)
    rw [Endian.order_length] at hlt
    have hlt' : ((leNat (e.order bs) : Nat) : Int) < 256 ^ bs.length := by exact_mod_cast hlt
    have hq' : (2 : Int) ^ (8 * bs.length) = 256 ^ bs.length := by exact_mod_cast (pow256 bs.length).symm
    unfold decodeInt
    simp only
    split
    · rw [hq', Int.sub_emod_right, Int.emod_eq_of_lt (by positivity) hlt']
      simp
    · rw [Int.emod_eq_of_lt (by positivity) hlt']
      simp
  rw [encodeInt, key, ← Endian.order_length e bs, leBytes_leNat, Endian.order_order]

/-- A decoded integer is in the range of its code. -/
theorem decodeInt_range (e : Endian) (c : IntCode) (hc : 1 ≤ c.size) (bs : Bytes) (hb : bs.length = c.size) :
    c.lo ≤ decodeInt e c.signed bs ∧ decodeInt e c.signed bs ≤ c.hi := by
  have hlt := leNat_lt (e.order bs)
  rw [Endian.order_length, hb] at hlt
  have hlt' : ((leNat (e.order bs) : Nat) : Int) < 256 ^ c.size := by exact_mod_cast hlt
  have hp' : (256 : Int) ^ c.size = 2 * 2 ^ (8 * c.size - 1) := by exact_mod_cast pow256_half c.size hc
  have hq' : (2 : Int) ^ (8 * c.size) = 256 ^ c.size := by exact_mod_cast (pow256 c.size).symm
  have hpos : (0 : Int) < 2 ^ (8 * c.size - 1) := by positivity
  unfold decodeInt IntCode.lo IntCode.hi
  simp only [hb, hq']
  cases c.signed with
  | false => simp; omega
  | true =>
    simp only [if_true, true_and]
    split
    · rename_i h
      have h' : (2 : Int) ^ (8 * c.size - 1) ≤ (leNat (e.order bs) : Int) := by exact_mod_cast h
      constructor <;> linarith
    · rename_i h
      push Not at h
      have h' : (leNat (e.order bs) : Int) < (2 : Int) ^ (8 * c.size - 1) := by exact_mod_cast h
      constructor <;> linarith

/-! ## Layouts: fields separated by padding -/

/-- A place of a field: its position and its code. -/
abbrev Slot := Nat × IntCode

/-- The format elements from position `idx` to `L` with the given places filled. -/
def layout (L : Nat) : Nat → List Slot → List FmtItem
  | idx, [] => List.replicate (L - idx) .pad
  | idx, s :: rest => List.replicate (s.1 - idx) .pad ++ .int s.2 :: layout L (s.1 + s.2.size) rest

/-- The places are in order, do not overlap and end by `L`. -/
def Laid (L : Nat) : Nat → List Slot → Prop
  | idx, [] => idx ≤ L
  | idx, s :: rest => idx ≤ s.1 ∧ 1 ≤ s.2.size ∧ Laid L (s.1 + s.2.size) rest

theorem Laid.le {L idx : Nat} {slots : List Slot} (h : Laid L idx slots) : idx ≤ L := by
  induction slots generalizing idx with
  | nil => exact h
  | cons s rest ih => have := ih h.2.2; have := h.1; omega

theorem Laid.mem {L idx : Nat} {slots : List Slot} (h : Laid L idx slots) :
    ∀ s ∈ slots, idx ≤ s.1 ∧ 1 ≤ s.2.size ∧ s.1 + s.2.size ≤ L := by
  induction slots generalizing idx with
  | nil => simp
  | cons s rest ih =>
    intro t ht
    rcases List.mem_cons.1 ht with rfl | ht
    · exact ⟨h.1, h.2.1, h.2.2.le⟩
    · have := ih h.2.2 t ht
      have := h.1
      omega

theorem sum_replicate_one (n : Nat) : (List.replicate n 1).sum = n := by
  induction n with
  | zero => rfl
  | succ n ih => rw [List.replicate_succ, List.sum_cons, ih]; omega

theorem layout_size {L idx : Nat} {slots : List Slot} (h : Laid L idx slots) :
    ((layout L idx slots).map FmtItem.size).sum = L - idx := by
  induction slots generalizing idx with
  | nil => simp [layout, FmtItem.size]
  | cons s rest ih =>
    have h1 := h.1
    have := ih h.2.2
    have h2 := h.2.2.le
    simp only [layout, List.map_append, List.map_replicate, FmtItem.size, List.sum_append, sum_replicate_one,
      List.map_cons, List.sum_cons, this]
    omega

theorem packItems_pads (e : Endian) (n : Nat) (is : List FmtItem) (vs : List Int) (bs : Bytes)
    (h : packItems e is vs = .ok bs) :
    packItems e (List.replicate n .pad ++ is) vs = .ok (List.replicate n 0 ++ bs) := by
  induction n with
  | zero => simpa using h
  | succ n ih =>
    rw [List.replicate_succ, List.cons_append, packItems, ih]
    rfl

theorem packItems_pads_error (e : Endian) (n : Nat) (is : List FmtItem) (vs : List Int) (err : Err)
    (h : packItems e is vs = .error err) :
    packItems e (List.replicate n .pad ++ is) vs = .error err := by
  induction n with
  | zero => simpa using h
  | succ n ih =>
    rw [List.replicate_succ, List.cons_append, packItems, ih]
    rfl

/-- The bytes of a layout. -/
def layoutBytes (e : Endian) (L : Nat) : Nat → List Slot → List Int → Bytes
  | idx, s :: rest, v :: vs =>
    List.replicate (s.1 - idx) 0 ++ (encodeInt e s.2.size v ++ layoutBytes e L (s.1 + s.2.size) rest vs)
  | idx, _, _ => List.replicate (L - idx) 0

/-- Packing into a layout. -/
theorem packItems_layout (e : Endian) (L idx : Nat) (slots : List Slot) (vs : List Int)
    (hv : List.Forall₂ (fun s v => s.2.lo ≤ v ∧ v ≤ s.2.hi) slots vs) :
    packItems e (layout L idx slots) vs = .ok (layoutBytes e L idx slots vs) := by
  induction hv generalizing idx with
  | nil =>
    simp only [layout, layoutBytes]
    have := packItems_pads e (L - idx) [] [] [] rfl
    simpa using this
  | @cons s v slots vs h _ ih =>
    simp only [layout, layoutBytes]
    apply packItems_pads
    rw [packItems, if_pos h, ih]
    rfl

/-- Packing fails when a value is out of range. -/
theorem packItems_layout_error (e : Endian) (L idx : Nat) (slots : List Slot) (vs : List Int)
    (hl : slots.length = vs.length)
    (hv : ¬ List.Forall₂ (fun s v => s.2.lo ≤ v ∧ v ≤ s.2.hi) slots vs) :
    packItems e (layout L idx slots) vs = .error .structError := by
  induction slots generalizing idx vs with
  | nil =>
    cases vs with
    | nil => exact absurd List.Forall₂.nil hv
    | cons _ _ => simp at hl
  | cons s slots ih =>
    cases vs with
    | nil => simp at hl
    | cons v vs =>
      simp only [layout]
      apply packItems_pads_error
      rw [packItems]
      split
      · rename_i h
        rw [ih _ vs (by simpa using hl) (fun h' => hv (List.Forall₂.cons h h'))]
        rfl
      · rfl

theorem layoutBytes_length {e : Endian} {L idx : Nat} {slots : List Slot} {vs : List Int}
    (h : Laid L idx slots) (hl : slots.length = vs.length) :
    (layoutBytes e L idx slots vs).length = L - idx := by
  induction slots generalizing idx vs with
  | nil => cases vs <;> simp [layoutBytes]
  | cons s slots ih =>
    cases vs with
    | nil => simp at hl
    | cons v vs =>
      have h2 := h.2.2.le
      have h1 := h.1
      simp only [layoutBytes, List.length_append, List.length_replicate, encodeInt_length,
        ih h.2.2 (by simpa using hl)]
      omega

/-- Each place of a layout holds its value. -/
theorem layoutBytes_slot {e : Endian} {L idx : Nat} {slots : List Slot} {vs : List Int}
    (h : Laid L idx slots) (hl : slots.length = vs.length) :
    List.Forall₂ (fun s v => ((layoutBytes e L idx slots vs).drop (s.1 - idx)).take s.2.size
      = encodeInt e s.2.size v) slots vs := by
  induction slots generalizing idx vs with
  | nil => cases vs with
    | nil => exact .nil
    | cons _ _ => simp at hl
  | cons s slots ih =>
    cases vs with
    | nil => simp at hl
    | cons v vs =>
      have hl' : slots.length = vs.length := by simpa using hl
      refine .cons ?_ ?_
      · simp only [layoutBytes]
        rw [List.drop_append_of_le_length (by simp), List.drop_eq_nil_of_le (by simp)]
        rw [List.nil_append, List.take_append_of_le_length (by simp [encodeInt_length]),
          List.take_of_length_le (by simp [encodeInt_length])]
      · have key := ih h.2.2 hl'
        have hm := h.2.2.mem
        have h1 := h.1
        rw [List.forall₂_iff_get] at key ⊢
        refine ⟨key.1, fun i hi1 hi2 => ?_⟩
        have k := key.2 i hi1 hi2
        have hmi := hm _ (List.get_mem slots ⟨i, hi1⟩)
        simp only [List.get_eq_getElem] at hmi k ⊢
        simp only [layoutBytes]
        rw [← k]
        congr 1
        rw [List.drop_append, List.drop_append]
        rw [List.drop_eq_nil_of_le (by simp; omega), List.drop_eq_nil_of_le (by simp [encodeInt_length]; omega)]
        simp only [List.nil_append, List.length_replicate, encodeInt_length]
        congr 1
        omega

/-- Bytes in no place are zero. -/
theorem layoutBytes_gap {e : Endian} {L idx : Nat} {slots : List Slot} {vs : List Int}
    (h : Laid L idx slots) (hl : slots.length = vs.length) (k : Nat) (h1 : idx ≤ k) (h2 : k < L)
    (hk : ∀ s ∈ slots, ¬ (s.1 ≤ k ∧ k < s.1 + s.2.size)) :
    (layoutBytes e L idx slots vs)[k - idx]? = some 0 := by
  induction slots generalizing idx vs with
  | nil =>
    have : layoutBytes e L idx [] vs = List.replicate (L - idx) 0 := by cases vs <;> rfl
    rw [this, List.getElem?_replicate, if_pos (by omega)]
  | cons s slots ih =>
    cases vs with
    | nil => simp at hl
    | cons v vs =>
      have hl' : slots.length = vs.length := by simpa using hl
      have hs := hk s (by simp)
      simp only [layoutBytes]
      by_cases hks : k < s.1
      · rw [List.getElem?_append_left (by simp; omega), List.getElem?_replicate, if_pos (by omega)]
      · have hge : s.1 + s.2.size ≤ k := by omega
        have := ih h.2.2 hl' hge (fun t ht => hk t (List.mem_cons_of_mem _ ht))
        have h0 := h.1
        rw [List.getElem?_append_right (by simp; omega), List.getElem?_append_right
          (by simp [encodeInt_length]; omega)]
        rw [← this]
        congr 1
        simp [encodeInt_length]
        omega

theorem unpackItems_pads (e : Endian) (n : Nat) (is : List FmtItem) (bs : Bytes) :
    unpackItems e (List.replicate n .pad ++ is) bs = unpackItems e is (bs.drop n) := by
  induction n generalizing bs with
  | zero => simp
  | succ n ih =>
    rw [List.replicate_succ, List.cons_append, unpackItems, ih, List.drop_drop, Nat.add_comm 1 n]

/-- Unpacking a layout reads every place. -/
theorem unpackItems_layout (e : Endian) (L idx : Nat) (slots : List Slot) (bs : Bytes)
    (h : Laid L idx slots) :
    unpackItems e (layout L idx slots) bs
      = slots.map fun s => decodeInt e s.2.signed ((bs.drop (s.1 - idx)).take s.2.size) := by
  induction slots generalizing idx bs with
  | nil =>
    simp only [layout, List.map_nil]
    have := unpackItems_pads e (L - idx) [] bs
    simpa [unpackItems] using this
  | cons s slots ih =>
    simp only [layout, List.map_cons]
    rw [unpackItems_pads, unpackItems, ih _ _ h.2.2]
    congr 1
    apply List.map_congr_left
    intro t ht
    have := h.2.2.mem t ht
    have h0 := h.1
    rw [List.drop_drop, List.drop_drop]
    congr 4
    omega

theorem parseItems_pads (n : Nat) (cs : PyStr) (is : List FmtItem) (h : parseItems cs = .ok is) :
    parseItems (List.replicate n 'x' ++ cs) = .ok (List.replicate n .pad ++ is) := by
  induction n with
  | zero => simpa using h
  | succ n ih =>
    rw [List.replicate_succ, List.cons_append, parseItems, if_pos rfl, ih]
    rfl

end Segpy
