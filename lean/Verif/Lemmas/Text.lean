import Verif.Py.Text
import Mathlib.Tactic.Linarith
import Mathlib.Data.List.Forall2

/-! # Lemmas about text codecs and `mapM` in `Res` -/

namespace Segpy

/-- `mapM` in `Res` succeeds elementwise. -/
theorem mapM_ok_iff {α β : Type} (f : α → Res β) (l : List α) (r : List β) :
    l.mapM f = .ok r ↔ List.Forall₂ (fun a b => f a = .ok b) l r := by
  induction l generalizing r with
  | nil =>
    rw [List.mapM_nil]
    constructor
    · intro h; cases h; exact .nil
    · intro h; cases h; rfl
  | cons a l ih =>
    rw [List.mapM_cons]
    simp only [bind, Except.bind, pure, Except.pure]
    constructor
    · intro h
      cases ha : f a with
      | error e => rw [ha] at h; cases h
      | ok b =>
        rw [ha] at h
        simp only at h
        cases hl : l.mapM f with
        | error e => rw [hl] at h; cases h
        | ok bs =>
          rw [hl] at h
          cases h
          exact .cons ha ((ih bs).mp hl)
    · intro h
      cases h with
      | cons h1 h2 => rw [h1]; simp only; rw [(ih _).mpr h2]

theorem mapM_ok_length {α β : Type} {f : α → Res β} {l : List α} {r : List β} (h : l.mapM f = .ok r) :
    r.length = l.length := ((mapM_ok_iff f l r).mp h).length_eq.symm

theorem mapM_ok_of_forall {α β : Type} {f : α → Res β} {g : α → β} {l : List α} (h : ∀ a ∈ l, f a = .ok (g a)) :
    l.mapM f = .ok (l.map g) := by
  rw [mapM_ok_iff]
  induction l with
  | nil => exact .nil
  | cons a l ih =>
    exact .cons (h a (by simp)) (ih fun x hx => h x (by simp [hx]))

/-- If `mapM` fails, some element fails with that error. -/
theorem mapM_error {α β : Type} {f : α → Res β} {l : List α} {e : Err} (h : l.mapM f = .error e) :
    ∃ a ∈ l, f a = .error e := by
  induction l with
  | nil => rw [List.mapM_nil] at h; cases h
  | cons a l ih =>
    rw [List.mapM_cons] at h
    simp only [bind, Except.bind, pure, Except.pure] at h
    cases ha : f a with
    | error e' => rw [ha] at h; cases h; exact ⟨a, by simp, ha⟩
    | ok b =>
      rw [ha] at h; simp only at h
      cases hl : l.mapM f with
      | error e' =>
        rw [hl] at h; cases h
        obtain ⟨x, hx, hfx⟩ := ih hl
        exact ⟨x, by simp [hx], hfx⟩
      | ok bs => rw [hl] at h; cases h

theorem mapM_raises {α β : Type} {f : α → Res β} {l : List α} {a : α} (ha : a ∈ l) (h : (f a).raised = true) :
    (l.mapM f).raised = true := by
  cases hl : l.mapM f with
  | error e => rfl
  | ok r =>
    exfalso
    have := (mapM_ok_iff f l r).mp hl
    clear hl
    induction this with
    | nil => cases ha
    | cons h1 _ ih =>
      rcases List.mem_cons.mp ha with rfl | ha
      · rw [h1] at h; cases h
      · exact ih ha

/-- Elementwise inverse functions give inverse `mapM`s. -/
theorem mapM_inverse {α β : Type} {f : α → Res β} {g : β → Res α} (h : ∀ a b, f a = .ok b → g b = .ok a)
    {l : List α} {r : List β} (hl : l.mapM f = .ok r) : r.mapM g = .ok l := by
  rw [mapM_ok_iff] at hl ⊢
  induction hl with
  | nil => exact .nil
  | cons h1 _ ih => exact .cons (h _ _ h1) ih

/-! ## Codecs -/

theorem char_ofNat_toNat (c : Char) : Char.ofNat c.toNat = c := Char.ofNat_toNat c

theorem char_toNat_ofNat {n : Nat} (h : n < 256) : (Char.ofNat n).toNat = n := by
  have hv : n.isValidChar := Or.inl (by omega)
  unfold Char.ofNat
  rw [dif_pos hv]
  simp [Char.toNat, Char.ofNatAux]

private theorem table_dec : ∀ b : Fin 256, cp037DecodeTable.getD b.val 0 < 256 ∧
    cp037EncodeTable.getD (cp037DecodeTable.getD b.val 0) 0 = b.val := by decide +kernel

private theorem table_enc : ∀ c : Fin 256, cp037EncodeTable.getD c.val 0 < 256 ∧
    cp037DecodeTable.getD (cp037EncodeTable.getD c.val 0) 0 = c.val := by decide +kernel

theorem decode_encodeChar {enc : Encoding} {c : Char} {b : UInt8} (h : encodeChar enc c = .ok b) :
    decodeByte enc b = .ok c := by
  cases enc with
  | ascii =>
    simp only [encodeChar] at h
    split at h
    · rename_i hc
      cases h
      have : (UInt8.ofNat c.toNat).toNat = c.toNat := by
        rw [UInt8.toNat_ofNat']; omega
      simp only [decodeByte, this, if_pos hc, char_ofNat_toNat]
    · cases h
  | ebcdic =>
    simp only [encodeChar] at h
    split at h
    · rename_i hc
      cases h
      obtain ⟨h1, h2⟩ := table_enc ⟨c.toNat, hc⟩
      simp only at h1 h2
      have : (UInt8.ofNat (cp037EncodeTable.getD c.toNat 0)).toNat = cp037EncodeTable.getD c.toNat 0 := by
        rw [UInt8.toNat_ofNat']; omega
      simp only [decodeByte, this, h2, char_ofNat_toNat]
    · cases h
  | other => simp [encodeChar] at h

theorem encode_decodeByte {enc : Encoding} {b : UInt8} {c : Char} (h : decodeByte enc b = .ok c) :
    encodeChar enc c = .ok b := by
  have hb : b.toNat < 256 := b.toNat_lt
  cases enc with
  | ascii =>
    simp only [decodeByte] at h
    split at h
    · rename_i hc
      cases h
      simp only [encodeChar, char_toNat_ofNat hb, if_pos hc, UInt8.ofNat_toNat]
    · cases h
  | ebcdic =>
    simp only [decodeByte] at h
    cases h
    obtain ⟨h1, h2⟩ := table_dec ⟨b.toNat, hb⟩
    simp only at h1 h2
    simp only [encodeChar, char_toNat_ofNat h1, if_pos h1, h2, UInt8.ofNat_toNat]
  | other => simp [decodeByte] at h

/-- The number of code points an encoding can represent. -/
def encodableBelow : Encoding → Nat
  | .ascii => 128
  | .ebcdic => 256
  | .other => 0

theorem encodeChar_ok_iff (enc : Encoding) (c : Char) :
    (∃ b, encodeChar enc c = .ok b) ↔ c.toNat < encodableBelow enc := by
  cases enc <;> simp only [encodeChar, encodableBelow]
  · split <;> simp_all
  · split <;> simp_all
  · simp

theorem encodeChar_error {enc : Encoding} (henc : enc ≠ .other) {c : Char} {e : Err}
    (h : encodeChar enc c = .error e) : e = .unicodeError := by
  cases enc <;> simp only [encodeChar] at h
  · split at h <;> cases h; rfl
  · split at h <;> cases h; rfl
  · exact absurd rfl henc

theorem encode_ok_iff (enc : Encoding) (s : PyStr) :
    (∃ bs, encode enc s = .ok bs) ↔ ∀ c ∈ s, c.toNat < encodableBelow enc := by
  constructor
  · rintro ⟨bs, h⟩ c hc
    by_contra hn
    have : (encodeChar enc c).raised = true := by
      cases hh : encodeChar enc c with
      | error e => rfl
      | ok b => exact absurd ((encodeChar_ok_iff enc c).mp ⟨b, hh⟩) hn
    have := mapM_raises hc this
    unfold encode at h
    rw [h] at this
    cases this
  · intro h
    cases hh : encode enc s with
    | ok bs => exact ⟨bs, rfl⟩
    | error e =>
      obtain ⟨c, hc, he⟩ := mapM_error hh
      obtain ⟨b, hb⟩ := (encodeChar_ok_iff enc c).mpr (h c hc)
      rw [hb] at he; cases he

theorem encode_error {enc : Encoding} (henc : enc ≠ .other) {s : PyStr} {e : Err}
    (h : encode enc s = .error e) : e = .unicodeError := by
  obtain ⟨c, _, he⟩ := mapM_error h
  exact encodeChar_error henc he

theorem encode_length {enc : Encoding} {s : PyStr} {bs : Bytes} (h : encode enc s = .ok bs) :
    bs.length = s.length := mapM_ok_length h

theorem decode_length {enc : Encoding} {s : PyStr} {bs : Bytes} (h : decode enc bs = .ok s) :
    s.length = bs.length := mapM_ok_length h

theorem decode_encode {enc : Encoding} {s : PyStr} {bs : Bytes} (h : encode enc s = .ok bs) :
    decode enc bs = .ok s := mapM_inverse (fun _ _ => decode_encodeChar) h

theorem encode_decode {enc : Encoding} {s : PyStr} {bs : Bytes} (h : decode enc bs = .ok s) :
    encode enc s = .ok bs := mapM_inverse (fun _ _ => encode_decodeByte) h

theorem mapM_append_ok {α β : Type} {f : α → Res β} {l l' : List α} {r r' : List β} (h : l.mapM f = .ok r)
    (h' : l'.mapM f = .ok r') : (l ++ l').mapM f = .ok (r ++ r') := by
  rw [mapM_ok_iff] at *
  exact List.rel_append h h'

theorem mapM_take {α β : Type} {f : α → Res β} {l : List α} {r : List β} (n : Nat) (h : l.mapM f = .ok r) :
    (l.take n).mapM f = .ok (r.take n) := by
  rw [mapM_ok_iff] at *
  exact List.forall₂_take n h

theorem mapM_replicate {α β : Type} {f : α → Res β} {a : α} {b : β} (n : Nat) (h : f a = .ok b) :
    (List.replicate n a).mapM f = .ok (List.replicate n b) := by
  rw [mapM_ok_iff]
  induction n with
  | zero => exact .nil
  | succ n ih => exact .cons h ih

theorem encode_space (enc : Encoding) (henc : enc ≠ .other) : ∃ b, encodeChar enc ' ' = .ok b := by
  rw [encodeChar_ok_iff]
  cases enc <;> simp_all [encodableBelow]

/-! ## Substrings -/

theorem isSubstring_iff (sub s : PyStr) : isSubstring sub s = true ↔ sub <:+: s := by
  induction s with
  | nil => simp [isSubstring]
  | cons c cs ih =>
    rw [isSubstring, Bool.or_eq_true, ih, List.isPrefixOf_iff_prefix, List.infix_cons_iff]

end Segpy
