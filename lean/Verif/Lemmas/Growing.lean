import Verif.Lemmas.Memo
import Verif.Lemmas.Packer2
import Verif.Lemmas.TextHeader
import Verif.Props.Opening

/-! # Reading from a file to which bytes have been appended -/

namespace Segpy

open Spec FileM

/-- The file with bytes appended. -/
def FileH.grow (s : FileH) (extra : Bytes) : FileH := { s with data := s.data ++ extra }

/-- What succeeds on a file gives the same on a file to which bytes have been appended. -/
def FileM.Grows {α : Type} (m : FileM α) : Prop :=
  ∀ s a s1, m s = (.ok a, s1) → ∀ extra, m (s.grow extra) = (.ok a, s1.grow extra)

theorem grows_bind {α β : Type} {m : FileM α} {f : α → FileM β} (hm : m.Grows) (hf : ∀ a, (f a).Grows) :
    (m >>= f).Grows := by
  intro s b s1 h extra
  obtain ⟨a, s2, h1, h2⟩ := bind_eq_ok h
  rw [bind_ok (hm s a s2 h1 extra)]
  exact hf a s2 b s1 h2 extra

theorem grows_pure {α : Type} (a : α) : (pure a : FileM α).Grows := by
  intro s b s1 h extra
  cases h
  rfl

theorem grows_lift {α : Type} (x : Res α) : (lift x).Grows := by
  intro s b s1 h extra
  rw [lift_apply] at h ⊢
  cases h
  rfl

theorem grows_raise {α : Type} (err : Err) : (raise err : FileM α).Grows := by
  intro s b s1 h extra
  cases h

theorem grows_seek (p : Int) : (seek p).Grows := by
  intro s b s1 h extra
  unfold seek at h ⊢
  split at h
  · cases h
  · cases h
    rename_i hp
    rw [if_neg hp]
    rfl

theorem grows_ite {α : Type} {c : Prop} [Decidable c] {m m' : FileM α} (h : m.Grows) (h' : m'.Grows) :
    (if c then m else m').Grows := by
  split
  · exact h
  · exact h'

/-- A block that has been read in full. -/
theorem read_grow {n : Nat} {s : FileH} (h : s.pos + n ≤ s.data.length ∨ n = 0) (extra : Bytes) :
    read n (s.grow extra) = (.ok ((s.data.drop s.pos).take n), { s with pos := s.pos + n }.grow extra) := by
  rw [read_apply]
  have hd : ((s.data ++ extra).drop s.pos).take n = (s.data.drop s.pos).take n := by
    rcases h with h | h
    · rw [List.drop_append_of_le_length (by omega), List.take_append_of_le_length (by rw [List.length_drop]; omega)]
    · subst h; simp
  have hl : ((s.data.drop s.pos).take n).length = n := by
    rw [List.length_take, List.length_drop]; omega
  unfold FileH.grow
  simp only [hd, hl]

theorem grows_text (enc : Encoding) : (readTextualReelHeader enc).Grows := by
  intro s a s1 h extra
  rw [readTextual_apply] at h ⊢
  by_cases hlen : s.pos + 3200 ≤ s.data.length
  · have hlen' : (s.grow extra).pos + 3200 ≤ (s.grow extra).data.length := by
      show s.pos + 3200 ≤ (s.data ++ extra).length
      rw [List.length_append]; omega
    have hd : ((s.grow extra).data.drop (s.grow extra).pos).take 3200 = (s.data.drop s.pos).take 3200 := by
      show ((s.data ++ extra).drop s.pos).take 3200 = _
      rw [List.drop_append_of_le_length (by omega), List.take_append_of_le_length (by rw [List.length_drop]; omega)]
    rw [if_pos hlen] at h
    rw [if_pos hlen', hd]
    obtain ⟨h1, h2⟩ := Prod.mk.inj h
    rw [h1, ← h2]
    rfl
  · rw [if_neg hlen] at h
    cases h

theorem grows_counted (enc : Encoding) (n : Nat) : ∀ left i acc, (readExtendedCountedLoop enc n left i acc).Grows := by
  intro left
  induction left with
  | zero => intro i acc; exact grows_pure acc
  | succ left ih =>
    intro i acc
    unfold readExtendedCountedLoop
    exact grows_bind (grows_text enc) fun a => grows_bind (grows_lift _) fun b => grows_ite (grows_raise _) (ih _ _)

theorem grows_untilLoop (enc : Encoding) : ∀ fuel acc, (readExtendedUntilEndLoop enc fuel acc).Grows := by
  intro fuel
  induction fuel with
  | zero => intro acc; exact grows_raise _
  | succ fuel ih =>
    intro acc
    unfold readExtendedUntilEndLoop
    exact grows_bind (grows_text enc) fun a => grows_bind (grows_lift _) fun b => grows_ite (grows_pure _) (ih _)

theorem untilLoop_more (enc : Encoding) : ∀ fuel acc s a s1, readExtendedUntilEndLoop enc fuel acc s = (.ok a, s1) →
    ∀ fuel', fuel ≤ fuel' → readExtendedUntilEndLoop enc fuel' acc s = (.ok a, s1) := by
  intro fuel
  induction fuel with
  | zero => intro acc s a s1 h; cases h
  | succ fuel ih =>
    intro acc s a s1 h fuel' hf
    obtain ⟨fuel', rfl⟩ : ∃ k, fuel' = k + 1 := ⟨fuel' - 1, by omega⟩
    unfold readExtendedUntilEndLoop at h ⊢
    obtain ⟨x, s2, h1, h⟩ := bind_eq_ok h
    obtain ⟨b, s3, h2, h⟩ := bind_eq_ok h
    rw [bind_ok h1, bind_ok h2]
    cases b with
    | true => exact h
    | false => exact ih _ _ _ _ h _ (by omega)

theorem grows_until (enc : Encoding) : (readExtendedHeadersUntilEnd enc).Grows := by
  intro s a s1 h extra
  unfold readExtendedHeadersUntilEnd at h ⊢
  refine untilLoop_more enc _ _ _ _ _ (grows_untilLoop enc _ _ s a s1 h extra) _ ?_
  show s.data.length + 1 ≤ (s.data ++ extra).length + 1
  rw [List.length_append]; omega

theorem grows_extended (h : Header) (enc : Encoding) : (readExtendedHeadersOf h enc).Grows := by
  unfold readExtendedHeadersOf
  refine grows_bind (grows_lift _) fun n => ?_
  unfold readExtendedTextualHeaders
  refine grows_bind (grows_seek _) fun _ => grows_ite (grows_until enc) ?_
  unfold readExtendedHeadersCounted
  exact grows_ite (grows_raise _) (grows_counted enc _ _ _ _)

/-- A buffer of another length than the format's cannot be unpacked. -/
theorem unpack_short {F : Format} {e : Endian} {p : HeaderPacker} (hp : makeHeaderPacker F e = .ok p)
    (hs : F.AfterStart) {n : Nat} (hn : F.lengthInBytes = some (n : Int)) {bs : Bytes} (hb : bs.length ≠ n) :
    p.unpack bs = .error .valueError := by
  obtain ⟨d, m, P⟩ := makeHeaderPacker_spec hp hs
  have hm : m = n := by
    have := P.length
    unfold Format.packedLength at this
    rw [hn] at this
    simp only at this
    omega
  have hsize : p.structure_.size = n := by
    rw [P.struct]
    show ((layout m 0 (natSlots d)).map FmtItem.size).sum = n
    rw [layout_size P.laid]
    omega
  unfold HeaderPacker.unpack Struct.unpack
  rw [hsize, if_neg hb]

theorem grows_binary {B : Format} {e : Endian} {n : Nat} (hs : B.AfterStart) (hn : B.lengthInBytes = some (n : Int)) :
    (readBinaryReelHeader B e).Grows := by
  intro s a s1 h extra
  unfold readBinaryReelHeader at h ⊢
  rw [hn] at h ⊢
  simp only at h ⊢
  obtain ⟨p, s2, h1, h0⟩ := bind_eq_ok h
  rw [lift_apply] at h1
  obtain ⟨g1, rfl⟩ := Prod.mk.inj h1
  obtain ⟨buf, s3, h2, h3⟩ := bind_eq_ok h0
  rw [read_apply] at h2
  obtain ⟨g2, rfl⟩ := Prod.mk.inj h2
  rw [lift_apply] at h3
  obtain ⟨g3, rfl⟩ := Prod.mk.inj h3
  obtain rfl := Except.ok.inj g2
  have hl : ((s.data.drop s.pos).take n).length = n := by
    by_contra hc
    rw [unpack_short g1 hs hn hc] at g3
    cases g3
  have hfit : s.pos + n ≤ s.data.length ∨ n = 0 := by
    rw [List.length_take, List.length_drop] at hl
    omega
  rw [g1, bind_ok (lift_apply _ _), bind_ok (read_grow hfit extra), lift_apply, g3, hl]

theorem headerBytes_grow {data : Bytes} {p : Nat} (h : p + 240 ≤ data.length) (extra : Bytes) :
    headerBytes (data ++ extra) p = headerBytes data p := by
  unfold headerBytes
  rw [List.drop_append_of_le_length (by omega), List.take_append_of_le_length (by rw [List.length_drop]; omega)]

theorem fieldAt_grow {T : Format} {e : Endian} {data : Bytes} {p : Nat} (h : p + 240 ≤ data.length) (extra : Bytes)
    (name : String) : fieldAt T e (data ++ extra) p name = fieldAt T e data p name := by
  unfold fieldAt
  rw [headerBytes_grow h]

theorem samplesAt_grow {T : Format} {e : Endian} {data : Bytes} {p : Nat} (h : p + 240 ≤ data.length) (extra : Bytes) :
    samplesAt T e (data ++ extra) p = samplesAt T e data p := by
  unfold samplesAt
  rw [fieldAt_grow h]

theorem indexable_grow {T : Format} {e : Endian} {data : Bytes} {p : Nat} (h : p + 240 ≤ data.length) (extra : Bytes) :
    Indexable T e (data ++ extra) p ↔ Indexable T e data p := by
  unfold Indexable
  simp only [fieldAt_grow h]

/-- The traces of a file are the first ones of every longer file. -/
theorem traces_grow {T : Format} {e : Endian} {data extra : Bytes} {bps pos stop : Nat} {starts starts' : List Nat}
    (h : TraceChain T e data bps pos starts stop) {stop' : Nat}
    (h' : TraceChain T e (data ++ extra) bps pos starts' stop') (hend : (data ++ extra).length < stop' + 240) :
    starts <+: starts' := by
  induction h generalizing starts' with
  | nil p => exact List.nil_prefix
  | cons hc hi _ ih =>
    cases h' with
    | nil =>
      rw [List.length_append] at hend
      omega
    | cons hc' hi' hr' =>
      rw [samplesAt_grow hc] at hr'
      exact List.cons_prefix_cons.mpr ⟨rfl, ih hr'⟩

theorem values_grow (native : Endian) (p : Int) (t : SegYType) (n : Int) (hn : 0 ≤ n) (e : Endian) (s : FileH)
    (extra : Bytes) :
    (readBinaryValues native p t n e (s.grow extra)).1 = (readBinaryValues native p t n e s).1 ∨
      (readBinaryValues native p t n e s).1 = .error .eofError := by
  by_cases hp : p < 0
  · left
    unfold readBinaryValues
    rw [bind_error (e := .valueError) (s' := s.grow extra), bind_error (e := .valueError) (s' := s)]
    · unfold seek; rw [if_pos hp]
    · unfold seek; rw [if_pos hp]
  obtain ⟨q, rfl⟩ := Int.eq_ofNat_of_zero_le (not_lt.mp hp)
  obtain ⟨m, rfl⟩ := Int.eq_ofNat_of_zero_le hn
  by_cases hfit : q + m * t.size ≤ s.data.length ∨ m = 0
  · left
    rw [readBinaryValues_ok native e t m q s hfit, readBinaryValues_ok native e t m q (s.grow extra) ?_]
    · unfold samplesFrom FileH.grow
      simp only
      congr 1
      apply List.map_congr_left
      intro k hk
      rw [List.mem_range] at hk
      have hkm : (k + 1) * t.size ≤ m * t.size := Nat.mul_le_mul_right _ hk
      rw [Nat.add_mul] at hkm
      rw [List.drop_append_of_le_length (by omega),
        List.take_append_of_le_length (by rw [List.length_drop]; omega)]
    · unfold FileH.grow
      rw [List.length_append]
      omega
  · right
    push Not at hfit
    obtain ⟨k, hk⟩ := readBinaryValues_eof native e t m q s hfit.1 hfit.2
    rw [hk]

end Segpy
