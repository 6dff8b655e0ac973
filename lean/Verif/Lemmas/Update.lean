import Verif.Spec.Update
import Verif.Lemmas.Growing
import Verif.Lemmas.Writer
import Verif.Lemmas.SharedCache
import Verif.Props.Reel

/-! # Overwriting parts of traces -/

namespace Segpy

open Spec FileM

/-! ## Reading depends only on the bytes before the position reached -/

theorem slice_of_take {d d0 : Bytes} {n a b : Nat} (h : d.take n = d0.take n) (hab : a + b ≤ n) :
    (d.drop a).take b = (d0.drop a).take b := by
  have key : ∀ l : Bytes, (l.drop a).take b = ((l.take n).drop a).take b := by
    intro l
    rw [List.drop_take, List.take_take, Nat.min_eq_left (by omega)]
  rw [key, h, ← key]

/-- What succeeds depends only on the bytes between the position at first and the position it reaches. -/
def FileM.Local {α : Type} (m : FileM α) : Prop :=
  ∀ s a s1, m s = (.ok a, s1) → s.pos ≤ s1.pos ∧ s1.data = s.data ∧
    ∀ d : Bytes, s.data.length ≤ d.length →
      (d.drop s.pos).take (s1.pos - s.pos) = (s.data.drop s.pos).take (s1.pos - s.pos) →
      m { s with data := d } = (.ok a, { s1 with data := d })

theorem take_of_take {d d0 : Bytes} {n m : Nat} (h : d.take n = d0.take n) (hm : m ≤ n) : d.take m = d0.take m := by
  have := slice_of_take (a := 0) (b := m) h (by omega)
  simpa using this

theorem slice_of_slice {d d0 : Bytes} {p n a b : Nat} (h : (d.drop p).take n = (d0.drop p).take n) (ha : p ≤ a)
    (hab : a + b ≤ p + n) : (d.drop a).take b = (d0.drop a).take b := by
  obtain ⟨k, rfl⟩ := Nat.exists_eq_add_of_le ha
  rw [← List.drop_drop, ← List.drop_drop]
  exact slice_of_take h (by omega)

theorem local_bind {α β : Type} {m : FileM α} {f : α → FileM β} (hm : m.Local) (hf : ∀ a, (f a).Local) :
    (m >>= f).Local := by
  intro s b s2 h
  obtain ⟨a, s1, h1, h2⟩ := bind_eq_ok h
  obtain ⟨p1, q1, r1⟩ := hm s a s1 h1
  obtain ⟨p2, q2, r2⟩ := hf a s1 b s2 h2
  refine ⟨by omega, by rw [q2, q1], ?_⟩
  intro d hd ht
  rw [bind_ok (r1 d hd (slice_of_slice ht (le_refl _) (by omega)))]
  exact r2 d (by rw [q1]; exact hd) (by rw [q1]; exact slice_of_slice ht p1 (by omega))

theorem local_pure {α : Type} (a : α) : (pure a : FileM α).Local := by
  intro s b s1 h
  cases h
  exact ⟨le_refl _, rfl, fun d _ _ => rfl⟩

theorem local_lift {α : Type} (x : Res α) : (lift x).Local := by
  intro s b s1 h
  rw [lift_apply] at h
  cases h
  exact ⟨le_refl _, rfl, fun d _ _ => rfl⟩

theorem local_raise {α : Type} (err : Err) : (raise err : FileM α).Local := by
  intro s b s1 h
  cases h

theorem local_ite {α : Type} {c : Prop} [Decidable c] {m m' : FileM α} (h : m.Local) (h' : m'.Local) :
    (if c then m else m').Local := by
  split
  · exact h
  · exact h'

theorem local_text (enc : Encoding) : (readTextualReelHeader enc).Local := by
  intro s a s1 h
  obtain ⟨rfl, hl⟩ := readTextual_ok h
  refine ⟨Nat.le_add_right _ _, rfl, ?_⟩
  intro d hd ht
  rw [readTextual_apply, if_pos hl] at h
  rw [readTextual_apply]
  simp only [Nat.add_sub_cancel_left] at ht ⊢
  rw [if_pos (by omega), ht]
  rw [(Prod.mk.inj h).1]

theorem local_counted (enc : Encoding) (n : Nat) : ∀ left i acc, (readExtendedCountedLoop enc n left i acc).Local := by
  intro left
  induction left with
  | zero => intro i acc; exact local_pure acc
  | succ left ih =>
    intro i acc
    unfold readExtendedCountedLoop
    exact local_bind (local_text enc) fun a => local_bind (local_lift _) fun b => local_ite (local_raise _) (ih _ _)

theorem local_untilLoop (enc : Encoding) : ∀ fuel acc, (readExtendedUntilEndLoop enc fuel acc).Local := by
  intro fuel
  induction fuel with
  | zero => intro acc; exact local_raise _
  | succ fuel ih =>
    intro acc
    unfold readExtendedUntilEndLoop
    exact local_bind (local_text enc) fun a => local_bind (local_lift _) fun b => local_ite (local_pure _) (ih _)

theorem local_until (enc : Encoding) : (readExtendedHeadersUntilEnd enc).Local := by
  intro s a s1 h
  unfold readExtendedHeadersUntilEnd at h ⊢
  obtain ⟨g1, g2, g3⟩ := local_untilLoop enc _ _ s a s1 h
  refine ⟨g1, g2, ?_⟩
  intro d hd ht
  exact untilLoop_more enc _ _ _ _ _ (g3 d hd ht) _ (by simp only; omega)

/-- The extended headers depend only on their bytes. -/
theorem extended_local {hd : Header} {enc : Encoding} {s s1 : FileH} {out : List (List PyStr)}
    (h : readExtendedHeadersOf hd enc s = (.ok out, s1)) (d : Bytes) (hl : s.data.length ≤ d.length)
    (ht : (d.drop 3600).take (s1.pos - 3600) = (s.data.drop 3600).take (s1.pos - 3600)) :
    readExtendedHeadersOf hd enc { s with data := d } = (.ok out, { s1 with data := d }) := by
  unfold readExtendedHeadersOf at h ⊢
  obtain ⟨n, s2, h1, g⟩ := bind_eq_ok h
  clear h
  obtain ⟨hn, rfl⟩ := lift_eq_ok h1
  rw [hn, bind_ok (lift_apply _ _)]
  unfold readExtendedTextualHeaders at g ⊢
  rw [bind_ok (show FileM.seek (REEL_HEADER_NUM_BYTES : Nat) _ = _ from seek_apply _ _)] at g ⊢
  have hloc : (if n < 0 then readExtendedHeadersUntilEnd enc else readExtendedHeadersCounted n enc).Local := by
    refine local_ite (local_until enc) ?_
    unfold readExtendedHeadersCounted
    exact local_ite (local_raise _) (local_counted enc _ _ _ _)
  exact (hloc _ _ _ g).2.2 d hl ht

/-- The binary header depends only on its bytes. -/
theorem local_binary {B : Format} {e : Endian} {n : Nat} (hs : B.AfterStart) (hn : B.lengthInBytes = some (n : Int)) :
    (readBinaryReelHeader B e).Local := by
  intro s a s1 h
  unfold readBinaryReelHeader at h ⊢
  rw [hn] at h ⊢
  simp only at h ⊢
  obtain ⟨p, s2, h1, h0⟩ := bind_eq_ok h
  rw [lift_apply] at h1
  obtain ⟨g1, rfl⟩ := Prod.mk.inj h1
  obtain ⟨buf, s3, h2, h3⟩ := bind_eq_ok h0
  rw [read_apply] at h2
  obtain ⟨g2, rfl⟩ := Prod.mk.inj h2
  rw [lift_apply] at h3
  obtain ⟨g3, rfl⟩ := Prod.mk.inj h3
  obtain rfl := Except.ok.inj g2
  have hl : ((s.data.drop s.pos).take n).length = n := by
    by_contra hc
    rw [unpack_short g1 hs hn hc] at g3
    cases g3
  refine ⟨Nat.le_add_right _ _, rfl, ?_⟩
  intro d hd ht
  simp only [hl, Nat.add_sub_cancel_left] at ht
  have hsl : (d.drop s.pos).take n = (s.data.drop s.pos).take n := ht
  rw [g1, bind_ok (lift_apply _ _), bind_ok (read_apply _ _), lift_apply]
  simp only [hsl, g3]

/-! ## Overwriting -/

theorem overwrite_slice (d bs : Bytes) (pos a n : Nat) (hp : pos ≤ d.length)
    (h : a + n ≤ pos ∨ pos + bs.length ≤ a) :
    ((overwrite d pos bs).drop a).take n = (d.drop a).take n := by
  by_cases hbs : bs = []
  · subst hbs; rfl
  apply List.ext_getElem?
  intro k
  rw [List.getElem?_take, List.getElem?_take]
  split
  · rw [List.getElem?_drop, List.getElem?_drop, overwrite_getElem? _ _ _ _ hbs]
    rcases h with h | h
    · rw [if_pos (by omega), if_pos (by omega)]
    · rw [if_neg (by omega), if_neg (by omega)]
  · rfl

theorem overwrite_grows (d bs : Bytes) (pos : Nat) : d.length ≤ (overwrite d pos bs).length := by
  by_cases hbs : bs = []
  · subst hbs; rfl
  · rw [overwrite_length _ _ _ hbs]; omega

theorem overwrite_bound (d bs : Bytes) (pos m : Nat) (h : d.length < m) (h' : pos + bs.length < m) :
    (overwrite d pos bs).length < m := by
  by_cases hbs : bs = []
  · subst hbs; exact h
  · rw [overwrite_length _ _ _ hbs]; omega

/-! ## Traces that are changed in place -/

/-- Where traces with `n i` samples of `size` bytes begin. -/
structure Tiled (starts : List Nat) (n : Nat → Nat) (size first stop : Nat) : Prop where
  first_le : ∀ i (hi : i < starts.length), first ≤ starts[i]
  le_stop : ∀ i (hi : i < starts.length), starts[i] + 240 + n i * size ≤ stop
  apart : ∀ i j (hi : i < starts.length) (hj : j < starts.length), i < j → starts[i] + 240 + n i * size ≤ starts[j]

theorem chain_tiled {T : Format} {e : Endian} {data : Bytes} {bps pos stop : Nat} {starts : List Nat}
    (h : TraceChain T e data bps pos starts stop) :
    Tiled starts (fun i => samplesAt T e data (starts.getD i 0)) bps pos stop := by
  refine ⟨fun i hi => (h.le_stop.2 _ (List.getElem_mem hi)).1, ?_, ?_⟩
  · intro i hi
    have := (h.le_stop.2 _ (List.getElem_mem hi)).2.2.2
    simpa [List.getD_eq_getElem?_getD, List.getElem?_eq_getElem hi] using this
  · induction h with
    | nil => intro i j hi; simp at hi
    | @cons p l stop hc hi hr ih =>
      intro i j hi hj hij
      obtain ⟨j, rfl⟩ : ∃ k, j = k + 1 := ⟨j - 1, by omega⟩
      cases i with
      | zero => exact (hr.le_stop.2 _ (List.getElem_mem (by simpa using hj))).1
      | succ i => exact ih i j (by simpa using hi) (by simpa using hj) (by omega)

/-- A file whose traces have the headers `H i` and samples `S i`, and that is otherwise like `d0`. -/
structure Holds (starts : List Nat) (n : Nat → Nat) (size first stop : Nat) (d0 d : Bytes) (H S : Nat → Bytes) : Prop where
  grows : d0.length ≤ d.length
  bound : d.length < stop + 240
  reel : d.take first = d0.take first
  header : ∀ i (hi : i < starts.length), headerBytes d starts[i] = H i
  samples : ∀ i (hi : i < starts.length), (d.drop (starts[i] + 240)).take (n i * size) = S i

variable {starts : List Nat} {n : Nat → Nat} {size first stop : Nat} {d0 d : Bytes} {H S : Nat → Bytes}

theorem Holds.setHeader (ht : Tiled starts n size first stop) (hfit : ∀ p ∈ starts, p + 240 ≤ d0.length)
    (h : Holds starts n size first stop d0 d H S) (i : Nat) (hi : i < starts.length) (bs : Bytes) (hb : bs.length = 240) :
    Holds starts n size first stop d0 (overwrite d starts[i] bs) (Function.update H i bs) S := by
  have hd : starts[i] + 240 ≤ d.length := le_trans (hfit _ (List.getElem_mem hi)) h.grows
  have hf := ht.first_le i hi
  refine ⟨le_trans h.grows (overwrite_grows _ _ _), overwrite_bound _ _ _ _ h.bound ?_, ?_, ?_, ?_⟩
  · have := h.bound
    omega
  · have := overwrite_slice d bs starts[i] 0 first (by omega) (by omega)
    simp only [List.drop_zero] at this
    rw [this, h.reel]
  · intro j hj
    by_cases hij : j = i
    · subst hij
      rw [Function.update_self]
      unfold headerBytes
      rw [← hb, overwrite_drop]
    · rw [Function.update_of_ne hij, ← h.header j hj]
      unfold headerBytes
      apply overwrite_slice _ _ _ _ _ (by omega)
      rcases Nat.lt_or_gt_of_ne hij with hlt | hlt
      · have := ht.apart j i hj hi hlt
        omega
      · have := ht.apart i j hi hj hlt
        omega
  · intro j hj
    rw [← h.samples j hj]
    apply overwrite_slice _ _ _ _ _ (by omega)
    rcases Nat.lt_trichotomy j i with hlt | rfl | hlt
    · have := ht.apart j i hj hi hlt
      omega
    · omega
    · have := ht.apart i j hi hj hlt
      omega

theorem Holds.setSamples (ht : Tiled starts n size first stop) (hfit : ∀ p ∈ starts, p + 240 ≤ d0.length)
    (h : Holds starts n size first stop d0 d H S) (i : Nat) (hi : i < starts.length) (bs : Bytes)
    (hb : bs.length ≤ n i * size) :
    Holds starts n size first stop d0 (overwrite d (starts[i] + 240) bs) H
      (Function.update S i (((overwrite d (starts[i] + 240) bs).drop (starts[i] + 240)).take (n i * size))) := by
  have hd : starts[i] + 240 ≤ d.length := le_trans (hfit _ (List.getElem_mem hi)) h.grows
  have hf := ht.first_le i hi
  have hs := ht.le_stop i hi
  refine ⟨le_trans h.grows (overwrite_grows _ _ _), overwrite_bound _ _ _ _ h.bound (by omega), ?_, ?_, ?_⟩
  · have := overwrite_slice d bs (starts[i] + 240) 0 first (by omega) (by omega)
    simp only [List.drop_zero] at this
    rw [this, h.reel]
  · intro j hj
    rw [← h.header j hj]
    unfold headerBytes
    apply overwrite_slice _ _ _ _ _ (by omega)
    rcases Nat.lt_trichotomy j i with hlt | rfl | hlt
    · have := ht.apart j i hj hi hlt
      omega
    · omega
    · have := ht.apart i j hi hj hlt
      omega
  · intro j hj
    by_cases hij : j = i
    · subst hij
      rw [Function.update_self]
    · rw [Function.update_of_ne hij, ← h.samples j hj]
      apply overwrite_slice _ _ _ _ _ (by omega)
      rcases Nat.lt_or_gt_of_ne hij with hlt | hlt
      · have := ht.apart j i hj hi hlt
        omega
      · have := ht.apart i j hi hj hlt
        omega

theorem Holds.setAllSamples (ht : Tiled starts n size first stop) (hfit : ∀ p ∈ starts, p + 240 ≤ d0.length)
    (h : Holds starts n size first stop d0 d H S) (i : Nat) (hi : i < starts.length) (bs : Bytes)
    (hb : bs.length = n i * size) :
    Holds starts n size first stop d0 (overwrite d (starts[i] + 240) bs) H (Function.update S i bs) := by
  have := h.setSamples ht hfit i hi bs (le_of_eq hb)
  rw [← hb, overwrite_drop] at this
  exact this

/-! ## What readers find in it -/

/-- The reader finds the traces at `starts`, with `n i` samples each. -/
structure Finds (starts : List Nat) (n : Nat → Nat) (t : SegYType) (e : Endian) (p : HeaderPacker) (r : Reader) : Prop where
  num : r.numTraces = .ok starts.length
  offset : ∀ i (hi : i < starts.length), r.trace_offset_catalog.get i = .ok (starts[i] : Int)
  length : ∀ i (_ : i < starts.length), r.numTraceSamples i = .ok (n i : Int)
  format : r.dataSampleFormat = .ok t
  endian : r.endian = e
  packer : r.trace_header_packer = p

theorem Opened.finds {T : Format} {e : Endian} (hT : Cataloguable T e) {dim : Option Int} {data : Bytes} {pos : Nat}
    {t : SegYType} {r : Reader} {p : HeaderPacker} (hp : makeHeaderPacker T e = .ok p)
    (ho : Opened T e dim data pos t starts r) :
    Finds starts (fun i => samplesAt T e data (starts.getD i 0)) t e p r := by
  refine ⟨?_, fun i hi => ho.offset.get_number hi, ?_, ho.format, ho.endian, ?_⟩
  · unfold Reader.numTraces
    rw [ho.offset.len, byNumber_length]
  · intro i hi
    unfold Reader.numTraceSamples
    rw [ho.length.get_number hi, (Props.start_facts hT ho (List.getElem_mem hi)).2.2]
    simp [List.getD_eq_getElem?_getD, List.getElem?_eq_getElem hi]
  · have := ho.packer
    rw [hp] at this
    exact (Except.ok.inj this).symm

theorem readTraceHeader_at (pk : HeaderPacker) (pos : Nat) (s : FileH) :
    (readTraceHeader pk pos s).1 = match pk.unpack (headerBytes s.data pos) with
      | .ok h => .ok h
      | .error err => .error (if err.isValueError then .eofError else err) := by
  unfold readTraceHeader
  have h240 : TRACE_HEADER_NUM_BYTES = 240 := rfl
  rw [bind_ok (seek_apply _ _), h240, bind_ok (read_apply _ _)]
  simp only
  change ((match pk.unpack (headerBytes s.data pos) with
    | .ok h => (pure h : FileM Header)
    | .error e => raise (if e.isValueError = true then .eofError else e)) _ |>.1) = _
  cases pk.unpack (headerBytes s.data pos) <;> rfl

variable {t : SegYType} {e : Endian} {p : HeaderPacker} {r q : Reader}

theorem Finds.header_at (hr : Finds starts n t e p r) (i : Nat) (hi : i < starts.length) (packer : Option HeaderPacker)
    (s : FileH) : (r.traceHeader i packer s).1 = (readTraceHeader (packer.getD p) starts[i] s).1 := by
  rw [traceHeader_eq, hr.num]
  simp only
  rw [if_neg (by omega), hr.offset i hi, hr.packer]

theorem Finds.header_same (hr : Finds starts n t e p r) (hq : Finds starts n t e p q) (i : Nat) (hi : i < starts.length)
    (packer : Option HeaderPacker) (s s' : FileH) (h : headerBytes s'.data starts[i] = headerBytes s.data starts[i]) :
    (q.traceHeader i packer s').1 = (r.traceHeader i packer s).1 := by
  rw [hr.header_at i hi, hq.header_at i hi, readTraceHeader_at, readTraceHeader_at, h]

theorem values_same (native : Endian) (a m : Nat) (t : SegYType) (e : Endian) (s s' : FileH)
    (h : (s'.data.drop a).take (m * t.size) = (s.data.drop a).take (m * t.size)) :
    (readBinaryValues native a t m e s').1 = (readBinaryValues native a t m e s).1 := by
  unfold readBinaryValues
  have hbs : ((t.size : Int) * (m : Int)) = ((m * t.size : Nat) : Int) := by push_cast; ring
  simp only [hbs]
  rw [bind_ok (seek_apply a s), bind_ok (seek_apply a s'), bind_ok (read_apply _ _), bind_ok (read_apply _ _)]
  simp only [h]
  split
  · rfl
  · cases (if t = .ibm then unpackIbmFloats ((s.data.drop a).take (m * t.size)) m
      else unpackValues native ((s.data.drop a).take (m * t.size)) t e) with
    | error err => rfl
    | ok vs =>
      rw [bind_ok (lift_apply _ _), bind_ok (lift_apply _ _)]
      split <;> rfl

theorem Finds.locate (hr : Finds starts n t e p r) (i : Nat) (hi : i < starts.length) (start stop : Option Int) :
    r.locateSamples i start stop =
      (if ¬ (0 ≤ stop.getD (n i) ∧ stop.getD (n i) ≤ n i) then .error .valueError
       else if ¬ (0 ≤ start.getD 0 ∧ start.getD 0 ≤ stop.getD (n i)) then .error .valueError
       else .ok ((starts[i] : Int) + 240 + start.getD 0 * t.size, t, stop.getD (n i) - start.getD 0)) := by
  unfold Reader.locateSamples
  simp only [hr.num, hr.length i hi, hr.format, hr.offset i hi, bind, Except.bind, pure, Except.pure]
  rw [if_neg (by omega)]
  rfl

theorem Finds.samples_range (hr : Finds starts n t e p r) (hq : Finds starts n t e p q) (native : Endian) (i : Nat)
    (hi : i < starts.length) (start stop : Option Int) (s s' : FileH)
    (h : ∀ a b : Nat, start.getD 0 = a → stop.getD (n i) = b → a ≤ b → b ≤ n i →
      (s'.data.drop (starts[i] + 240 + a * t.size)).take ((b - a) * t.size) =
        (s.data.drop (starts[i] + 240 + a * t.size)).take ((b - a) * t.size)) :
    (q.traceSamples native i start stop s').1 = (r.traceSamples native i start stop s).1 := by
  rw [traceSamples_eq, traceSamples_eq, hr.locate i hi, hq.locate i hi, hr.endian, hq.endian]
  by_cases h1 : 0 ≤ stop.getD (n i) ∧ stop.getD (n i) ≤ n i
  · rw [if_neg (not_not.mpr h1)]
    by_cases h2 : 0 ≤ start.getD 0 ∧ start.getD 0 ≤ stop.getD (n i)
    · rw [if_neg (not_not.mpr h2)]
      simp only
      obtain ⟨b, hb⟩ := Int.eq_ofNat_of_zero_le h1.1
      obtain ⟨a, ha⟩ := Int.eq_ofNat_of_zero_le h2.1
      rw [hb, ha] at h2
      rw [hb] at h1
      have hab := h a b ha hb (by omega) (by omega)
      rw [ha, hb]
      have e1 : ((starts[i] : Int) + 240 + (a : Int) * (t.size : Int)) = ((starts[i] + 240 + a * t.size : Nat) : Int) := by
        push_cast; ring
      have e2 : ((b : Int) - (a : Int)) = ((b - a : Nat) : Int) := by omega
      rw [e1, e2]
      exact values_same _ _ _ _ _ _ _ hab
    · rw [if_pos h2]
  · rw [if_pos h1]

theorem Finds.samples_same (hr : Finds starts n t e p r) (hq : Finds starts n t e p q) (native : Endian) (i : Nat)
    (hi : i < starts.length) (start stop : Option Int) (s s' : FileH)
    (h : (s'.data.drop (starts[i] + 240)).take (n i * t.size) = (s.data.drop (starts[i] + 240)).take (n i * t.size)) :
    (q.traceSamples native i start stop s').1 = (r.traceSamples native i start stop s).1 := by
  apply hr.samples_range hq native i hi
  intro a b _ _ hab hbn
  have hm : b * t.size ≤ n i * t.size := Nat.mul_le_mul_right _ hbn
  have hm2 : a * t.size + (b - a) * t.size = b * t.size := by
    rw [← Nat.add_mul]; congr 1; omega
  rw [← List.drop_drop, ← List.drop_drop (l := s.data)]
  exact slice_of_take h (by omega)

/-! ## The changed file opens -/

theorem Holds.traces {T : Format} {e : Endian} {bps : Nat} {pos : Nat} (hc : TraceChain T e d0 bps pos starts stop)
    (hgrow : d0.length ≤ d.length) (hbound : d.length < stop + 240)
    (hidx : ∀ q ∈ starts, Indexable T e d q) (hnum : ∀ q ∈ starts, samplesAt T e d q = samplesAt T e d0 q) :
    Traces T e d bps pos starts := by
  refine ⟨stop, ?_, hbound⟩
  clear hbound
  induction hc with
  | nil p => exact TraceChain.nil p
  | cons h1 _ _ ih =>
    refine TraceChain.cons (by omega) (hidx _ List.mem_cons_self) ?_
    rw [hnum _ List.mem_cons_self]
    exact ih (fun q hq => hidx q (List.mem_cons_of_mem _ hq)) (fun q hq => hnum q (List.mem_cons_of_mem _ hq))

end Segpy
