import Verif.Model.Reader
import Verif.Lemmas.Scan
import Verif.Props.Samples

/-! # Lemmas about readers -/

namespace Segpy

open Spec

/-! ## Computations that only read -/

/-- The computation changes nothing but the position of the file. -/
def FileM.Reads {α : Type} (m : FileM α) : Prop := ∀ s, ∃ k, (m s).2 = { s with pos := k }

namespace FileM

theorem reads_pure {α : Type} (a : α) : Reads (pure a : FileM α) := fun s => ⟨s.pos, rfl⟩
theorem reads_raise {α : Type} (e : Err) : Reads (raise e : FileM α) := fun s => ⟨s.pos, rfl⟩
theorem reads_lift {α : Type} (r : Res α) : Reads (lift r) := fun s => ⟨s.pos, rfl⟩
theorem reads_tell : Reads tell := fun s => ⟨s.pos, rfl⟩

theorem reads_seek (p : Int) : Reads (seek p) := by
  intro s
  unfold seek
  split
  · exact ⟨s.pos, rfl⟩
  · exact ⟨p.toNat, rfl⟩

theorem reads_read (n : Int) : Reads (read n) := fun _ => ⟨_, rfl⟩

theorem reads_bind {α β : Type} {m : FileM α} {f : α → FileM β} (hm : Reads m) (hf : ∀ a, Reads (f a)) :
    Reads (m >>= f) := by
  intro s
  obtain ⟨k, hk⟩ := hm s
  rw [bind_apply]
  split
  · rename_i a s' h
    rw [h] at hk
    simp only at hk
    subst hk
    obtain ⟨k', hk'⟩ := hf a { s with pos := k }
    exact ⟨k', hk'⟩
  · rename_i e s' h
    rw [h] at hk
    exact ⟨k, hk⟩

theorem reads_ite {α : Type} {c : Prop} [Decidable c] {m n : FileM α} (hm : Reads m) (hn : Reads n) :
    Reads (if c then m else n) := by split <;> assumption

/-- A successful step in a sequence. -/
theorem bind_eq_ok {α β : Type} {m : FileM α} {f : α → FileM β} {s s'' : FileH} {b : β}
    (h : (m >>= f) s = (.ok b, s'')) : ∃ a s', m s = (.ok a, s') ∧ f a s' = (.ok b, s'') := by
  rw [bind_apply] at h
  split at h
  · rename_i a s' hm; exact ⟨a, s', hm, h⟩
  · cases h

theorem lift_eq_ok {α : Type} {r : Res α} {s s' : FileH} {a : α} (h : lift r s = (.ok a, s')) : r = .ok a ∧ s' = s := by
  unfold lift at h
  cases h
  exact ⟨rfl, rfl⟩

theorem Reads.ok {α : Type} {m : FileM α} (hm : Reads m) {s s' : FileH} {a : Res α} (h : m s = (a, s')) :
    ∃ k, s' = { s with pos := k } := by
  obtain ⟨k, hk⟩ := hm s
  rw [h] at hk
  exact ⟨k, hk⟩

end FileM

open FileM

theorem reads_guess : Reads guessTextualHeaderEncoding := by
  unfold guessTextualHeaderEncoding
  exact reads_bind reads_tell fun _ => reads_bind (reads_seek _) fun _ => reads_bind (reads_read _) fun _ =>
    reads_bind (reads_seek _) fun _ => reads_pure _

theorem reads_textual (enc : Encoding) : Reads (readTextualReelHeader enc) := by
  unfold readTextualReelHeader
  exact reads_bind (reads_read _) fun _ => reads_ite (reads_raise _) (reads_lift _)

theorem reads_until (enc : Encoding) (fuel : Nat) (l : List (List PyStr)) : Reads (readExtendedUntilEndLoop enc fuel l) := by
  induction fuel generalizing l with
  | zero => exact reads_raise _
  | succ fuel ih =>
    unfold readExtendedUntilEndLoop
    refine reads_bind (reads_textual _) fun _ => reads_bind (reads_lift _) fun b => ?_
    exact reads_ite (reads_pure _) (ih _)

theorem reads_counted (enc : Encoding) (n left i : Nat) (l : List (List PyStr)) :
    Reads (readExtendedCountedLoop enc n left i l) := by
  induction left generalizing i l with
  | zero => exact reads_pure _
  | succ fuel ih =>
    unfold readExtendedCountedLoop
    refine reads_bind (reads_textual _) fun _ => reads_bind (reads_lift _) fun b => ?_
    exact reads_ite (reads_raise _) (ih _ _)

theorem reads_extended (n : Int) (enc : Encoding) : Reads (readExtendedTextualHeaders n enc) := by
  unfold readExtendedTextualHeaders
  refine reads_bind (reads_seek _) fun _ => reads_ite ?_ ?_
  · intro s
    exact reads_until enc _ _ s
  · unfold readExtendedHeadersCounted
    exact reads_ite (reads_raise _) (reads_counted _ _ _ _ _)

theorem reads_extendedOf (h : Header) (enc : Encoding) : Reads (readExtendedHeadersOf h enc) :=
  reads_bind (reads_lift _) fun _ => reads_extended _ _

theorem reads_binary (B : Format) (e : Endian) : Reads (readBinaryReelHeader B e) := by
  unfold readBinaryReelHeader
  refine reads_bind (reads_lift _) fun _ => ?_
  split
  · exact reads_raise _
  · exact reads_bind (reads_read _) fun _ => reads_lift _

theorem reads_traceHeader (p : HeaderPacker) (pos : Int) : Reads (readTraceHeader p pos) := by
  unfold readTraceHeader
  refine reads_bind (reads_seek _) fun _ => reads_bind (reads_read _) fun _ => ?_
  split
  · exact reads_pure _
  · exact reads_raise _

theorem reads_values (native : Endian) (pos : Int) (t : SegYType) (n : Int) (e : Endian) :
    Reads (readBinaryValues native pos t n e) := by
  unfold readBinaryValues
  refine reads_bind (reads_seek _) fun _ => reads_bind (reads_read _) fun _ => reads_ite (reads_raise _) ?_
  exact reads_bind (reads_lift _) fun _ => reads_ite (reads_raise _) (reads_pure _)

theorem reads_loop (p : HeaderPacker) (bps length fuel n : Nat) (pos : Int) (scan : Scan) :
    Reads (catalogLoop p bps length fuel n pos scan) := by
  induction fuel generalizing n pos scan with
  | zero => exact reads_raise _
  | succ fuel ih =>
    unfold catalogLoop
    refine reads_bind (reads_lift _) fun _ => reads_bind (reads_seek _) fun _ => reads_bind (reads_read _) fun _ => ?_
    exact reads_ite (reads_pure _) (reads_bind (reads_lift _) fun _ => ih _ _ _)

theorem reads_catalogTraces (bps : Nat) (T : Format) (e : Endian) : Reads (catalogTraces bps T e) := by
  intro s
  refine (?_ : Reads (catalogTracesFuel (s.data.length + 1) bps T e)) s
  unfold catalogTracesFuel
  refine reads_bind (reads_lift _) fun _ => reads_bind (reads_lift _) fun _ => reads_bind (fun s => ⟨s.pos, rfl⟩) fun _ =>
    reads_bind reads_tell fun _ => reads_bind (reads_loop _ _ _ _ _ _ _) fun _ => reads_lift _

theorem reads_makeReader (enc : Option Encoding) (B T : Format) (e : Endian) (dim : Option Int) :
    Reads (makeReader enc B T e dim) := by
  unfold makeReader
  refine reads_bind ?_ fun _ => reads_bind (reads_textual _) fun _ => reads_bind (reads_binary _ _) fun _ =>
    reads_bind (reads_extendedOf _ _) fun _ => reads_bind (reads_lift _) fun _ =>
    reads_bind (reads_catalogTraces _ _ _) fun _ => reads_bind (reads_lift _) fun _ => reads_pure _
  cases enc with
  | none => exact reads_guess
  | some _ => exact reads_pure _

theorem reads_createReader (enc : Option Encoding) (B T : Format) (e : Endian) (dim : Option Int) :
    Reads (createReader enc B T e dim) := by
  unfold createReader
  refine reads_bind (fun s => ⟨s.pos, rfl⟩) fun _ => reads_ite (reads_raise _) (reads_ite (reads_raise _) ?_)
  exact reads_bind (reads_makeReader _ _ _ _ _) fun _ => reads_pure _

/-- What opening a file successfully consists of. -/
theorem createReader_ok {encoding : Option Encoding} {B T : Format} {e : Endian} {dim : Option Int} {s s' : FileH}
    {r : Reader} {progress : List ℚ} (h : createReader encoding B T e dim s = (.ok (r, progress), s')) :
    ∃ enc textual binary extended bps catalogs k1 k2 k3 k4,
      ((encoding = some enc ∧ k1 = s.pos) ∨ (encoding = none ∧ ∃ o : Option Encoding, o.getD .ascii = enc ∧
        guessTextualHeaderEncoding s = (.ok o, { s with pos := k1 }))) ∧
      readTextualReelHeader enc { s with pos := k1 } = (.ok textual, { s with pos := k2 }) ∧
      readBinaryReelHeader B e { s with pos := k2 } = (.ok binary, { s with pos := k3 }) ∧
      readExtendedHeadersOf binary enc { s with pos := k3 } = (.ok extended, { s with pos := k4 }) ∧
      headerBytesPerSample binary = .ok bps ∧
      catalogTraces bps T e { s with pos := k4 } = (.ok catalogs, s') ∧
      makeReaderOf dim textual binary extended catalogs T enc e = .ok r ∧
      progress = catalogs.progress ++ [1] ∧ dim ∈ [none, some 1, some 2, some 3] ∧ 3600 ≤ s.data.length := by
  unfold createReader at h
  obtain ⟨n, s1, h1, h⟩ := bind_eq_ok h
  unfold fileLength at h1
  cases h1
  split at h
  · cases h
  rename_i hlen
  split at h
  · cases h
  rename_i hdim
  push Not at hdim
  obtain ⟨⟨r', p'⟩, s1, h1, h⟩ := bind_eq_ok h
  simp only [pure_apply, Prod.mk.injEq, Except.ok.injEq] at h
  obtain ⟨⟨rfl, rfl⟩, rfl⟩ := h
  unfold makeReader at h1
  obtain ⟨o, s2, h2, h1⟩ := bind_eq_ok h1
  obtain ⟨textual, s3, h3, h1⟩ := bind_eq_ok h1
  obtain ⟨binary, s4, h4, h1⟩ := bind_eq_ok h1
  obtain ⟨extended, s5, h5, h1⟩ := bind_eq_ok h1
  obtain ⟨bps, s6, h6, h1⟩ := bind_eq_ok h1
  obtain ⟨catalogs, s7, h7, h1⟩ := bind_eq_ok h1
  obtain ⟨r', s8, h8, h1⟩ := bind_eq_ok h1
  simp only [pure_apply, Prod.mk.injEq, Except.ok.injEq] at h1
  obtain ⟨⟨rfl, rfl⟩, rfl⟩ := h1
  obtain ⟨g6, rfl⟩ := lift_eq_ok h6
  obtain ⟨g8, rfl⟩ := lift_eq_ok h8
  have hk1 : ∃ k1, s2 = { s with pos := k1 } := by
    cases encoding with
    | none => exact reads_guess.ok h2
    | some _ => exact (reads_pure _).ok h2
  obtain ⟨k1, rfl⟩ := hk1
  obtain ⟨k2, rfl⟩ := (reads_textual _).ok h3
  obtain ⟨k3, rfl⟩ := (reads_binary _ _).ok h4
  obtain ⟨k4, rfl⟩ := (reads_extendedOf _ _).ok h5
  refine ⟨o.getD .ascii, textual, binary, extended, bps, catalogs, k1, k2, k3, k4, ?_, h3, h4, h5, g6, h7, g8, rfl, hdim,
    by have : REEL_HEADER_NUM_BYTES = 3600 := rfl; omega⟩
  cases encoding with
  | none => exact Or.inr ⟨rfl, o, rfl, h2⟩
  | some x =>
    left
    simp only [pure_apply, Prod.mk.injEq, Except.ok.injEq] at h2
    obtain ⟨rfl, h2⟩ := h2
    refine ⟨rfl, ?_⟩
    have := congrArg FileH.pos h2
    exact this.symm

/-! ## Reading samples -/

/-- The number read from the bytes of one sample. -/
def decodeSample (native e : Endian) (t : SegYType) (item : Bytes) : PyNum :=
  match t with
  | .ibm => match IBMFloat.fromBytes item with
    | .ok x => .ibm x
    | .error _ => .int 0
  | t => arrayItem native t (if e ≠ native then item.reverse else item)

/-- The samples decoded from a position on. -/
def samplesFrom (native e : Endian) (t : SegYType) (data : Bytes) (pos n : Nat) : List PyNum :=
  (List.range n).map fun k => decodeSample native e t ((data.drop (pos + k * t.size)).take t.size)

theorem itemsOf_eq (size n : Nat) (buf : Bytes) :
    itemsOf size n buf = (List.range n).map fun k => (buf.drop (k * size)).take size := by
  induction n generalizing buf with
  | zero => rfl
  | succ n ih =>
    rw [itemsOf, ih, List.range_succ_eq_map, List.map_cons, List.map_map]
    congr 1
    · simp
    · apply List.map_congr_left
      intro k _
      simp only [Function.comp, List.drop_drop, Nat.succ_mul]
      congr 2
      omega

theorem SegYType.size_pos (t : SegYType) : 0 < t.size := by
  cases t with
  | int t => cases t <;> decide
  | float32 => decide
  | ibm => decide

theorem slice_items (data : Bytes) (pos size n k : Nat) (h : k < n) :
    (((data.drop pos).take (n * size)).drop (k * size)).take size = (data.drop (pos + k * size)).take size := by
  have : k * size + size ≤ n * size := by rw [← Nat.succ_mul]; exact Nat.mul_le_mul_right _ h
  rw [List.drop_take, List.take_take, List.drop_drop, Nat.min_eq_left (by omega)]

theorem mapM_fromBytes (l : List Bytes) (h : ∀ b ∈ l, b.length = 4) (native e : Endian) :
    ∃ xs, l.mapM IBMFloat.fromBytes = .ok xs ∧ xs.map PyNum.ibm = l.map (decodeSample native e .ibm) := by
  induction l with
  | nil => exact ⟨[], rfl, rfl⟩
  | cons b l ih =>
    obtain ⟨xs, h1, h2⟩ := ih fun b hb => h b (List.mem_cons_of_mem _ hb)
    have hb := h b List.mem_cons_self
    obtain ⟨x, hx⟩ : ∃ x, IBMFloat.fromBytes b = .ok x := by
      match b, hb with
      | [p, q, r, s], _ => exact ⟨_, rfl⟩
    refine ⟨x :: xs, ?_, ?_⟩
    · rw [List.mapM_cons, hx, h1]; rfl
    · rw [List.map_cons, List.map_cons, h2]
      congr 1
      unfold decodeSample
      rw [hx]

/-- Reading samples that are all in the file. -/
theorem readBinaryValues_ok (native e : Endian) (t : SegYType) (n pos : Nat) (s : FileH)
    (h : pos + n * t.size ≤ s.data.length ∨ n = 0) :
    readBinaryValues native pos t n e s =
      (.ok (samplesFrom native e t s.data pos n), { s with pos := pos + n * t.size }) := by
  have hlen : ((s.data.drop pos).take (n * t.size)).length = n * t.size := by
    rw [List.length_take, List.length_drop]
    rcases h with h | h
    · omega
    · subst h; simp
  have hbs : ((t.size : Int) * (n : Int)) = ((n * t.size : Nat) : Int) := by push_cast; ring
  have hitems : ∀ b ∈ itemsOf t.size n ((s.data.drop pos).take (n * t.size)), b.length = t.size :=
    itemsOf_item _ _ _ (le_of_eq hlen.symm)
  have heq : (itemsOf t.size n ((s.data.drop pos).take (n * t.size))).map (decodeSample native e t) =
      samplesFrom native e t s.data pos n := by
    rw [itemsOf_eq, List.map_map]
    unfold samplesFrom
    apply List.map_congr_left
    intro k hk
    simp only [Function.comp]
    rw [slice_items _ _ _ _ _ (List.mem_range.mp hk)]
  have hvals : (if t = .ibm then unpackIbmFloats ((s.data.drop pos).take (n * t.size)) n
      else unpackValues native ((s.data.drop pos).take (n * t.size)) t e) =
      .ok (samplesFrom native e t s.data pos n) := by
    by_cases ht : t = .ibm
    · rw [if_pos ht]
      subst ht
      obtain ⟨xs, h1, h2⟩ := mapM_fromBytes _ hitems native e
      unfold unpackIbmFloats
      simp only [Int.toNat_natCast]
      rw [show (4 : Nat) = SegYType.ibm.size from rfl, h1]
      simp only [bind, Except.bind, pure, Except.pure]
      rw [h2, heq]
    · rw [if_neg ht]
      unfold unpackValues
      rw [if_neg (by rw [hlen]; simp)]
      have hdiv : ((s.data.drop pos).take (n * t.size)).length / t.size = n := by
        rw [hlen, Nat.mul_div_cancel _ t.size_pos]
      rw [hdiv, ← heq]
      have hd : decodeSample native e t = fun item => arrayItem native t (if e ≠ native then item.reverse else item) := by
        funext item
        cases t with
        | ibm => exact absurd rfl ht
        | int t => rfl
        | float32 => rfl
      rw [hd]
      by_cases hen : e ≠ native
      · simp only [if_pos hen, List.map_map]; rfl
      · simp only [if_neg hen]
  unfold readBinaryValues
  simp only [hbs]
  rw [bind_ok (seek_apply pos s), bind_ok (read_apply _ _)]
  simp only [hlen]
  rw [if_neg (by omega), hvals, bind_ok (lift_apply _ _)]
  rw [if_neg (by unfold samplesFrom; simp)]
  rfl

/-- Reading samples that are not all in the file. -/
theorem readBinaryValues_eof (native e : Endian) (t : SegYType) (n pos : Nat) (s : FileH)
    (h : s.data.length < pos + n * t.size) (hn : n ≠ 0) :
    ∃ k, readBinaryValues native pos t n e s = (.error .eofError, { s with pos := k }) := by
  have h1 := Props.C42_read_short native e t n pos s h (Nat.mul_pos (Nat.pos_of_ne_zero hn) t.size_pos)
  obtain ⟨k, hk⟩ := reads_values native pos t n e s
  exact ⟨k, Prod.ext h1 hk⟩

end Segpy
