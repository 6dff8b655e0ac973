import Verif.Model.IbmObject
import Verif.Lemmas.Copy
import Verif.Lemmas.ExampleFile
import Verif.Lemmas.Packer2

/-! # Properties of `IBMFloat` objects: C100 -/

namespace Segpy.Props

open Segpy.Spec Segpy.FileM

/-! ## C100 constructing, pickling and copying IBM floats -/

private theorem items_ok {items : List Int} {bs : Bytes} :
    (items.mapM fun v => if 0 ≤ v ∧ v < 256 then (Except.ok (UInt8.ofNat v.toNat) : Res UInt8) else .error .valueError) = .ok bs ↔
      items = bs.map fun b => (b.toNat : Int) := by
  induction items generalizing bs with
  | nil =>
    rw [List.mapM_nil]
    constructor
    · intro h
      cases h
      rfl
    · intro h
      cases bs with
      | nil => rfl
      | cons b bs => cases h
  | cons v items ih =>
    rw [List.mapM_cons]
    constructor
    · intro h
      obtain ⟨b, h1, h⟩ := res_bind_ok h
      obtain ⟨bs', h2, h⟩ := res_bind_ok h
      cases h
      split at h1
      · rename_i hv
        cases h1
        rw [List.map_cons, ← ih.mp h2]
        congr 1
        rw [UInt8.toNat_ofNat']
        omega
      · cases h1
    · intro h
      cases bs with
      | nil => cases h
      | cons b bs =>
        rw [List.map_cons] at h
        obtain ⟨rfl, hi⟩ := List.cons.inj h
        have hb := b.toNat_lt
        rw [if_pos ⟨by omega, by omega⟩, ih.mpr hi]
        show (Except.ok (UInt8.ofNat (b.toNat : Int).toNat :: bs) : Res Bytes) = .ok (b :: bs)
        rw [Int.toNat_natCast, UInt8.ofNat_toNat]

/-- An `IBMFloat` is constructed from the values of its four bytes, or from an `IBMFloat`; and, unexpectedly, from the
number 4.  Anything else raises `ValueError` or `TypeError`. -/
theorem C100_constructs_partial (b : BytesArg) :
    (∀ x : IBMFloat, IBMFloat.new b = .ok x ↔
      b = .ints (x.toBytes.map fun v => (v.toNat : Int)) ∨ b = .ibm x ∨ (b = .int 4 ∧ x.toBytes = [0, 0, 0, 0])) ∧
    (∀ err, IBMFloat.new b = .error err → err = .valueError ∨ err = .typeError) := by
  have hfrom : ∀ (bs : Bytes) (x : IBMFloat), IBMFloat.fromBytes bs = .ok x ↔ bs = x.toBytes := by
    intro bs x
    unfold IBMFloat.fromBytes IBMFloat.toBytes
    constructor
    · intro h
      split at h
      · cases h
        rfl
      · cases h
    · rintro rfl
      rfl
  have herr : ∀ (bs : Bytes) err, IBMFloat.fromBytes bs = .error err → err = .valueError := by
    intro bs err h
    unfold IBMFloat.fromBytes at h
    split at h
    · cases h
    · exact (Except.error.inj h).symm
  unfold IBMFloat.new
  cases b with
  | ints items =>
    simp only [BytesArg.toBytes]
    refine ⟨fun x => ?_, fun err h => ?_⟩
    · constructor
      · intro h
        obtain ⟨bs, h1, h2⟩ := res_bind_ok h
        rw [hfrom] at h2
        subst h2
        left
        rw [items_ok.mp h1]
      · rintro (h | h | ⟨h, -⟩)
        · injection h with h
          rw [items_ok.mpr h]
          exact (hfrom _ _).mpr rfl
        · cases h
        · cases h
    · cases hm : (items.mapM fun v => if 0 ≤ v ∧ v < 256 then (Except.ok (UInt8.ofNat v.toNat) : Res UInt8) else
          .error .valueError) with
      | ok bs =>
        rw [hm] at h
        exact Or.inl (herr _ _ h)
      | error e =>
        rw [hm] at h
        obtain ⟨v, -, hv⟩ := mapM_error hm
        split at hv
        · cases hv
        · cases hv
          exact Or.inl (Except.error.inj h).symm
  | int n =>
    simp only [BytesArg.toBytes]
    by_cases hn : n < 0
    · rw [if_pos hn]
      refine ⟨fun x => ⟨fun h => absurd h (by simp [bind, Except.bind]), ?_⟩, fun err h => Or.inl (Except.error.inj h).symm⟩
      rintro (h | h | ⟨h, -⟩)
      · cases h
      · cases h
      · injection h with h
        omega
    · rw [if_neg hn]
      refine ⟨fun x => ?_, fun err h => Or.inl (herr _ _ h)⟩
      show IBMFloat.fromBytes _ = .ok x ↔ _
      rw [hfrom]
      constructor
      · intro h
        have hl := congrArg List.length h
        rw [List.length_replicate] at hl
        have h4 : n = 4 := by
          have : x.toBytes.length = 4 := rfl
          omega
        subst h4
        exact Or.inr (Or.inr ⟨rfl, h.symm⟩)
      · rintro (h | h | ⟨h, hx⟩)
        · cases h
        · cases h
        · injection h with h
          subst h
          rw [hx]
          rfl
  | ibm y =>
    simp only [BytesArg.toBytes]
    refine ⟨fun x => ?_, fun err h => Or.inl (herr y.toBytes _ h)⟩
    show IBMFloat.fromBytes y.toBytes = .ok x ↔ _
    rw [hfrom]
    constructor
    · intro h
      right; left
      congr 1
      unfold IBMFloat.toBytes at h
      cases x; cases y
      simpa using h
    · rintro (h | h | ⟨h, -⟩)
      · cases h
      · injection h with h
        rw [h]
      · cases h
  | other =>
    refine ⟨fun x => ⟨fun h => absurd h (by simp [BytesArg.toBytes, bind, Except.bind]), ?_⟩, fun err h => Or.inr (Except.error.inj h).symm⟩
    rintro (h | h | ⟨h, -⟩) <;> cases h

example : IBMFloat.new (.ints [0x42, 0x64, 0, 0]) = .ok ⟨0x42, 0x64, 0, 0⟩ ∧ IBMFloat.new (.ints [0x42, 0x64, 0]) = .error .valueError ∧
    IBMFloat.new (.ints [0x42, 256, 0, 0]) = .error .valueError ∧ IBMFloat.new .other = .error .typeError := by decide +kernel

/-- `IBMFloat(4)` is neither refused nor 4: it is 0. -/
theorem C100_four_fails : ∃ x, IBMFloat.new (.int 4) = .ok x ∧ x.value = 0 := ⟨⟨0, 0, 0, 0⟩, rfl, by decide +kernel⟩

/-- No `IBMFloat` can be pickled and loaded again, or copied. -/
theorem C100_pickle_fails (x : IBMFloat) (protocol : Nat) : x.pickled protocol = .error .typeError := by
  unfold IBMFloat.pickled IBMFloat.reduceEx
  split <;> rfl

/-- With protocol 0 or 1 it is `pickle.dumps` that raises; with all others, the default among them, dumping succeeds, and
what was dumped cannot be loaded. -/
theorem C100_dumped_fails (x : IBMFloat) (protocol : Nat) :
    (protocol < 2 → x.reduceEx protocol = .error .typeError) ∧
    (2 ≤ protocol → ∃ dumped, x.reduceEx protocol = .ok dumped ∧ IBMFloat.rebuild dumped = .error .typeError) := by
  unfold IBMFloat.reduceEx
  refine ⟨fun h => if_pos h, fun h => ⟨_, if_neg (by omega), rfl⟩⟩

private theorem kinds {native : Endian} {pos n : Int} {t : SegYType} {e : Endian} {s : FileH} {vs : List PyNum}
    (h : (readBinaryValues native pos t n e s).1 = .ok vs) :
    (t = .ibm → ∀ v ∈ vs, ∃ x, v = .ibm x) ∧ (t ≠ .ibm → ∀ v ∈ vs, ∀ x, v ≠ .ibm x) := by
  cases hc : readBinaryValues native pos t n e s with
  | mk y s' =>
    rw [hc] at h
    obtain rfl : y = .ok vs := h
    unfold readBinaryValues at hc
    obtain ⟨_, _, -, hc⟩ := bind_eq_ok hc
    obtain ⟨buf, _, -, hc⟩ := bind_eq_ok hc
    split at hc
    · cases hc
    obtain ⟨vs', _, hv, hc⟩ := bind_eq_ok hc
    have hv := (lift_eq_ok hv).1
    split at hc
    · cases hc
    obtain rfl : vs' = vs := Except.ok.inj (Prod.mk.inj hc).1
    constructor
    · rintro rfl v hm
      rw [if_pos rfl] at hv
      unfold unpackIbmFloats at hv
      obtain ⟨xs, -, h2⟩ := res_bind_ok hv
      cases h2
      obtain ⟨x, -, rfl⟩ := List.mem_map.mp hm
      exact ⟨x, rfl⟩
    · intro ht v hm x
      rw [if_neg ht] at hv
      unfold unpackValues at hv
      split at hv
      · cases hv
      cases hv
      obtain ⟨item, -, rfl⟩ := List.mem_map.mp hm
      cases t with
      | ibm => exact absurd rfl ht
      | int _ => exact fun hx => by cases hx
      | float32 => exact fun hx => by cases hx

/-- The samples of a trace, of any reader, can be pickled and loaded again with every protocol, and copied, and stay the
same, if the sample format is not IBM; if it is, that fails unless there are none. -/
theorem C100_samples_partial (r : Reader) (native : Endian) (i : Int) (start stop : Option Int) (s : FileH) (t : SegYType)
    (ht : r.dataSampleFormat = .ok t) (vs : List PyNum) (h : (r.traceSamples native i start stop s).1 = .ok vs)
    (protocol : Nat) :
    (t ≠ .ibm → pickledSamples protocol vs = .ok vs) ∧
    (t = .ibm → vs ≠ [] → pickledSamples protocol vs = .error .typeError) := by
  have hk : (t = .ibm → ∀ v ∈ vs, ∃ x, v = .ibm x) ∧ (t ≠ .ibm → ∀ v ∈ vs, ∀ x, v ≠ .ibm x) := by
    rw [traceSamples_eq] at h
    cases hl : r.locateSamples i start stop with
    | error err => rw [hl] at h; cases h
    | ok y =>
      obtain ⟨p, t', n⟩ := y
      rw [hl] at h
      have htt : t' = t := by
        unfold Reader.locateSamples at hl
        obtain ⟨_, -, hl⟩ := res_bind_ok hl
        split at hl
        · cases hl
        obtain ⟨_, -, hl⟩ := res_bind_ok hl
        dsimp only at hl
        split at hl
        · cases hl
        split at hl
        · cases hl
        obtain ⟨t'', h1, hl⟩ := res_bind_ok hl
        obtain ⟨_, -, hl⟩ := res_bind_ok hl
        rw [ht] at h1
        cases h1
        cases hl
        rfl
      subst htt
      exact kinds h
  constructor
  · intro hne
    have := mapM_ok (PyNum.pickled protocol) id vs fun v hv => by
      cases v with
      | ibm x => exact absurd rfl (hk.2 hne _ hv x)
      | int n => rfl
      | float f => rfl
    rw [List.map_id] at this
    exact this
  · intro he hne
    cases vs with
    | nil => exact absurd rfl hne
    | cons v vs =>
      obtain ⟨x, rfl⟩ := hk.1 he _ List.mem_cons_self
      unfold pickledSamples
      rw [List.mapM_cons]
      have : PyNum.pickled protocol (.ibm x) = .error .typeError := by
        show (do return PyNum.ibm (← x.pickled protocol) : Res PyNum) = _
        rw [C100_pickle_fails]
        rfl
      rw [this]
      rfl

/-- A file of one trace with one sample, given the sample format and the bytes of the sample. -/
private def singleFile (code : UInt8) (sample : Bytes) : FileH :=
  { data := List.replicate 3200 0x40 ++ List.replicate 22 0 ++ [0, 0, 0, code] ++ List.replicate 374 0 ++
      sampleHeader 1 1 5 ++ sample, pos := 0 }

-- a trace of one IBM float, and one of one 16-bit integer
example : ((createReader none fmtBinaryReelHeader fmtTraceHeaderRev1 .big none (singleFile 1 [0x41, 0x10, 0, 0])).1.bind fun x =>
      (x.1.traceSamples .little 0 none none (singleFile 1 [0x41, 0x10, 0, 0])).1) = .ok [.ibm ⟨0x41, 0x10, 0, 0⟩] ∧
    pickledSamples 4 [.ibm ⟨0x41, 0x10, 0, 0⟩] = .error .typeError := by decide +kernel
example : ((createReader none fmtBinaryReelHeader fmtTraceHeaderRev1 .big none (singleFile 3 [1, 0])).1.bind fun x =>
      (x.1.traceSamples .little 0 none none (singleFile 3 [1, 0])).1) = .ok [.int 256] ∧
    pickledSamples 4 [.int 256] = .ok [.int 256] := by decide +kernel

end Segpy.Props
