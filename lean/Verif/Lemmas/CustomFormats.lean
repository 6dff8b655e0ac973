import Verif.Model.CustomFormats
import Verif.Props.Copy
import Verif.Props.Cli

/-! # Lemmas about derived header formats -/

namespace Segpy

open Segpy.Spec Segpy.FileM

/-! ## Formats -/

theorem storable_of {F : Format} (h : ∀ f ∈ F.fields,
    ∀ v ∈ f.value_type.enum.getD [f.value_type.minimum, f.value_type.maximum], f.value_type.segy.Storable v) :
    F.Storable := by
  intro f hf v hv
  have := h f hf
  unfold ValueType.Admits at hv
  cases he : f.value_type.enum with
  | none =>
    rw [he] at this hv
    have h1 := this f.value_type.minimum (by simp)
    have h2 := this f.value_type.maximum (by simp)
    simp only at hv
    revert h1 h2
    cases f.value_type.segy <;> simp only [IntType.Storable] <;> omega
  | some values => rw [he] at this hv; exact this v hv

theorem packs_of {F : Format} {n : Nat} (h : ∀ e ∈ [Endian.big, Endian.little],
    ((makeHeaderPacker F e).map fun p => p.structure_.size) = .ok n) (e : Endian) :
    ∃ p, makeHeaderPacker F e = .ok p := by
  have := h e (by cases e <;> simp)
  cases hp : makeHeaderPacker F e with
  | error err => rw [hp] at this; simp [Except.map] at this
  | ok p => exact ⟨p, rfl⟩

/-! ## Bytes of headers -/

theorem storedInt_inj {e : Endian} {t : IntType} {a b : Bytes} (ha : a.length = t.size) (hb : b.length = t.size)
    (h : storedInt e t a = storedInt e t b) : a = b := by
  rw [storedInt_eq, storedInt_eq] at h
  rw [← encodeInt_decodeInt e t.code.signed a, ← encodeInt_decodeInt e t.code.signed b, h, ha, hb]

/-- Headers that say the same differ only between the fields. -/
theorem headerBytes_eq {T : Format} {e : Endian} {n : Nat} (hstart : T.AfterStart)
    (hfit : ∀ f ∈ T.fields, f.offset - T.startOffset + f.value_type.size ≤ n) {a b : Bytes} (ha : a.length = n)
    (hb : b.length = n)
    (h : ∀ f ∈ T.fields, storedInt e f.value_type.segy (T.fieldBytes f a) = storedInt e f.value_type.segy (T.fieldBytes f b))
    (k : Nat) (hgap : ¬ T.Gap k) : a[k]? = b[k]? := by
  unfold Format.Gap at hgap
  push Not at hgap
  obtain ⟨f, hf, h1, h2⟩ := hgap
  have hs := hstart f hf
  have hm := hfit f hf
  have hl : ∀ x : Bytes, x.length = n → (T.fieldBytes f x).length = f.value_type.size := by
    intro x hx
    unfold Format.fieldBytes slice
    rw [List.length_take, List.length_drop]
    omega
  have heq := storedInt_inj (hl a ha) (hl b hb) (h f hf)
  have hget : ∀ x : Bytes, (hx : x.length = n) →
      (T.fieldBytes f x)[k - (f.offset - T.startOffset).toNat]? = x[k]? := by
    intro x hx
    unfold Format.fieldBytes slice
    rw [List.getElem?_take_of_lt (by omega), List.getElem?_drop]
    congr 1
    omega
  have := hget a ha
  rw [heq, hget b hb] at this
  exact this.symm

/-! ## Opening with a format of the binary reel header that admits more -/

theorem makeReaderOf_binary {dim : Option Int} {textual : List PyStr} {binary binary' : Header}
    {extended : List (List PyStr)} {catalogs : Catalogs} {T : Format} {enc : Encoding} {e : Endian} {r : Reader}
    (h : makeReaderOf dim textual binary extended catalogs T enc e = .ok r)
    (h1 : binary'.get "data_sample_format" = binary.get "data_sample_format")
    (h2 : binary'.get "format_revision_num" = binary.get "format_revision_num") :
    makeReaderOf dim textual binary' extended catalogs T enc e = .ok { r with binary_reel_header := binary' } := by
  have key : ∀ offsets lengths kind, Reader.make textual binary extended offsets lengths T enc e kind = .ok r →
      Reader.make textual binary' extended offsets lengths T enc e kind = .ok { r with binary_reel_header := binary' } := by
    intro offsets lengths kind hm
    unfold Reader.make extractRevision headerBytesPerSample at hm ⊢
    rw [h1, h2]
    obtain ⟨_, e1, hm⟩ := res_bind_ok hm
    obtain ⟨_, e2, hm⟩ := res_bind_ok hm
    obtain ⟨_, e3, hm⟩ := res_bind_ok hm
    rw [e1, e2, e3]
    cases hm
    rfl
  unfold makeReaderOf at h ⊢
  simp only at h ⊢
  split at h
  · cases h
  rename_i hd
  rw [if_neg hd]
  obtain ⟨_, e1, h⟩ := res_bind_ok h
  obtain ⟨_, e2, h⟩ := res_bind_ok h
  obtain ⟨_, e3, h⟩ := res_bind_ok h
  rw [e1, e2, e3]
  simp only [bind, Except.bind]
  split at h
  · rename_i h1; rw [if_pos h1]; exact key _ _ _ h
  rename_i h1
  rw [if_neg h1]
  split at h
  · rename_i h2; rw [if_pos h2]; exact key _ _ _ h
  · rename_i h2; rw [if_neg h2]; exact key _ _ _ h

/-- A file that opens also opens with another format of the binary reel header that can be read and has the same sample
format, revision and number of extended textual headers. -/
theorem createReader_binary' {encoding : Option Encoding} {B B' T : Format} {e : Endian} {dim : Option Int}
    {s s' : FileH} {r : Reader} {progress : List ℚ} (h : createReader encoding B T e dim s = (.ok (r, progress), s'))
    (hread : ∀ pos k binary, readBinaryReelHeader B e { s with pos := pos } = (.ok binary, { s with pos := k }) →
      ∃ binary', readBinaryReelHeader B' e { s with pos := pos } = (.ok binary', { s with pos := k }) ∧
        binary'.format = B' ∧ ∀ f ∈ B.fields, binary'.get f.name = binary.get f.name)
    (hn : ∀ n ∈ ["data_sample_format", "format_revision_num", "num_extended_textual_headers"],
      n ∈ B.fields.map Field.name) :
    ∃ binary', createReader encoding B' T e dim s = (.ok ({ r with binary_reel_header := binary' }, progress), s') ∧
      binary'.format = B' ∧ ∀ f ∈ B.fields, binary'.get f.name = r.binary_reel_header.get f.name := by
  obtain ⟨enc, textual, binary, extended, bps, catalogs, k1, k2, k3, k4, h1, h2, h3, h4, h5, h6, h7, h8, h9, h10⟩ :=
    createReader_ok h
  obtain ⟨binary', g1, g2, g3⟩ := hread _ _ _ h3
  have hname : ∀ n ∈ ["data_sample_format", "format_revision_num", "num_extended_textual_headers"],
      binary'.get n = binary.get n := by
    intro n hnm
    obtain ⟨f, hf, rfl⟩ := List.mem_map.mp (hn n hnm)
    exact g3 f hf
  have hrb : r.binary_reel_header = binary := by
    have e1 := makeReaderOf_binary (binary' := binary) h7 rfl rfl
    rw [h7] at e1
    have := Except.ok.inj e1
    rw [this]
  obtain ⟨q1, ⟨s1, q2⟩, -⟩ := createReader_reel h
  refine ⟨binary', ?_, g2, by rw [hrb]; exact g3⟩
  have hu : enc = Props.usedEncoding encoding s.data ∧ k1 = s.pos := by
    rcases h1 with ⟨rfl, rfl⟩ | ⟨rfl, o, ho, hg⟩
    · exact ⟨rfl, rfl⟩
    · rw [Props.guess_eq] at hg
      simp only [Prod.mk.injEq, Except.ok.injEq] at hg
      refine ⟨?_, ?_⟩
      · rw [← ho, ← hg.1]; rfl
      · exact (congrArg FileH.pos hg.2).symm
  obtain ⟨rfl, rfl⟩ := hu
  rw [Props.create_text h9 h10 h2]
  unfold Props.afterText
  have x4 : readExtendedHeadersOf binary' (Props.usedEncoding encoding s.data) { s with pos := k3 } =
      (.ok extended, { s with pos := k4 }) := by
    rw [← h4]
    unfold readExtendedHeadersOf
    rw [hname _ (by simp)]
  have x5 : headerBytesPerSample binary' = .ok bps := by
    rw [← h5]
    unfold headerBytesPerSample
    rw [hname _ (by simp)]
  rw [bind_ok g1, bind_ok x4, x5, bind_ok (lift_apply _ _), bind_ok h6,
    makeReaderOf_binary h7 (hname _ (by simp)) (hname _ (by simp)), bind_ok (lift_apply _ _), h8]
  rfl

/-! ## Comparing samples -/

theorem PyFloat.eq_self (f : PyFloat) : f.eq f = decide (f ≠ .nan) := by
  cases f <;> simp [PyFloat.eq]

theorem PyNum.eq_self (v : PyNum) : v.eq v = .ok (decide (v ≠ .float .nan)) := by
  cases v with
  | int n => simp [PyNum.eq]
  | float f => simp [PyNum.eq, PyFloat.eq_self]
  | ibm x => simp [PyNum.eq, IBMFloat.eqIbm]

theorem samplesEq_self (l : List PyNum) : samplesEq l l = .ok (decide (PyNum.float .nan ∉ l)) := by
  induction l with
  | nil => rfl
  | cons v l ih =>
    unfold samplesEq
    rw [PyNum.eq_self, ih]
    simp only [bind, Except.bind, pure, Except.pure, List.mem_cons, not_or]
    by_cases h : v = .float .nan
    · subst h; simp
    · have h' : PyNum.float .nan ≠ v := fun x => h x.symm
      simp [h, h']

theorem areEqual_of {a b : Header} (hf : a.format = b.format)
    (h : ∀ f ∈ a.format.fields, ∃ v, a.get f.name = .ok v ∧ b.get f.name = .ok v) : a.areEqual b = .ok true := by
  unfold Header.areEqual
  rw [if_neg (by simp [hf])]
  have : (a.format.orderedFieldNames.mapM fun n => do return decide ((← a.get n) = (← b.get n)))
      = .ok (a.format.orderedFieldNames.map fun _ => true) := by
    apply mapM_ok
    intro n hn
    rw [← Format.names_fields] at hn
    obtain ⟨f, hfm, rfl⟩ := List.mem_map.mp hn
    obtain ⟨v, h1, h2⟩ := h f hfm
    rw [h1, h2]
    simp [bind, Except.bind, pure, Except.pure]
  rw [this]
  simp [bind, Except.bind, pure, Except.pure]

theorem mapM_error_of {α β : Type} {f : α → Res β} {l : List α} {k : Err}
    (h : ∀ x ∈ l, (∃ y, f x = .ok y) ∨ f x = .error k) (hx : ∃ x ∈ l, f x = .error k) : l.mapM f = .error k := by
  cases hm : l.mapM f with
  | error k' =>
    obtain ⟨a, ha, he⟩ := mapM_error hm
    rcases h a ha with ⟨y, hy⟩ | hy
    · rw [hy] at he; cases he
    · rw [hy] at he; cases he; rfl
  | ok ys =>
    rw [mapM_ok_iff] at hm
    obtain ⟨x, hxm, he⟩ := hx
    exfalso
    clear h
    induction hm with
    | nil => cases hxm
    | cons h1 _ ih =>
      rcases List.mem_cons.mp hxm with rfl | hxm
      · rw [h1] at he; cases he
      · exact ih hxm

/-! ## A writer that succeeds has had every trace -/

theorem writeTraces_had {d : Dataset} {p : HeaderPacker} {e : Endian} {l : List Int} {s s' : FileH} {out : List ℚ}
    (h : writeTraces d p e l s = (.ok out, s')) :
    ∀ i ∈ l, (∃ hd, d.trace_header i = .ok hd) ∧ ∃ vs, d.trace_samples i = .ok vs := by
  induction l generalizing s s' out with
  | nil => simp
  | cons i l ih =>
    unfold writeTraces at h
    obtain ⟨hd, s1, h1, h⟩ := bind_eq_ok h
    obtain ⟨_, s2, _, h⟩ := bind_eq_ok h
    obtain ⟨vs, s3, h3, h⟩ := bind_eq_ok h
    obtain ⟨_, s4, _, h⟩ := bind_eq_ok h
    obtain ⟨_, s5, _, h⟩ := bind_eq_ok h
    rw [lift_apply] at h1 h3
    split at h
    · cases h
    obtain ⟨later, s6, h6, _⟩ := bind_eq_ok h
    intro j hj
    rcases List.mem_cons.mp hj with rfl | hj
    · exact ⟨⟨hd, (Prod.mk.inj h1).1⟩, vs, (Prod.mk.inj h3).1⟩
    · exact ih h6 j hj

theorem writeSegy_had {d : Dataset} {encoding : Option Encoding} {T : Format} {e : Endian} {s s' : FileH} {out : List ℚ}
    (h : writeSegy d encoding T e s = (.ok out, s')) :
    ∀ i ∈ d.trace_indexes, (∃ hd, d.trace_header i = .ok hd) ∧ ∃ vs, d.trace_samples i = .ok vs := by
  unfold writeSegy at h
  split at h
  · cases h
  obtain ⟨_, s1, _, h⟩ := bind_eq_ok h
  obtain ⟨_, s2, _, h⟩ := bind_eq_ok h
  obtain ⟨_, s3, _, h⟩ := bind_eq_ok h
  obtain ⟨_, s4, _, h⟩ := bind_eq_ok h
  obtain ⟨_, s5, h5, _⟩ := bind_eq_ok h
  exact writeTraces_had h5

end Segpy
