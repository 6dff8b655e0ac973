import Verif.Lemmas.SubFormat
import Verif.Model.Formats

/-!
# Properties C26-C30 and C34: header formats and packers
-/

namespace Segpy.Props

open Segpy

/-! ## Formats used in the examples -/

/-- A format with a gap, two coincident fields and two byte widths. -/
def exampleFormat : Format :=
  [{ name := "Example", start_offset := some 1, length_in_bytes := some 12,
     fields := [⟨"a", vtInt32, 1, 0⟩, ⟨"b", vtInt16, 7, 5⟩, ⟨"b2", vtInt16, 7, 5⟩] }]

/-- A format declared out of the order of its offsets. -/
def swappedFormat : Format :=
  [{ name := "Swapped", fields := [⟨"second", vtInt16, 2, 0⟩, ⟨"first", vtInt16, 0, 0⟩] }]

/-- A format with a field before its start. -/
def earlyFormat : Format :=
  [{ name := "Early", start_offset := some 1, length_in_bytes := some 4,
     fields := [⟨"early", vtInt16, 0, 0⟩, ⟨"late", vtInt16, 3, 0⟩] }]

/-! ## C26 -/

/-- If `compile_struct` succeeds then any two fields of the format share no byte, or are at the same place with
the same type. -/
theorem C26_compatible (F : Format) (start : Int) (length : Option Int) (e : Endian)
    (r : PyStr × List (List String)) (h : compileStruct F start length e = .ok r) :
    ∀ f ∈ F.fields, ∀ g ∈ F.fields, f.Disjoint g ∨ f.Coincident g :=
  (accepts_of_ok h).compatible

example : ∃ r, compileStruct exampleFormat 1 (some 12) .big = .ok r ∧ r.1 = ">ixxhxxxx".toList ∧
    r.2 = [["a"], ["b", "b2"]] := 
  ⟨(">ixxhxxxx".toList, [["a"], ["b", "b2"]]), by decide +kernel, rfl, rfl⟩

/-- `compile_struct` succeeds exactly for a non-negative start, a positive length if any, at least one field,
fields pairwise disjoint or coincident, and no field ending after the stated length. -/
theorem C26_accepts_iff (F : Format) (start : Int) (length : Option Int) (e : Endian) :
    (∃ r, compileStruct F start length e = .ok r) ↔
      0 ≤ start ∧ (∀ n, length = some n → 1 ≤ n) ∧ F.fields ≠ [] ∧
      (∀ f ∈ F.fields, ∀ g ∈ F.fields, f.Disjoint g ∨ f.Coincident g) ∧
      (∀ n, length = some n → ∀ f ∈ F.fields, f.offset - start + f.value_type.size ≤ n) := by
  constructor
  · rintro ⟨r, h⟩
    have := accepts_of_ok h
    exact ⟨this.start, this.length, this.nonempty, this.compatible, this.fits⟩
  · rintro ⟨h1, h2, h3, h4, h5⟩
    obtain ⟨_, _, _, _, _, h⟩ := compileStruct_ok e ⟨h1, h2, h3, h4, h5⟩
    exact ⟨_, h⟩

example : compileStruct [{ name := "Overlap", fields := [⟨"a", vtInt32, 0, 0⟩, ⟨"b", vtInt16, 3, 0⟩] }] 0 none .big
    = .error .valueError := by decide +kernel

/-- The classes of the exceptions: a format without fields, or with coincident fields of different types and no
other fault, raises `TypeError`; partially overlapping fields raise `ValueError`. -/
theorem C26_errors (F : Format) (start : Int) (length : Option Int) (e : Endian) (hs : 0 ≤ start)
    (hl : ∀ n, length = some n → 1 ≤ n) :
    (F.fields = [] → compileStruct F start length e = .error .typeError) ∧
    (∀ f ∈ F.fields, ∀ g ∈ F.fields, ¬ f.Disjoint g → ¬ (f.offset = g.offset ∧ f.value_type.size = g.value_type.size) →
      compileStruct F start length e = .error .valueError) ∧
    ((∀ f ∈ F.fields, ∀ g ∈ F.fields, f.Disjoint g ∨ (f.offset = g.offset ∧ f.value_type.size = g.value_type.size)) →
      (∀ n, length = some n → ∀ f ∈ F.fields, f.offset - start + f.value_type.size ≤ n) →
      (∃ f ∈ F.fields, ∃ g ∈ F.fields, f.offset = g.offset ∧ f.value_type ≠ g.value_type) →
      compileStruct F start length e = .error .typeError) := by
  have hlast : ∀ {f : Field}, f ∈ F.fields → ∃ last, F.sortedFields.getLast? = some last := by
    intro f hf
    cases hl : F.sortedFields.getLast? with
    | some last => exact ⟨last, rfl⟩
    | none =>
      rw [List.getLast?_eq_none_iff] at hl
      have := Format.mem_sortedFields.2 hf
      rw [hl] at this
      simp at this
  refine ⟨?_, ?_, ?_⟩
  · intro h0
    rw [compileStruct_eq F start length e hs hl]
    have : F.sortedFields = [] := by
      have := F.sortedFields_perm
      rw [h0] at this
      exact this.eq_nil
    rw [this]
    rfl
  · intro f hf g hg hd hc
    obtain ⟨last, hla⟩ := hlast hf
    rw [compileStruct_eq F start length e hs hl, hla]
    simp only
    rw [if_pos]
    by_contra hno
    have hchain : F.sortedFields.IsChain Field.Before := by
      rw [List.isChain_iff_getElem]
      intro i hi
      by_contra hb
      apply hno
      rw [List.any_eq_true]
      refine ⟨(F.sortedFields[i], F.sortedFields[i + 1]), ?_, ?_⟩
      · rw [List.mem_iff_getElem]
        refine ⟨i, by simp; omega, ?_⟩
        rw [List.getElem_zip, List.getElem_tail]
      · rw [overlap_iff]
        · exact hb
        · exact (List.pairwise_iff_getElem.1 F.sortedFields_pairwise) i (i + 1) (by omega) hi (by omega)
    have hbefore : F.sortedFields.Pairwise Field.Before := List.isChain_iff_pairwise.1 hchain
    obtain ⟨i, hi, rfl⟩ := List.mem_iff_getElem.1 (Format.mem_sortedFields.2 hf)
    obtain ⟨j, hj, rfl⟩ := List.mem_iff_getElem.1 (Format.mem_sortedFields.2 hg)
    have key : ∀ a b : Field, a.Before b → ¬ a.Disjoint b → a.offset = b.offset ∧
        a.value_type.size = b.value_type.size := by
      intro a b h1 h2
      rcases h1 with h1 | h1
      · have e1 : a.offset = b.offset := congrArg Interval.start h1
        have e2 : a.offset + a.value_type.size = b.offset + b.value_type.size := congrArg Interval.stop h1
        exact ⟨e1, by omega⟩
      · exact absurd (Or.inl h1) h2
    rcases Nat.lt_trichotomy i j with hij | hij | hij
    · exact hc (key _ _ ((List.pairwise_iff_getElem.1 hbefore) i j hi hj hij) hd)
    · subst hij; exact hc ⟨rfl, rfl⟩
    · have := key _ _ ((List.pairwise_iff_getElem.1 hbefore) j i hj hi hij) fun h => hd (Or.symm h)
      exact hc ⟨this.1.symm, this.2.symm⟩
  · rintro hcomp hfit ⟨f, hf, g, hg, hfg, hne⟩
    obtain ⟨last, hla⟩ := hlast hf
    rw [compileStruct_eq F start length e hs hl, hla]
    simp only
    have hcon := offsetToFields_spec start F.sortedFields [] ⟨by simp, by simp⟩ F.sortedFields_pairwise (by simp)
    rw [if_neg (by
      intro hall
      simp only [List.flatMap_nil, List.nil_append, Format.mem_sortedFields] at hall
      exact hne (hall f hf g hg hfg))] at hcon
    rw [if_neg, if_neg, hcon]
    · cases length with
      | none => simp
      | some n =>
        have := hfit n rfl last (Format.mem_sortedFields.1 (List.mem_of_getLast? hla))
        simp only [Option.getD_some]
        omega
    · rw [List.any_eq_true]
      rintro ⟨⟨a, b⟩, hp, ho⟩
      obtain ⟨i, hi, he⟩ := List.mem_iff_getElem.1 hp
      rw [List.getElem_zip] at he
      have hi1 : i + 1 < F.sortedFields.length := by
        simp at hi; omega
      have ha' : F.sortedFields[i] = a := congrArg Prod.fst he
      have hb' : F.sortedFields[i + 1] = b := by
        have := congrArg Prod.snd he
        rw [List.getElem_tail] at this
        exact this
      have hle := (List.pairwise_iff_getElem.1 F.sortedFields_pairwise) i (i + 1) (by omega) hi1 (by omega)
      rw [ha', hb'] at hle
      rw [overlap_iff a b hle] at ho
      apply ho
      have ham : a ∈ F.fields := Format.mem_sortedFields.1 (ha' ▸ List.getElem_mem _)
      have hbm : b ∈ F.fields := Format.mem_sortedFields.1 (hb' ▸ List.getElem_mem _)
      unfold Field.Before Field.span
      rcases hcomp a ham b hbm with (h1 | h1) | ⟨h1, h2⟩
      · exact Or.inr h1
      · have := a.value_type.size_pos
        have := b.value_type.size_pos
        omega
      · left; rw [h1, h2]

/-- What is proved of "all within the stated length": no field ends after it.  Missing: that no field begins
before the start, which is false (`C26_before_start_accepted`). -/
theorem C26_within_partial (F : Format) (start : Int) (n : Int) (e : Endian)
    (r : PyStr × List (List String)) (h : compileStruct F start (some n) e = .ok r) :
    ∀ f ∈ F.fields, f.offset + f.value_type.size ≤ start + n := by
  intro f hf
  have := (accepts_of_ok h).fits n rfl f hf
  omega

/-- The property fails in that a field that begins before the start offset is accepted.  Its bytes then do not
have their declared place: the packed header is a byte too long and the second field is a byte late. -/
theorem C26_before_start_accepted :
    ∃ (F : Format) (p : HeaderPacker) (h : Header), F.startOffset = 1 ∧ F.lengthInBytes = some 4 ∧
      (∃ f ∈ F.fields, f.offset < F.startOffset) ∧ makeHeaderPacker F .big = .ok p ∧
      Header.make F [0x0102, 0x0304] [] = .ok h ∧ p.pack h = .ok [1, 2, 0, 3, 4] :=
  ⟨earlyFormat, ⟨earlyFormat, ⟨.big, [.int ⟨2, true⟩, .pad, .int ⟨2, true⟩]⟩, [["early"], ["late"]], true⟩,
    ⟨earlyFormat, [("early", 0x0102), ("late", 0x0304)]⟩, by decide +kernel, by decide +kernel,
    by decide +kernel, by decide +kernel, by decide +kernel, by decide +kernel⟩

/-! ## C27 -/

/-- A packed header has exactly the length of the format; the bytes of each field are the two's complement
representation, in the requested byte order, of the field's value; all other bytes are zero. -/
theorem C27_layout (F : Format) (e : Endian) (p : HeaderPacker) (h : Header) (bs : Bytes)
    (hp : makeHeaderPacker F e = .ok p) (hstart : F.AfterStart) (hclass : ∃ G, h.format = F ++ G)
    (hb : p.pack h = .ok bs) :
    F.packedLength bs.length ∧
    (∀ f ∈ F.fields, ∃ v, h.get f.name = .ok v ∧ f.value_type.segy.Storable v ∧
      (F.fieldBytes f bs).length = f.value_type.size ∧ Represents e (F.fieldBytes f bs) v) ∧
    (∀ k < bs.length, F.Gap k → bs[k]? = some 0) := by
  obtain ⟨d, n, P⟩ := makeHeaderPacker_spec hp hstart
  have hpre : F.isPrefixOf h.format = true := by
    obtain ⟨G, hG⟩ := hclass
    rw [List.isPrefixOf_iff_prefix, hG]
    exact ⟨G, rfl⟩
  obtain ⟨h1, h2, rfl⟩ := P.pack_ok hpre hb
  refine ⟨?_, ?_, ?_⟩
  · rw [P.bytes_length]; exact P.length
  · intro f hf
    obtain ⟨g, hg⟩ := Format.attr_of_prefix hpre (Format.mem_fields.1 hf)
    refine ⟨h.val f.name, Header.get_val hg, h2 f hf, ?_, ?_⟩
    · rw [P.field_bytes h1 f hf, encodeInt_length]
    · rw [P.field_bytes h1 f hf]
      exact represents_encodeInt _ _ _
  · intro k hk hgap
    rw [P.bytes_length] at hk
    exact P.gap_bytes k hk hgap

/-- Packing succeeds exactly when every value can be stored in its field's bytes and coincident fields have
equal values. -/
theorem C27_pack_iff (F : Format) (e : Endian) (p : HeaderPacker) (h : Header)
    (hp : makeHeaderPacker F e = .ok p) (hstart : F.AfterStart) (hclass : ∃ G, h.format = F ++ G) :
    (∃ bs, p.pack h = .ok bs) ↔
      (∀ f ∈ F.fields, ∀ v, h.get f.name = .ok v → f.value_type.segy.Storable v) ∧
      (∀ f ∈ F.fields, ∀ g ∈ F.fields, f.offset = g.offset → h.get f.name = h.get g.name) := by
  obtain ⟨d, n, P⟩ := makeHeaderPacker_spec hp hstart
  have hpre : F.isPrefixOf h.format = true := by
    obtain ⟨G, hG⟩ := hclass
    rw [List.isPrefixOf_iff_prefix, hG]
    exact ⟨G, rfl⟩
  have hget : ∀ f ∈ F.fields, h.get f.name = .ok (h.val f.name) := by
    intro f hf
    obtain ⟨g, hg⟩ := Format.attr_of_prefix hpre (Format.mem_fields.1 hf)
    exact Header.get_val hg
  constructor
  · rintro ⟨bs, hb⟩
    obtain ⟨h1, h2, _⟩ := P.pack_ok hpre hb
    refine ⟨?_, ?_⟩
    · intro f hf v hv
      rw [hget f hf] at hv
      injection hv with hv
      exact hv ▸ h2 f hf
    · intro f hf g hg hfg
      rw [hget f hf, hget g hg, h1 f hf g hg hfg]
  · rintro ⟨h1, h2⟩
    refine ⟨_, P.pack_of hpre ?_ fun f hf => h1 f hf _ (hget f hf)⟩
    intro f hf g hg hfg
    have := h2 f hf g hg hfg
    rw [hget f hf, hget g hg] at this
    injection this

/-- A header of another class is refused with `TypeError`. -/
theorem C27_wrong_class (F : Format) (e : Endian) (p : HeaderPacker) (h : Header)
    (hp : makeHeaderPacker F e = .ok p) (hclass : ¬ ∃ G, h.format = F ++ G) :
    p.pack h = .error .typeError := by
  have hf : p.format = F := by
    unfold makeHeaderPacker at hp
    simp only [bind, Except.bind] at hp
    cases hc : compileStruct F F.startOffset F.lengthInBytes e with
    | error err => rw [hc] at hp; simp at hp
    | ok r =>
      rw [hc] at hp
      simp only at hp
      cases hs : Struct.parse r.1 with
      | error err => rw [hs] at hp; simp at hp
      | ok st =>
        rw [hs] at hp
        simp only [pure, Except.pure, Except.ok.injEq] at hp
        rw [← hp]
  unfold HeaderPacker.pack
  rw [hf, if_pos]
  intro hc
  apply hclass
  obtain ⟨t, ht⟩ := List.isPrefixOf_iff_prefix.1 hc
  exact ⟨t, ht.symm⟩

example : ∃ p h, makeHeaderPacker exampleFormat .big = .ok p ∧ exampleFormat.AfterStart ∧
    Header.make exampleFormat [-2, 258, 258] [] = .ok h ∧
    p.pack h = .ok [255, 255, 255, 254, 0, 0, 1, 2, 0, 0, 0, 0] :=
  ⟨⟨exampleFormat, ⟨.big, [.int ⟨4, true⟩, .pad, .pad, .int ⟨2, true⟩, .pad, .pad, .pad, .pad]⟩,
    [["a"], ["b", "b2"]], false⟩, ⟨exampleFormat, [("a", -2), ("b", 258), ("b2", 258)]⟩,
    by decide +kernel, by decide +kernel, by decide +kernel, by decide +kernel⟩

/-! ## C28 -/

/-- Unpacking a packed header gives an equal header: proved for formats declared in the order of their offsets,
and for formats with coincident fields in any order.  Missing: formats without coincident fields that are
declared out of order, for which the property is false (`C28_out_of_order_fails`). -/
theorem C28_round_trip_partial (F : Format) (e : Endian) (p : HeaderPacker) (h : Header) (bs : Bytes)
    (hp : makeHeaderPacker F e = .ok p) (hstart : F.AfterStart) (hclass : h.format = F) (hvalid : h.Valid)
    (horder : F.OrderSafe)
    (hb : p.pack h = .ok bs) :
    ∃ h', p.unpack bs = .ok h' ∧ (∀ f ∈ F.fields, h'.get f.name = h.get f.name) ∧ h.areEqual h' = .ok true := by
  obtain ⟨d, n, P⟩ := makeHeaderPacker_spec hp hstart
  have hpre : F.isPrefixOf h.format = true := by
    rw [List.isPrefixOf_iff_prefix, hclass]
  obtain ⟨h1, h2, rfl⟩ := P.pack_ok hpre hb
  have hget : ∀ f ∈ F.fields, h.get f.name = .ok (h.val f.name) := by
    intro f hf
    obtain ⟨g, hg⟩ := Format.attr_of_prefix hpre (Format.mem_fields.1 hf)
    exact Header.get_val hg
  have hraw : ∀ f ∈ F.fields, F.rawValue e (layoutBytes e n 0 (natSlots d) (groupValues d h)) f = h.val f.name := by
    intro f hf
    unfold Format.rawValue
    rw [P.field_bytes h1 f hf]
    have := (IntType.storable_iff _ _).1 (h2 f hf)
    exact decodeInt_encodeInt e f.value_type.segy.code f.value_type.segy.size_pos _ this.1 this.2
  have hspec := P.unpack_spec horder (layoutBytes e n 0 (natSlots d) (groupValues d h))
  rw [if_pos] at hspec
  · obtain ⟨h', e1, e2, e3⟩ := hspec
    have heq : ∀ f ∈ F.fields, h'.get f.name = h.get f.name := by
      intro f hf
      rw [e3 f hf, hraw f hf, hget f hf]
    refine ⟨h', e1, heq, ?_⟩
    unfold Header.areEqual
    rw [if_neg (by rw [hclass, e2]; simp)]
    have : (h.format.orderedFieldNames.mapM fun n => do return decide ((← h.get n) = (← h'.get n)))
        = .ok (h.format.orderedFieldNames.map fun _ => true) := by
      apply mapM_ok
      intro n hn
      rw [hclass, ← Format.names_fields] at hn
      obtain ⟨f, hf, rfl⟩ := List.mem_map.1 hn
      rw [heq f hf, hget f hf]
      simp [bind, Except.bind, pure, Except.pure]
    rw [this]
    simp [bind, Except.bind, pure, Except.pure]
  · refine ⟨P.bytes_length h, ?_⟩
    intro f hf
    obtain ⟨v, hv, ha⟩ := hvalid f (by rw [hclass]; exact hf)
    rw [hraw f hf]
    rw [hget f hf] at hv
    injection hv with hv
    rw [hv]
    exact ha

/-- The property fails for a format declared out of the order of its offsets: packing and unpacking exchanges
the values of the two fields. -/
theorem C28_out_of_order_fails :
    ∃ (F : Format) (p : HeaderPacker) (h h' : Header) (bs : Bytes), makeHeaderPacker F .big = .ok p ∧
      F.AfterStart ∧ h.format = F ∧ p.pack h = .ok bs ∧ p.unpack bs = .ok h' ∧
      h.get "first" = .ok 1 ∧ h.get "second" = .ok 2 ∧ h'.get "first" = .ok 2 ∧ h'.get "second" = .ok 1 ∧
      h.areEqual h' = .ok false :=
  ⟨swappedFormat, ⟨swappedFormat, ⟨.big, [.int ⟨2, true⟩, .int ⟨2, true⟩]⟩, [["first"], ["second"]], true⟩,
    ⟨swappedFormat, [("first", 1), ("second", 2)]⟩, ⟨swappedFormat, [("second", 1), ("first", 2)]⟩, [0, 1, 0, 2],
    by decide +kernel, by decide +kernel, rfl, by decide +kernel, by decide +kernel, by decide +kernel,
    by decide +kernel, by decide +kernel, by decide +kernel, by decide +kernel⟩

example : ∃ p h, makeHeaderPacker fmtTraceHeaderRev1 .little = .ok p ∧ fmtTraceHeaderRev1.AfterStart ∧
    fmtTraceHeaderRev1.InOrder ∧ Header.make fmtTraceHeaderRev1 [7, 8, 9] [("inline_number", -3)] = .ok h ∧
    h.format = fmtTraceHeaderRev1 := by
  have h1 : (makeHeaderPacker fmtTraceHeaderRev1 .little).toBool = true := by decide +kernel
  have h2 : (Header.make fmtTraceHeaderRev1 [7, 8, 9] [("inline_number", -3)]).toBool = true := by decide +kernel
  have h3 : ((Header.make fmtTraceHeaderRev1 [7, 8, 9] [("inline_number", -3)]).map Header.format)
      = .ok fmtTraceHeaderRev1 := by decide +kernel
  cases e1 : makeHeaderPacker fmtTraceHeaderRev1 .little with
  | error _ => rw [e1] at h1; simp [Except.toBool] at h1
  | ok p =>
    cases e2 : Header.make fmtTraceHeaderRev1 [7, 8, 9] [("inline_number", -3)] with
    | error _ => rw [e2] at h2; simp [Except.toBool] at h2
    | ok h =>
      rw [e2] at h3
      exact ⟨p, h, rfl, by decide +kernel, by decide +kernel, rfl, by
        simpa [Except.map] using h3⟩

/-! ## C29 -/

/-- Unpacking raises `ValueError` exactly when the buffer does not have the length of the format or some field's
type does not admit the integer found in the field's bytes; otherwise every field has that integer. -/
theorem C29_unpack (F : Format) (e : Endian) (p : HeaderPacker) (bs : Bytes)
    (hp : makeHeaderPacker F e = .ok p) (hstart : F.AfterStart) (horder : F.OrderSafe) :
    (∃ h, p.unpack bs = .ok h ∧ h.format = F ∧ F.packedLength bs.length ∧
      (∀ f ∈ F.fields, f.value_type.Admits (storedInt e f.value_type.segy (F.fieldBytes f bs)) ∧
        h.get f.name = .ok (storedInt e f.value_type.segy (F.fieldBytes f bs)))) ∨
    (p.unpack bs = .error .valueError ∧ (¬ F.packedLength bs.length ∨
      ∃ f ∈ F.fields, ¬ f.value_type.Admits (storedInt e f.value_type.segy (F.fieldBytes f bs)))) := by
  obtain ⟨d, n, P⟩ := makeHeaderPacker_spec hp hstart
  have hlen : F.packedLength bs.length ↔ bs.length = n := by
    constructor
    · intro h
      have h' := P.length
      unfold Format.packedLength at h h'
      cases hL : F.lengthInBytes with
      | some m =>
        rw [hL] at h h'
        simp only at h h'
        omega
      | none =>
        rw [hL] at h h'
        obtain ⟨h1, f, hf, h2⟩ := h
        obtain ⟨h3, g, hg, h4⟩ := h'
        have := h1 g hg
        have := h3 f hf
        omega
    · intro h; rw [h]; exact P.length
  have hspec := P.unpack_spec horder bs
  split at hspec
  · rename_i hc
    obtain ⟨h, e1, e2, e3⟩ := hspec
    refine Or.inl ⟨h, e1, e2, hlen.2 hc.1, fun f hf => ?_⟩
    rw [storedInt_eq]
    exact ⟨hc.2 f hf, e3 f hf⟩
  · rename_i hc
    refine Or.inr ⟨hspec, ?_⟩
    by_cases hl : bs.length = n
    · right
      by_contra hcon
      push Not at hcon
      refine hc ⟨hl, fun f hf => ?_⟩
      have := hcon f hf
      rw [storedInt_eq] at this
      exact this
    · exact Or.inl fun h => hl (hlen.1 h)

/-- If `unpack(buf)` succeeds then `pack(unpack(buf))` succeeds, agrees with `buf` on the bytes of every field
and is zero elsewhere. -/
theorem C29_repack (F : Format) (e : Endian) (p : HeaderPacker) (buf : Bytes) (h : Header)
    (hp : makeHeaderPacker F e = .ok p) (hstart : F.AfterStart) (horder : F.OrderSafe)
    (hu : p.unpack buf = .ok h) :
    ∃ bs, p.pack h = .ok bs ∧ bs.length = buf.length ∧
      (∀ f ∈ F.fields, F.fieldBytes f bs = F.fieldBytes f buf) ∧
      (∀ k < bs.length, F.Gap k → bs[k]? = some 0) := by
  obtain ⟨d, n, P⟩ := makeHeaderPacker_spec hp hstart
  have hspec := P.unpack_spec horder buf
  split at hspec
  swap
  · rw [hu] at hspec; simp at hspec
  rename_i hc
  obtain ⟨h', e1, e2, e3⟩ := hspec
  rw [hu] at e1
  injection e1 with e1
  subst e1
  have hpre : F.isPrefixOf h.format = true := by rw [List.isPrefixOf_iff_prefix, e2]
  have hval : ∀ f ∈ F.fields, h.val f.name = F.rawValue e buf f := by
    intro f hf
    unfold Header.val
    rw [e3 f hf]
  have hfl : ∀ f ∈ F.fields, (F.fieldBytes f buf).length = f.value_type.size := by
    intro f hf
    have h1 := P.fits f hf
    have h2 := hstart f hf
    unfold Format.fieldBytes slice
    simp only [List.length_take, List.length_drop, hc.1]
    omega
  have hacc := (makeHeaderPacker_isOk F e).1 ⟨p, hp⟩
  have h1 : ∀ f ∈ F.fields, ∀ g ∈ F.fields, f.offset = g.offset → h.val f.name = h.val g.name := by
    intro f hf g hg hfg
    rw [hval f hf, hval g hg]
    rcases hacc.compatible f hf g hg with hd | hd
    · have := f.value_type.size_pos
      have := g.value_type.size_pos
      unfold Field.Disjoint at hd
      omega
    · unfold Format.rawValue Format.fieldBytes
      rw [hd.1, hd.2]
  have h2 : ∀ f ∈ F.fields, f.value_type.segy.Storable (h.val f.name) := by
    intro f hf
    rw [hval f hf, IntType.storable_iff]
    exact decodeInt_range e _ f.value_type.segy.size_pos _ (hfl f hf)
  refine ⟨_, P.pack_of hpre h1 h2, ?_, ?_, ?_⟩
  · rw [P.bytes_length, hc.1]
  · intro f hf
    rw [P.field_bytes h1 f hf, hval f hf]
    unfold Format.rawValue
    rw [← hfl f hf]
    exact encodeInt_decodeInt _ _ _
  · intro k hk hgap
    rw [P.bytes_length] at hk
    exact P.gap_bytes k hk hgap

example : ∃ p h, makeHeaderPacker exampleFormat .little = .ok p ∧ exampleFormat.InOrder ∧
    p.unpack [1, 0, 0, 0, 9, 9, 2, 1, 9, 9, 9, 9] = .ok h ∧ h.get "b2" = .ok 258 ∧
    p.pack h = .ok [1, 0, 0, 0, 0, 0, 2, 1, 0, 0, 0, 0] ∧ p.unpack [1, 0, 0] = .error .valueError :=
  ⟨⟨exampleFormat, ⟨.little, [.int ⟨4, true⟩, .pad, .pad, .int ⟨2, true⟩, .pad, .pad, .pad, .pad]⟩,
    [["a"], ["b", "b2"]], false⟩, ⟨exampleFormat, [("a", 1), ("b", 258), ("b2", 258)]⟩,
    by decide +kernel, by decide +kernel, by decide +kernel, by decide +kernel, by decide +kernel,
    by decide +kernel⟩

/-! ## C30 -/

/-- A packer for the selected fields, in layout order, can be made whenever one can for the whole format, and
reads from every buffer the values that the whole format reads.  Needed besides: that the whole format declares
its length, and that no class of the format overrides the layout attributes of its superclass
(`C30_undeclared_length_fails` and `C30_overridden_length_fails`). -/
theorem C30_sub_format_partial (F S : Format) (e : Endian) (p : HeaderPacker) (name : String) (names : List String)
    (hp : makeHeaderPacker F e = .ok p) (hstart : F.AfterStart) (hdef : F.DefaultsAdmitted) (horder : F.OrderSafe)
    (hlen : F.lengthInBytes ≠ none) (hlay : F.OneLayout)
    (hmem : ∀ n ∈ names, n ∈ F.orderedFieldNames) (hne : names ≠ []) (hnd : names.Nodup)
    (hsel : names.Pairwise fun a b => ∀ f g, F.attr a = some f → F.attr b = some g → f.offset ≤ g.offset)
    (hS : F.subFormat name names = .ok S) :
    S.orderedFieldNames = names ∧
    ∃ q, makeHeaderPacker S e = .ok q ∧
      ∀ buf h, p.unpack buf = .ok h → ∃ h', q.unpack buf = .ok h' ∧ ∀ n ∈ names, h'.get n = h.get n := by
  have hacc := (makeHeaderPacker_isOk F e).1 ⟨p, hp⟩
  have hfields := subFormat_fields hdef hmem hnd hS
  have hsub : ∀ f ∈ S.fields, f ∈ F.fields := by
    intro f hf
    rw [hfields] at hf
    obtain ⟨n, hn, hf⟩ := List.mem_filterMap.1 hf
    exact Format.mem_fields.2 ((Format.attr_name hf).symm ▸ hf)
  have hSe := hS
  rw [subFormat_eq hdef name names hmem hnd] at hSe
  injection hSe with hSe
  have hso : S.startOffset = F.startOffset := by
    rw [← hSe]
    unfold Format.startOffset
    simp only [List.reverse_singleton, List.findSome?_cons, List.findSome?_nil]
    rw [← hlay.1]
    cases F.findSome? Level.start_offset <;> rfl
  have hle : S.lengthInBytes = F.lengthInBytes := by
    rw [← hSe]
    unfold Format.lengthInBytes
    simp only [List.reverse_singleton, List.findSome?_cons, List.findSome?_nil]
    rw [← hlay.2]
    cases F.findSome? Level.length_in_bytes <;> rfl
  have hnames : S.orderedFieldNames = names := by
    rw [← hSe]
    unfold Format.orderedFieldNames
    simp only [List.flatMap_cons, List.flatMap_nil, List.append_nil]
    exact filterMap_attr_names names hmem
  refine ⟨hnames, ?_⟩
  have hSacc : Accepts S S.startOffset S.lengthInBytes := by
    rw [hso, hle]
    refine ⟨hacc.start, hacc.length, ?_, fun f hf g hg => hacc.compatible f (hsub f hf) g (hsub g hg),
      fun n hn f hf => hacc.fits n hn f (hsub f hf)⟩
    intro h0
    have := S.names_fields
    rw [h0, hnames] at this
    exact hne this.symm
  obtain ⟨q, hq⟩ := (makeHeaderPacker_isOk S e).2 hSacc
  refine ⟨q, hq, ?_⟩
  intro buf h hu
  have hSstart : S.AfterStart := by
    intro f hf
    rw [hso]
    exact hstart f (hsub f hf)
  have hSord : S.InOrder := by
    unfold Format.InOrder
    rw [hfields, List.pairwise_filterMap]
    exact hsel.imp fun h a ha b hb => h a b ha hb
  have hval : ∀ n ∈ names, ∃ f ∈ F.fields, f ∈ S.fields ∧ f.name = n := by
    intro n hn
    obtain ⟨f, hf⟩ := Format.attr_of_mem (hmem n hn)
    refine ⟨f, ?_, ?_, Format.attr_name hf⟩
    · exact Format.mem_fields.2 ((Format.attr_name hf).symm ▸ hf)
    · rw [hfields]; exact List.mem_filterMap.2 ⟨n, hn, hf⟩
  rcases C29_unpack F e p buf hp hstart horder with ⟨h0, h1, _, h2, h3⟩ | ⟨h1, _⟩
  swap
  · rw [hu] at h1; simp at h1
  rw [hu] at h1
  injection h1 with h1
  subst h1
  have hbytes : ∀ f, S.fieldBytes f buf = F.fieldBytes f buf := by
    intro f; unfold Format.fieldBytes; rw [hso]
  rcases C29_unpack S e q buf hq hSstart (Or.inl hSord) with ⟨h', g1, _, g2, g3⟩ | ⟨_, g2⟩
  · refine ⟨h', g1, fun n hn => ?_⟩
    obtain ⟨f, hf, hfS, rfl⟩ := hval n hn
    rw [(g3 f hfS).2, (h3 f hf).2, hbytes]
  · exfalso
    rcases g2 with g2 | ⟨f, hf, g2⟩
    · apply g2
      unfold Format.packedLength at h2 ⊢
      rw [hle]
      cases hL : F.lengthInBytes with
      | none => exact absurd hL hlen
      | some m => rw [hL] at h2; exact h2
    · rw [hbytes] at g2
      exact g2 (h3 f (hsub f hf)).1

/-- A sub-format decodes a buffer of the right length exactly when the bytes of each of its own fields hold a value
admitted by the field's type, whatever the other bytes are. -/
theorem C30_sub_unpack_partial (F S : Format) (e : Endian) (p : HeaderPacker) (name : String) (names : List String)
    (hp : makeHeaderPacker F e = .ok p) (hstart : F.AfterStart) (hdef : F.DefaultsAdmitted)
    (m : Int) (hlen : F.lengthInBytes = some m) (hlay : F.OneLayout)
    (hmem : ∀ n ∈ names, n ∈ F.orderedFieldNames) (hne : names ≠ []) (hnd : names.Nodup)
    (hsel : names.Pairwise fun a b => ∀ f g, F.attr a = some f → F.attr b = some g → f.offset ≤ g.offset)
    (hS : F.subFormat name names = .ok S) :
    ∃ q, makeHeaderPacker S e = .ok q ∧ ∀ buf : Bytes,
      (∃ h, q.unpack buf = .ok h ∧ (buf.length : Int) = m ∧ ∀ n ∈ names, ∀ f, F.attr n = some f →
        f.value_type.Admits (storedInt e f.value_type.segy (F.fieldBytes f buf)) ∧
        h.get n = .ok (storedInt e f.value_type.segy (F.fieldBytes f buf))) ∨
      (q.unpack buf = .error .valueError ∧ ((buf.length : Int) ≠ m ∨ ∃ n ∈ names, ∃ f, F.attr n = some f ∧
        ¬ f.value_type.Admits (storedInt e f.value_type.segy (F.fieldBytes f buf)))) := by
  have hacc := (makeHeaderPacker_isOk F e).1 ⟨p, hp⟩
  have hfields := subFormat_fields hdef hmem hnd hS
  have hsub : ∀ f ∈ S.fields, f ∈ F.fields := by
    intro f hf
    rw [hfields] at hf
    obtain ⟨n, hn, hf⟩ := List.mem_filterMap.1 hf
    exact Format.mem_fields.2 ((Format.attr_name hf).symm ▸ hf)
  have hSe := hS
  rw [subFormat_eq hdef name names hmem hnd] at hSe
  injection hSe with hSe
  have hso : S.startOffset = F.startOffset := by
    rw [← hSe]
    unfold Format.startOffset
    simp only [List.reverse_singleton, List.findSome?_cons, List.findSome?_nil]
    rw [← hlay.1]
    cases F.findSome? Level.start_offset <;> rfl
  have hle : S.lengthInBytes = F.lengthInBytes := by
    rw [← hSe]
    unfold Format.lengthInBytes
    simp only [List.reverse_singleton, List.findSome?_cons, List.findSome?_nil]
    rw [← hlay.2]
    cases F.findSome? Level.length_in_bytes <;> rfl
  have hnames : S.orderedFieldNames = names := by
    rw [← hSe]
    unfold Format.orderedFieldNames
    simp only [List.flatMap_cons, List.flatMap_nil, List.append_nil]
    exact filterMap_attr_names names hmem
  have hSacc : Accepts S S.startOffset S.lengthInBytes := by
    rw [hso, hle]
    refine ⟨hacc.start, hacc.length, ?_, fun f hf g hg => hacc.compatible f (hsub f hf) g (hsub g hg),
      fun n hn f hf => hacc.fits n hn f (hsub f hf)⟩
    intro h0
    have := S.names_fields
    rw [h0, hnames] at this
    exact hne this.symm
  obtain ⟨q, hq⟩ := (makeHeaderPacker_isOk S e).2 hSacc
  refine ⟨q, hq, ?_⟩
  intro buf
  have hSstart : S.AfterStart := by
    intro f hf
    rw [hso]
    exact hstart f (hsub f hf)
  have hSord : S.InOrder := by
    unfold Format.InOrder
    rw [hfields, List.pairwise_filterMap]
    exact hsel.imp fun h a ha b hb => h a b ha hb
  have hbytes : ∀ f, S.fieldBytes f buf = F.fieldBytes f buf := by
    intro f; unfold Format.fieldBytes; rw [hso]
  have hlenS : S.packedLength buf.length ↔ (buf.length : Int) = m := by
    unfold Format.packedLength
    rw [hle, hlen]
  rcases C29_unpack S e q buf hq hSstart (Or.inl hSord) with ⟨h', g1, _, g2, g3⟩ | ⟨g1, g2⟩
  · left
    refine ⟨h', g1, hlenS.mp g2, fun n hn f hf => ?_⟩
    have hfS : f ∈ S.fields := by rw [hfields]; exact List.mem_filterMap.2 ⟨n, hn, hf⟩
    have := g3 f hfS
    rw [hbytes, Format.attr_name hf] at this
    exact this
  · right
    refine ⟨g1, ?_⟩
    rcases g2 with g2 | ⟨f, hf, g2⟩
    · left; rwa [hlenS] at g2
    · right
      rw [hbytes] at g2
      rw [hfields] at hf
      obtain ⟨n, hn, hf⟩ := List.mem_filterMap.1 hf
      exact ⟨n, hn, f, hf, g2⟩

/-- The field names of the sub-format that the reader catalogues traces by (toolkit.py:356-363). -/
def exampleFieldNames : List String :=
  ["file_sequence_num", "ensemble_num", "num_samples", "inline_number", "crossline_number"]

example : fmtTraceHeaderRev1.AfterStart ∧ fmtTraceHeaderRev1.DefaultsAdmitted ∧ fmtTraceHeaderRev1.InOrder ∧
    fmtTraceHeaderRev1.lengthInBytes = some 240 ∧ fmtTraceHeaderRev1.OneLayout ∧
    (∀ n ∈ exampleFieldNames, n ∈ fmtTraceHeaderRev1.orderedFieldNames) ∧ exampleFieldNames.Nodup ∧
    (exampleFieldNames.filterMap fmtTraceHeaderRev1.attr).map Field.offset = [5, 21, 115, 189, 193] ∧
    (fmtTraceHeaderRev1.subFormat "CatalogSubFormat" exampleFieldNames).toBool = true := by decide +kernel

/-- The property fails for a format that declares no length: the sub-format expects a shorter buffer. -/
theorem C30_undeclared_length_fails :
    ∃ (F S : Format) (p q : HeaderPacker) (h : Header), makeHeaderPacker F .big = .ok p ∧
      F.subFormat "S" ["a"] = .ok S ∧ makeHeaderPacker S .big = .ok q ∧
      p.unpack [0, 1, 0, 2] = .ok h ∧ h.get "a" = .ok 1 ∧ q.unpack [0, 1, 0, 2] = .error .valueError :=
  ⟨[⟨"F", [⟨"a", vtInt16, 0, 0⟩, ⟨"b", vtInt16, 2, 0⟩], none, none⟩], [⟨"S", [⟨"a", vtInt16, 0, 0⟩], none, none⟩],
    ⟨[⟨"F", [⟨"a", vtInt16, 0, 0⟩, ⟨"b", vtInt16, 2, 0⟩], none, none⟩],
      ⟨.big, [.int ⟨2, true⟩, .int ⟨2, true⟩]⟩, [["a"], ["b"]], true⟩,
    ⟨[⟨"S", [⟨"a", vtInt16, 0, 0⟩], none, none⟩], ⟨.big, [.int ⟨2, true⟩]⟩, [["a"]], true⟩,
    ⟨[⟨"F", [⟨"a", vtInt16, 0, 0⟩, ⟨"b", vtInt16, 2, 0⟩], none, none⟩], [("a", 1), ("b", 2)]⟩,
    by decide +kernel, by decide +kernel, by decide +kernel, by decide +kernel, by decide +kernel, by decide +kernel⟩

/-- The property fails for a format whose length overrides that of its superclass: the sub-format takes the
superclass's length. -/
theorem C30_overridden_length_fails :
    ∃ (F S : Format) (p q : HeaderPacker) (h : Header), makeHeaderPacker F .big = .ok p ∧
      F.lengthInBytes = some 4 ∧ F.subFormat "S" ["a"] = .ok S ∧ makeHeaderPacker S .big = .ok q ∧
      p.unpack [0, 1, 0, 2] = .ok h ∧ h.get "a" = .ok 1 ∧ q.unpack [0, 1, 0, 2] = .error .valueError :=
  ⟨[⟨"Base", [⟨"a", vtInt16, 0, 0⟩], none, some 2⟩, ⟨"F", [⟨"b", vtInt16, 2, 0⟩], none, some 4⟩],
    [⟨"S", [⟨"a", vtInt16, 0, 0⟩], none, some 2⟩],
    ⟨[⟨"Base", [⟨"a", vtInt16, 0, 0⟩], none, some 2⟩, ⟨"F", [⟨"b", vtInt16, 2, 0⟩], none, some 4⟩],
      ⟨.big, [.int ⟨2, true⟩, .int ⟨2, true⟩]⟩, [["a"], ["b"]], true⟩,
    ⟨[⟨"S", [⟨"a", vtInt16, 0, 0⟩], none, some 2⟩], ⟨.big, [.int ⟨2, true⟩]⟩, [["a"]], true⟩,
    ⟨[⟨"Base", [⟨"a", vtInt16, 0, 0⟩], none, some 2⟩, ⟨"F", [⟨"b", vtInt16, 2, 0⟩], none, some 4⟩],
      [("a", 1), ("b", 2)]⟩,
    by decide +kernel, by decide +kernel, by decide +kernel, by decide +kernel, by decide +kernel, by decide +kernel,
    by decide +kernel⟩

/-! ## C34 -/

/-- The shipped formats with the length and the number of fields expected of them. -/
def shippedFormats : List (Format × Nat) :=
  [(fmtBinaryReelHeader, 400), (fmtTraceHeaderRev0, 240), (fmtTraceHeaderRev1, 240)]

/-- Each shipped format compiles, in both byte orders, to a struct of exactly its standard length, is declared
in the order of its offsets with distinct names, has no field before its start or overlapping another, and has
only admissible defaults. -/
theorem C34_shipped_formats : ∀ Fn ∈ shippedFormats, ∀ e : Endian,
    (∃ p, makeHeaderPacker Fn.1 e = .ok p ∧ p.structure_.size = Fn.2) ∧
    Fn.1.InOrder ∧ Fn.1.orderedFieldNames.Nodup ∧ Fn.1.AfterStart ∧ Fn.1.DefaultsAdmitted ∧
    Fn.1.lengthInBytes = some (Fn.2 : Int) ∧ Fn.1.OneLayout ∧
    Fn.1.fields.Pairwise Field.Disjoint := by
  have h1 : ∀ Fn ∈ shippedFormats, ∀ e ∈ [Endian.big, Endian.little],
      ((makeHeaderPacker Fn.1 e).map fun p => p.structure_.size) = .ok Fn.2 := by decide +kernel
  have h2 : ∀ Fn ∈ shippedFormats,
    Fn.1.InOrder ∧ Fn.1.orderedFieldNames.Nodup ∧ Fn.1.AfterStart ∧ Fn.1.DefaultsAdmitted ∧
    Fn.1.lengthInBytes = some (Fn.2 : Int) ∧ Fn.1.OneLayout ∧
    Fn.1.fields.Pairwise Field.Disjoint := by decide +kernel
  intro Fn hFn e
  refine ⟨?_, h2 Fn hFn⟩
  have := h1 Fn hFn e (by cases e <;> simp)
  cases hp : makeHeaderPacker Fn.1 e with
  | error err => rw [hp] at this; simp [Except.map] at this
  | ok p =>
    rw [hp] at this
    simp only [Except.map, Except.ok.injEq] at this
    exact ⟨p, rfl, this⟩

/-- Every value a field of a shipped format admits can be stored in the field's bytes. -/
theorem C34_shipped_storable : ∀ Fn ∈ shippedFormats, Fn.1.Storable := by
  have h : ∀ Fn ∈ shippedFormats, ∀ f ∈ Fn.1.fields,
      match f.value_type.enum with
      | none => f.value_type.segy.Storable f.value_type.minimum ∧ f.value_type.segy.Storable f.value_type.maximum
      | some values => ∀ v ∈ values, f.value_type.segy.Storable v := by
    have : ∀ Fn ∈ shippedFormats, ∀ f ∈ Fn.1.fields,
      (∀ v ∈ f.value_type.enum.getD [f.value_type.minimum, f.value_type.maximum],
        f.value_type.segy.Storable v) := by decide +kernel
    intro Fn hFn f hf
    have := this Fn hFn f hf
    cases he : f.value_type.enum with
    | none => rw [he] at this; simpa using this
    | some values => rw [he] at this; simpa using this
  intro Fn hFn f hf v hv
  have := h Fn hFn f hf
  unfold ValueType.Admits at hv
  cases he : f.value_type.enum with
  | none =>
    rw [he] at this hv
    obtain ⟨h1, h2⟩ := this
    simp only at hv
    revert h1 h2
    cases f.value_type.segy <;> simp only [IntType.Storable] <;> omega
  | some values => rw [he] at this hv; exact this v hv

/-- The enumerated field types of the package are those that `enum_field` makes: it accepts their enumerations. -/
theorem C34_enum_types : ∀ q ∈ enumFieldTypes, ValueType.mkEnum q.1 q.2.1 q.2.2.1 = .ok q.2.2.2 := by
  decide +kernel

/-- Every field of the shipped formats is what `field` makes of its arguments: it accepts the default. -/
theorem C34_fields_made : ∀ Fn ∈ shippedFormats, ∀ f ∈ Fn.1.fields,
    mkField f.name f.value_type f.offset f.default = .ok f := by decide +kernel

end Segpy.Props
