import Verif.Spec.Standard
import Verif.Model.Formats
import Verif.Props.Packer
import Verif.Props.Reader
import Verif.Props.Reel

/-! # Headers and the SEG Y standard: C104 -/

namespace Segpy.Props

open Segpy.Spec

/-- The header formats of the package and the headers of the standard that they are for. -/
def standardFormats : List (Format × HeaderTable) :=
  [(fmtBinaryReelHeader, binaryTable), (fmtTraceHeaderRev0, traceTable0), (fmtTraceHeaderRev1, traceTable1)]

/-- The field that is at the place of an entry and has its name. -/
private def Matches (f : Field) (n : String × Nat × Nat) : Prop :=
  f.name = n.1 ∧ f.offset = n.2.1 ∧ n.2.1 + f.value_type.size = n.2.2 + 1

private instance (f : Field) (n : String × Nat × Nat) : Decidable (Matches f n) := by
  unfold Matches; infer_instance

private theorem table_start : ∀ S ∈ standardFormats, S.1.startOffset = (S.2.start : Int) ∧ (S.1, S.2.length) ∈ shippedFormats := by
  decide +kernel

private theorem entries_fields : ∀ S ∈ standardFormats, ∀ n ∈ S.2.entries, n.1 ≠ "source_energy_direction" →
    ∃ f ∈ S.1.fields, Matches f n := by decide +kernel

private theorem twos_eq (e : Endian) (t : IntType) (bs : Bytes) (hl : bs.length = t.size) (ht : t.signed = true) :
    twosComplement e bs = storedInt e t bs := by
  unfold twosComplement storedInt
  rw [ht, hl]
  generalize bytesNat e bs = n
  cases t
  case int32 => rw [show IntType.int32.size = 4 from rfl]; norm_num; split <;> split <;> omega
  case int16 => rw [show IntType.int16.size = 2 from rfl]; norm_num; split <;> split <;> omega
  case int8 => rw [show IntType.int8.size = 1 from rfl]; norm_num; split <;> split <;> omega
  all_goals cases ht

/-- Half the range of an unsigned type. -/
private def half : IntType → Int
  | .int32 | .nnint32 => 2147483647
  | .int16 | .nnint16 => 32767
  | .int8 | .nnint8 => 127

private theorem unsigned_eq (e : Endian) (t : IntType) (bs : Bytes) (hl : bs.length = t.size) (ht : t.signed = false) :
    (storedInt e t bs ≤ half t ↔ 0 ≤ twosComplement e bs) ∧
    (storedInt e t bs ≤ half t → twosComplement e bs = storedInt e t bs) := by
  have hlt : bytesNat e bs < 2 ^ (8 * bs.length) := by
    rw [bytesNat_eq, pow_mul, ← e.order_length bs]
    exact leNat_lt _
  rw [hl] at hlt
  unfold twosComplement storedInt
  rw [ht, hl]
  revert hlt
  generalize bytesNat e bs = n
  intro hlt
  cases t
  case nnint32 =>
    rw [show IntType.nnint32.size = 4 from rfl] at *; norm_num [half] at hlt ⊢
    constructor
    · split <;> omega
    · intro _; omega
  case nnint16 =>
    rw [show IntType.nnint16.size = 2 from rfl] at *; norm_num [half] at hlt ⊢
    constructor
    · split <;> omega
    · intro _; omega
  case nnint8 =>
    rw [show IntType.nnint8.size = 1 from rfl] at *; norm_num [half] at hlt ⊢
    constructor
    · split <;> omega
    · intro _; omega
  all_goals cases ht

private theorem stored_of_represents {e : Endian} {t : IntType} {bs : Bytes} {v : Int} (h1 : t.Storable v)
    (hl : bs.length = t.size) (h : Represents e bs v) : storedInt e t bs = v := by
  unfold Represents at h
  unfold storedInt
  rw [hl] at h ⊢
  rw [h]
  unfold IntType.Storable at h1
  cases t
  case int32 => rw [show IntType.int32.size = 4 from rfl]; simp only [IntType.signed] at h1 ⊢; norm_num; split <;> omega
  case int16 => rw [show IntType.int16.size = 2 from rfl]; simp only [IntType.signed] at h1 ⊢; norm_num; split <;> omega
  case int8 => rw [show IntType.int8.size = 1 from rfl]; simp only [IntType.signed] at h1 ⊢; norm_num; split <;> omega
  case nnint32 => rw [show IntType.nnint32.size = 4 from rfl]; simp only [IntType.signed] at h1 ⊢; norm_num; omega
  case nnint16 => rw [show IntType.nnint16.size = 2 from rfl]; simp only [IntType.signed] at h1 ⊢; norm_num; omega
  case nnint8 => rw [show IntType.nnint8.size = 1 from rfl]; simp only [IntType.signed] at h1 ⊢; norm_num; omega

private theorem bytes_eq {S : Format × HeaderTable} (hS : S ∈ standardFormats) {f : Field} (hf : f ∈ S.1.fields)
    {n : String × Nat × Nat} (hm : Matches f n) (bs : Bytes) :
    S.1.fieldBytes f bs = numberedBytes S.2.start bs n.2.1 n.2.2 := by
  obtain ⟨-, h2, h3⟩ := hm
  have h4 : (S.2.start : Int) ≤ f.offset := by
    rw [← (table_start S hS).1]
    exact (C34_shipped_formats _ (table_start S hS).2 .big).2.2.2.1 f hf
  unfold Format.fieldBytes slice numberedBytes
  rw [(table_start S hS).1]
  congr 1
  · omega
  · congr 1; omega

private theorem bytes_length {S : Format × HeaderTable} (hS : S ∈ standardFormats) {f : Field} (hf : f ∈ S.1.fields)
    {bs : Bytes} (hb : bs.length = S.2.length) : (S.1.fieldBytes f bs).length = f.value_type.size := by
  obtain ⟨⟨p, hp, -⟩, -, -, h4, -, h6, -⟩ := C34_shipped_formats _ (table_start S hS).2 .big
  have h5 := h4 f hf
  obtain ⟨r, hr⟩ : ∃ r, compileStruct S.1 S.1.startOffset S.1.lengthInBytes .big = .ok r := by
    unfold makeHeaderPacker at hp
    obtain ⟨r, hr, -⟩ := res_bind_ok hp
    exact ⟨r, hr⟩
  have h7 := ((C26_accepts_iff _ _ _ _).mp ⟨r, hr⟩).2.2.2.2 _ h6 f hf
  unfold Format.fieldBytes slice
  rw [List.length_take, List.length_drop]
  simp only at h5 h7
  omega

private theorem types : ∀ S ∈ standardFormats, ∀ f ∈ S.1.fields, f.value_type.segy.signed = true ∨
    (f.value_type.segy.signed = false ∧ f.value_type.enum = none ∧ f.value_type.minimum = 0 ∧
      f.value_type.maximum = half f.value_type.segy) := by decide +kernel

private theorem value_eq {S : Format × HeaderTable} (hS : S ∈ standardFormats) {f : Field} (hf : f ∈ S.1.fields)
    {n : String × Nat × Nat} (hm : Matches f n) (e : Endian) {bs : Bytes} (hb : bs.length = S.2.length)
    (ha : f.value_type.Admits (storedInt e f.value_type.segy (S.1.fieldBytes f bs))) :
    S.2.number e bs n.2.1 n.2.2 = storedInt e f.value_type.segy (S.1.fieldBytes f bs) := by
  unfold HeaderTable.number
  rw [← bytes_eq hS hf hm]
  rcases types S hS f hf with h | ⟨h1, h2, -, h3⟩
  · exact twos_eq e _ _ (bytes_length hS hf hb) h
  · refine (unsigned_eq e _ _ (bytes_length hS hf hb) h1).2 ?_
    unfold ValueType.Admits at ha
    rw [h2, h3] at ha
    exact ha.2

private theorem value_eq_signed {S : Format × HeaderTable} (hS : S ∈ standardFormats) {f : Field} (hf : f ∈ S.1.fields)
    {n : String × Nat × Nat} (hm : Matches f n) (e : Endian) {bs : Bytes} (hb : bs.length = S.2.length)
    (h : f.value_type.segy.signed = true) :
    S.2.number e bs n.2.1 n.2.2 = storedInt e f.value_type.segy (S.1.fieldBytes f bs) := by
  unfold HeaderTable.number
  rw [← bytes_eq hS hf hm]
  exact twos_eq e _ _ (bytes_length hS hf hb) h

private theorem packed_length {S : Format × HeaderTable} (hS : S ∈ standardFormats) (bs : Bytes) :
    S.1.packedLength bs.length ↔ bs.length = S.2.length := by
  have h6 := (C34_shipped_formats _ (table_start S hS).2 .big).2.2.2.2.2.1
  unfold Format.packedLength
  rw [h6]
  simp only
  omega

/-- The fields of the shipped header formats have the names of the entries of the standard, in their order; and a header
that is unpacked has in each field the number in the bytes where the standard has the entry.  Missing: of the six bytes of
`source_energy_direction` there are only four. -/
theorem C104_read_partial : ∀ S ∈ standardFormats, ∀ (e : Endian) (p : HeaderPacker) (bs : Bytes) (h : Header),
    makeHeaderPacker S.1 e = .ok p → p.unpack bs = .ok h →
    bs.length = S.2.length ∧ h.format.orderedFieldNames = S.2.entries.map Prod.fst ∧
    (∀ n ∈ S.2.entries, n.1 ≠ "source_energy_direction" → h.get n.1 = .ok (S.2.number e bs n.2.1 n.2.2)) ∧
    (∀ n ∈ S.2.entries, n.1 = "source_energy_direction" → h.get n.1 = .ok (S.2.number e bs 219 222)) := by
  intro S hS e p bs h hp hu
  obtain ⟨-, hio, -, has, -⟩ := C34_shipped_formats _ (table_start S hS).2 e
  rcases C29_unpack S.1 e p bs hp has (.inl hio) with ⟨h', g1, g2, g3, g4⟩ | ⟨g1, -⟩
  swap
  · rw [hu] at g1; cases g1
  rw [hu] at g1
  cases g1
  have hb := (packed_length hS bs).mp g3
  have hnames : ∀ S ∈ standardFormats, S.1.orderedFieldNames = S.2.entries.map Prod.fst := by decide +kernel
  refine ⟨hb, g2 ▸ hnames S hS, ?_, ?_⟩
  · intro n hn hne
    obtain ⟨f, hf, hm⟩ := entries_fields S hS n hn hne
    rw [value_eq hS hf hm e hb (g4 f hf).1, ← hm.1]
    exact (g4 f hf).2
  · intro n hn hne
    have hk : ∀ S ∈ standardFormats, ∀ n ∈ S.2.entries, n.1 = "source_energy_direction" →
        ∃ f ∈ S.1.fields, Matches f (n.1, 219, 222) := by decide +kernel
    obtain ⟨f, hf, hm⟩ := hk S hS n hn hne
    rw [value_eq hS hf hm e hb (g4 f hf).1, ← (g4 f hf).2, ← hm.1]

/-- A header that is packed has the number of each field in the bytes where the standard has the entry, and zeros in all
bytes without an entry.  Missing: `source_energy_direction`. -/
theorem C104_written_partial : ∀ S ∈ standardFormats, ∀ (e : Endian) (p : HeaderPacker) (bs : Bytes) (h : Header),
    makeHeaderPacker S.1 e = .ok p → h.format = S.1 → h.Valid → p.pack h = .ok bs →
    bs.length = S.2.length ∧
    (∀ n ∈ S.2.entries, n.1 ≠ "source_energy_direction" → h.get n.1 = .ok (S.2.number e bs n.2.1 n.2.2)) ∧
    (∀ n ∈ S.2.entries, n.1 = "source_energy_direction" →
      h.get n.1 = .ok (S.2.number e bs 219 222) ∧ S.2.number e bs 223 224 = 0) ∧
    (∀ k < S.2.length, (∀ n ∈ S.2.entries, ¬ (n.2.1 ≤ S.2.start + k ∧ S.2.start + k ≤ n.2.2)) → bs[k]? = some 0) := by
  intro S hS e p bs h hp hformat hvalid hb
  obtain ⟨-, hio, -, has, -⟩ := C34_shipped_formats _ (table_start S hS).2 e
  obtain ⟨g1, g2, g3⟩ := C27_layout S.1 e p h bs hp has ⟨[], by rw [List.append_nil]; exact hformat⟩ hb
  have hl := (packed_length hS bs).mp g1
  have key : ∀ f ∈ S.1.fields, ∀ n, Matches f n → h.get n.1 = .ok (S.2.number e bs n.2.1 n.2.2) := by
    intro f hf n hm
    obtain ⟨v, h1, h2, h3, h4⟩ := g2 f hf
    have h5 := stored_of_represents h2 h3 h4
    obtain ⟨v', h6, h7⟩ := hvalid f (hformat ▸ hf)
    rw [h1] at h6
    cases h6
    rw [value_eq hS hf hm e hl (h5 ▸ h7), h5, ← hm.1, h1]
  refine ⟨hl, ?_, ?_, ?_⟩
  · intro n hn hne
    obtain ⟨f, hf, hm⟩ := entries_fields S hS n hn hne
    exact key f hf n hm
  · intro n hn hne
    have hk : ∀ S ∈ standardFormats, ∀ n ∈ S.2.entries, n.1 = "source_energy_direction" →
        (∃ f ∈ S.1.fields, Matches f (n.1, 219, 222)) ∧ S.2.start = 1 ∧ S.2.length = 240 ∧ 
          (∀ f ∈ S.1.fields, f.offset + f.value_type.size ≤ 223 ∨ 225 ≤ f.offset) := by decide +kernel
    obtain ⟨⟨f, hf, hm⟩, hs1, hs2, hgap⟩ := hk S hS n hn hne
    refine ⟨key f hf _ hm, ?_⟩
    have hz : ∀ k, k = 222 ∨ k = 223 → bs[k]? = some 0 := by
      intro k hk
      refine g3 k (by omega) ?_
      intro f hf
      have := hgap f hf
      rw [(table_start S hS).1]
      omega
    have h222 := hz 222 (.inl rfl)
    have h223 := hz 223 (.inr rfl)
    have hbytes : numberedBytes S.2.start bs 223 224 = [0, 0] := by
      unfold numberedBytes
      rw [hs1]
      rw [List.getElem?_eq_some_iff] at h222 h223
      obtain ⟨l1, e1⟩ := h222
      obtain ⟨l2, e2⟩ := h223
      show (bs.drop 222).take 2 = _
      rw [List.drop_eq_getElem_cons l1, List.drop_eq_getElem_cons l2, e1, e2]
      rfl
    unfold HeaderTable.number
    rw [hbytes]
    cases e <;> decide
  · intro k hk hn
    refine g3 k (by omega) ?_
    intro f hf
    have hcover : ∀ S ∈ standardFormats, ∀ f ∈ S.1.fields, ∃ n ∈ S.2.entries,
        (n.2.1 : Int) ≤ f.offset ∧ f.offset + f.value_type.size ≤ n.2.2 + 1 := by decide +kernel
    obtain ⟨n, h1, h2, h3⟩ := hcover S hS f hf
    have := hn n h1
    rw [(table_start S hS).1]
    omega

/-- Bytes can be unpacked as a header exactly if they have the length of the header in the standard, the entries that hold
codes have accepted codes, dates and the like are within bounds, and certain entries are not negative. -/
theorem C104_accepts_partial : ∀ S ∈ standardFormats, ∀ (e : Endian) (p : HeaderPacker) (bs : Bytes),
    makeHeaderPacker S.1 e = .ok p →
    ((∃ h, p.unpack bs = .ok h) ↔ bs.length = S.2.length ∧
      (∀ c ∈ S.2.codes, S.2.number e bs c.2.1 (c.2.1 + 1) ∈ acceptedCodes c.1 c.2.2) ∧
      (∀ c ∈ S.2.bounds, c.2.2.1 ≤ S.2.number e bs c.2.1 (c.2.1 + 1) ∧ S.2.number e bs c.2.1 (c.2.1 + 1) ≤ c.2.2.2) ∧
      (∀ n ∈ S.2.entries, n.1 ∈ S.2.nonnegative → 0 ≤ S.2.number e bs n.2.1 n.2.2)) := by
  intro S hS e p bs hp
  obtain ⟨-, hio, -, has, -⟩ := C34_shipped_formats _ (table_start S hS).2 e
  have hcodes : ∀ S ∈ standardFormats, ∀ c ∈ S.2.codes,
      ∃ f ∈ S.1.fields, Matches f (c.1, c.2.1, c.2.1 + 1) ∧ f.value_type.enum ≠ none ∧
        ∀ v ∈ f.value_type.enum.getD [], v ∈ acceptedCodes c.1 c.2.2 := by decide +kernel
  have hbounds : ∀ S ∈ standardFormats, ∀ c ∈ S.2.bounds,
      ∃ f ∈ S.1.fields, Matches f (c.1, c.2.1, c.2.1 + 1) ∧ f.value_type.enum = none ∧
        f.value_type.minimum = c.2.2.1 ∧ f.value_type.maximum = c.2.2.2 := by decide +kernel
  have hnn : ∀ S ∈ standardFormats, ∀ n ∈ S.2.entries, n.1 ∈ S.2.nonnegative →
      ∃ f ∈ S.1.fields, Matches f n ∧ f.value_type.enum = none ∧ f.value_type.minimum = 0 := by decide +kernel
  have hall : ∀ S ∈ standardFormats, ∀ f ∈ S.1.fields,
      (∃ c ∈ S.2.codes, Matches f (c.1, c.2.1, c.2.1 + 1) ∧ f.value_type.segy.signed = true ∧
        f.value_type.enum ≠ none ∧ ∀ v ∈ acceptedCodes c.1 c.2.2, v ∈ f.value_type.enum.getD []) ∨
      (∃ c ∈ S.2.bounds, Matches f (c.1, c.2.1, c.2.1 + 1) ∧ f.value_type.segy.signed = true ∧ f.value_type.enum = none ∧
        f.value_type.minimum = c.2.2.1 ∧ f.value_type.maximum = c.2.2.2) ∨
      (∃ n ∈ S.2.entries, n.1 ∈ S.2.nonnegative ∧ Matches f n ∧ f.value_type.segy.signed = false) ∨
      (f.value_type.segy.signed = true ∧ f.value_type.enum = none ∧ f.value_type.minimum = intLo f.value_type.segy ∧
        f.value_type.maximum = intHi f.value_type.segy) := by decide +kernel
  constructor
  · rintro ⟨h, hu⟩
    rcases C29_unpack S.1 e p bs hp has (.inl hio) with ⟨h', g1, g2, g3, g4⟩ | ⟨g1, -⟩
    swap
    · rw [hu] at g1; cases g1
    have hb := (packed_length hS bs).mp g3
    refine ⟨hb, ?_, ?_, ?_⟩
    · intro c hc
      obtain ⟨f, hf, hm, h1, h2⟩ := hcodes S hS c hc
      have := (g4 f hf).1
      rw [value_eq hS hf hm e hb this]
      unfold ValueType.Admits at this
      cases he : f.value_type.enum with
      | none => exact absurd he h1
      | some l =>
        rw [he] at this h2
        exact h2 _ this
    · intro c hc
      obtain ⟨f, hf, hm, h2, h3, h4⟩ := hbounds S hS c hc
      have := (g4 f hf).1
      rw [value_eq hS hf hm e hb this]
      unfold ValueType.Admits at this
      rw [h2, h3, h4] at this
      exact this
    · intro n hn hneg
      obtain ⟨f, hf, hm, h2, h3⟩ := hnn S hS n hn hneg
      have := (g4 f hf).1
      rw [value_eq hS hf hm e hb this]
      unfold ValueType.Admits at this
      rw [h2, h3] at this
      exact this.1
  · rintro ⟨hb, hc, hbd, hneg⟩
    rcases C29_unpack S.1 e p bs hp has (.inl hio) with ⟨h', g1, -⟩ | ⟨-, g1 | ⟨f, hf, g1⟩⟩
    · exact ⟨h', g1⟩
    · exact absurd ((packed_length hS bs).mpr hb) g1
    · exfalso
      apply g1
      rcases hall S hS f hf with ⟨c, h1, hm, hsg, h3, h4⟩ | ⟨c, h1, hm, hsg, h3, h4, h5⟩ | ⟨n, hn, h1, hm, hsg⟩ |
        ⟨-, h1, h2, h3⟩
      · rw [← value_eq_signed hS hf hm e hb hsg]
        unfold ValueType.Admits
        cases he : f.value_type.enum with
        | none => exact absurd he h3
        | some l =>
          rw [he] at h4
          exact h4 _ (hc c h1)
      · rw [← value_eq_signed hS hf hm e hb hsg]
        unfold ValueType.Admits
        rw [h3, h4, h5]
        exact hbd c h1
      · have := hneg n hn h1
        unfold HeaderTable.number at this
        rw [← bytes_eq hS hf hm, ← (unsigned_eq e _ _ (bytes_length hS hf hb) hsg).1] at this
        rcases types S hS f hf with h | ⟨-, h2, h3, h4⟩
        · rw [hsg] at h; cases h
        · unfold ValueType.Admits
          rw [h2, h3, h4]
          refine ⟨?_, this⟩
          unfold storedInt
          rw [hsg]
          simp
      · unfold ValueType.Admits
        rw [h1, h2, h3]
        exact storedInt_bounds (bytes_length hS hf hb)

/-- The headers that a reader with the default formats reports have the numbers that are in the bytes of the file where the
standard has the entries, of the binary header after 3200 bytes of text, and of a trace header where the trace begins.
Missing: `source_energy_direction`. -/
theorem C104_reader_partial (e : Endian) (encoding : Option Encoding) (dim : Option Int) (s s' : FileH) (hs : s.pos = 0)
    (r : Reader) (progress : List ℚ)
    (h : createReader encoding fmtBinaryReelHeader fmtTraceHeaderRev1 e dim s = (.ok (r, progress), s')) :
    (∀ n ∈ standardBinaryHeader, r.binary_reel_header.get n.1 =
      .ok (twosComplement e (numberedBytes 1 s.data n.2.1 n.2.2))) ∧
    ∃ (t : SegYType) (starts : List Nat), Traces fmtTraceHeaderRev1 e s.data t.size (3600 + 3200 * r.extended_textual_headers.length) starts ∧
      ∀ (i : Nat) (hi : i < starts.length) (pos : Nat) (hd : Header),
        (r.traceHeader i none { s with pos := pos }).1 = .ok hd →
        ∀ n ∈ standardTraceHeader1, n.1 ≠ "source_energy_direction" →
          hd.get n.1 = .ok (twosComplement e (numberedBytes 1 (s.data.drop starts[i]) n.2.1 n.2.2)) := by
  have hS : ((fmtBinaryReelHeader, binaryTable) : Format × HeaderTable) ∈ standardFormats := by simp [standardFormats]
  have hS1 : ((fmtTraceHeaderRev1, traceTable1) : Format × HeaderTable) ∈ standardFormats := by simp [standardFormats]
  constructor
  · obtain ⟨⟨p, hp, -⟩, hio, -, has, -⟩ := C34_shipped_formats _ (table_start _ hS).2 e
    have hB : Regular fmtBinaryReelHeader e 400 := by
      obtain ⟨-, -, -, -, -, hlen, -, hd⟩ := C34_shipped_formats _ (table_start _ hS).2 e
      refine ⟨⟨p, hp⟩, has, .inl hio, ?_, C34_shipped_storable _ (table_start _ hS).2, hlen⟩
      have : ∀ f ∈ fmtBinaryReelHeader.fields, ∀ g ∈ fmtBinaryReelHeader.fields, f = g ∨ f.Disjoint g := by decide +kernel
      exact this
    obtain ⟨hf, hv⟩ := createReader_binary has (.inl hio) h
    have hsize : 3600 ≤ s.data.length := by
      obtain ⟨_, _, _, _, _, _, _, _, _, _, _, _, _, _, _, _, _, _, _, hsize⟩ := createReader_ok h
      exact hsize
    have hr := (C71_reel_headers encoding _ _ e hB dim s s' hs r progress h).2
    have hlen : ((s.data.drop 3200).take 400).length = 400 := by
      rw [List.length_take, List.length_drop]
      omega
    intro n hn
    have hne : n.1 ≠ "source_energy_direction" := by
      have : ∀ n ∈ standardBinaryHeader, n.1 ≠ "source_energy_direction" := by decide +kernel
      exact this n hn
    obtain ⟨f, hfm, hm⟩ := entries_fields _ hS n hn hne
    have h1 := hr.fields f hfm
    obtain ⟨v, h2, h3⟩ := hv f (hf ▸ hfm)
    rw [h1] at h2
    cases h2
    rw [← hm.1, h1]
    congr 1
    rw [← value_eq hS hfm hm e hlen h3]
    unfold HeaderTable.number numberedBytes
    have hb : ∀ n ∈ standardBinaryHeader, 3201 ≤ n.2.1 ∧ n.2.1 ≤ n.2.2 ∧ n.2.2 ≤ 3600 := by decide +kernel
    have := hb n hn
    have hcut : List.take (n.2.2 + 1 - n.2.1) (List.drop (n.2.1 - 3201) ((s.data.drop 3200).take 400)) =
        List.take (n.2.2 + 1 - n.2.1) (List.drop (n.2.1 - 1) s.data) := by
      rw [List.drop_take, List.take_take, List.drop_drop, Nat.min_eq_left (by omega),
        show 3200 + (n.2.1 - 3201) = n.2.1 - 1 by omega]
    exact congrArg (twosComplement e) hcut
  · obtain ⟨-, hio, -⟩ := C34_shipped_formats _ (table_start _ hS1).2 e
    have hT := C43_rev1_cataloguable e
    obtain ⟨t, st, hr, ho⟩ := createReader_all hT h
    refine ⟨t, st, ho.traces, ?_⟩
    intro i hi pos hd hh n hn hne
    obtain ⟨hf, hv, hg⟩ := traceHeader_ok hT (.inl hio) hr ho hi hh
    obtain ⟨f, hfm, hm⟩ := entries_fields _ hS1 n hn hne
    have h1 := hg f hfm
    obtain ⟨v, h2, h3⟩ := hv f (hf ▸ hfm)
    rw [h1] at h2
    cases h2
    rw [← hm.1, h1]
    congr 1
    have hfield : fieldAt fmtTraceHeaderRev1 e s.data st[i] f.name =
        storedInt e f.value_type.segy (fmtTraceHeaderRev1.fieldBytes f (headerBytes s.data st[i])) := by
      unfold fieldAt
      rw [Format.mem_fields.mp hfm]
    have hlen : (headerBytes s.data st[i]).length = 240 := by
      obtain ⟨hroom, -⟩ := start_facts hT ho (List.getElem_mem hi)
      unfold headerBytes
      rw [List.length_take, List.length_drop]
      omega
    rw [hfield] at h3 ⊢
    rw [← value_eq hS1 hfm hm e hlen h3]
    unfold HeaderTable.number numberedBytes headerBytes
    have hb : ∀ n ∈ standardTraceHeader1, 1 ≤ n.2.1 ∧ n.2.1 ≤ n.2.2 ∧ n.2.2 ≤ 240 := by decide +kernel
    have := hb n hn
    have hcut : List.take (n.2.2 + 1 - n.2.1) (List.drop (n.2.1 - 1) ((s.data.drop st[i]).take 240)) =
        List.take (n.2.2 + 1 - n.2.1) (List.drop (n.2.1 - 1) (s.data.drop st[i])) := by
      rw [List.drop_take, List.take_take, Nat.min_eq_left (by omega)]
    exact congrArg (twosComplement e) hcut

private theorem unpacks (S : Format × HeaderTable) (hS : S ∈ standardFormats) (e : Endian) (bs : Bytes) :
    ∃ p, makeHeaderPacker S.1 e = .ok p ∧ ((∃ h, p.unpack bs = .ok h) ∨ p.unpack bs = .error .valueError) := by
  obtain ⟨⟨p, hp, -⟩, hio, -, has, -⟩ := C34_shipped_formats _ (table_start _ hS).2 e
  refine ⟨p, hp, ?_⟩
  rcases C29_unpack S.1 e p bs hp has (.inl hio) with ⟨h, g1, -⟩ | ⟨g1, -⟩
  · exact .inl ⟨h, g1⟩
  · exact .inr g1

/-- A file as the theorem asks for. -/
example : ∃ (r : Reader) (progress : List ℚ) (s' : FileH), sampleFile.pos = 0 ∧
    createReader (some .ebcdic) fmtBinaryReelHeader fmtTraceHeaderRev1 .big none sampleFile = (.ok (r, progress), s') := by
  have h := sampleFile_opens
  cases hc : createReader (some .ebcdic) fmtBinaryReelHeader fmtTraceHeaderRev1 .big none sampleFile with
  | mk res s' =>
    rw [hc] at h
    cases res with
    | error err => simp [Except.map] at h
    | ok x => exact ⟨x.1, x.2, s', rfl, rfl⟩

/-- A header, in big-endian order, in which every code but the revision number is 1; and some more bytes. -/
def exampleHeader (H : HeaderTable) (more : List (Nat × UInt8)) : Bytes :=
  let codes := H.codes.filter fun (c : String × Nat × List Int) => c.1 ≠ "format_revision_num"
  (codes.map (fun (c : String × Nat × List Int) => (c.2.1 + 1, (1 : UInt8))) ++ more).foldl
    (fun (bs : Bytes) (x : Nat × UInt8) => bs.set (x.1 - H.start) x.2) (List.replicate H.length 0)

/-- The direction of the source energy is not read as the standard has it: the last two bytes are ignored. -/
theorem C104_energy_direction_fails :
    ("source_energy_direction", 219, 224) ∈ standardTraceHeader1 ∧
    ∃ (bs : Bytes) (p : HeaderPacker) (h : Header), makeHeaderPacker fmtTraceHeaderRev1 .big = .ok p ∧ p.unpack bs = .ok h ∧
      traceTable1.number .big bs 219 224 = 513 ∧ h.get "source_energy_direction" = .ok 0 := by
  have hS1 : ((fmtTraceHeaderRev1, traceTable1) : Format × HeaderTable) ∈ standardFormats := by simp [standardFormats]
  refine ⟨by decide +kernel, exampleHeader traceTable1 [(223, 2), (224, 1)], ?_⟩
  obtain ⟨p, hp, -⟩ := unpacks _ hS1 .big []
  obtain ⟨h, hh⟩ := (C104_accepts_partial _ hS1 .big p (exampleHeader traceTable1 [(223, 2), (224, 1)]) hp).mpr
    (by decide +kernel)
  refine ⟨p, h, hp, hh, by decide +kernel, ?_⟩
  rw [(C104_read_partial _ hS1 .big p _ h hp hh).2.2.2 ("source_energy_direction", 219, 224) (by decide +kernel) rfl]
  have : traceTable1.number .big (exampleHeader traceTable1 [(223, 2), (224, 1)]) 219 222 = 0 := by decide +kernel
  rw [this]

/-- Headers that hold only codes of the standard are refused: a binary header with sample format 4, and a trace header
with a negative datum elevation at the receiver group, as of receivers below sea level. -/
theorem C104_refused_fails :
    (∃ (bs : Bytes) (p : HeaderPacker), makeHeaderPacker fmtBinaryReelHeader .big = .ok p ∧ bs.length = 400 ∧
      (∀ c ∈ binaryTable.codes, binaryTable.number .big bs c.2.1 (c.2.1 + 1) ∈ c.2.2) ∧
      binaryTable.number .big bs 3225 3226 = 4 ∧ p.unpack bs = .error .valueError) ∧
    (∃ (bs : Bytes) (p : HeaderPacker), makeHeaderPacker fmtTraceHeaderRev1 .big = .ok p ∧ bs.length = 240 ∧
      (∀ c ∈ traceTable1.codes, traceTable1.number .big bs c.2.1 (c.2.1 + 1) ∈ c.2.2) ∧
      ("datum_elevation_at_receiver_group", 53, 56) ∈ standardTraceHeader1 ∧
      traceTable1.number .big bs 53 56 = -5 ∧ p.unpack bs = .error .valueError) := by
  have hS : ((fmtBinaryReelHeader, binaryTable) : Format × HeaderTable) ∈ standardFormats := by simp [standardFormats]
  have hS1 : ((fmtTraceHeaderRev1, traceTable1) : Format × HeaderTable) ∈ standardFormats := by simp [standardFormats]
  constructor
  · obtain ⟨p, hp, hu⟩ := unpacks _ hS .big (exampleHeader binaryTable [(3226, 4)])
    refine ⟨_, p, hp, by decide +kernel, by decide +kernel, by decide +kernel, hu.resolve_left fun hu => ?_⟩
    have := ((C104_accepts_partial _ hS .big p _ hp).mp hu).2.1
    revert this
    decide +kernel
  · obtain ⟨p, hp, hu⟩ := unpacks _ hS1 .big (exampleHeader traceTable1 [(53, 255), (54, 255), (55, 255), (56, 251)])
    refine ⟨_, p, hp, by decide +kernel, by decide +kernel, by decide +kernel, by decide +kernel,
      hu.resolve_left fun hu => ?_⟩
    have := ((C104_accepts_partial _ hS1 .big p _ hp).mp hu).2.2.2
    revert this
    decide +kernel

/-- Headers as the theorems ask for: these are unpacked, with coordinates as stored, and can be packed. -/
example : ∃ (p : HeaderPacker) (h : Header), makeHeaderPacker fmtTraceHeaderRev1 .big = .ok p ∧
    p.unpack (exampleHeader traceTable1 [(181, 255), (182, 255), (183, 254), (184, 1), (191, 1)]) = .ok h ∧
    h.get "cdp_x" = .ok (-511) ∧ h.get "inline_number" = .ok 256 ∧ h.get "data_use" = .ok 1 := by
  have hS1 : ((fmtTraceHeaderRev1, traceTable1) : Format × HeaderTable) ∈ standardFormats := by simp [standardFormats]
  obtain ⟨p, hp, -⟩ := unpacks _ hS1 .big []
  obtain ⟨h, hh⟩ := (C104_accepts_partial _ hS1 .big p
    (exampleHeader traceTable1 [(181, 255), (182, 255), (183, 254), (184, 1), (191, 1)]) hp).mpr (by decide +kernel)
  have hr := (C104_read_partial _ hS1 .big p _ h hp hh).2.2.1
  refine ⟨p, h, hp, hh, ?_, ?_, ?_⟩
  · rw [hr ("cdp_x", 181, 184) (by decide +kernel) (by decide)]
    exact congrArg Except.ok (by decide +kernel)
  · rw [hr ("inline_number", 189, 192) (by decide +kernel) (by decide)]
    exact congrArg Except.ok (by decide +kernel)
  · rw [hr ("data_use", 35, 36) (by decide +kernel) (by decide)]
    exact congrArg Except.ok (by decide +kernel)

end Segpy.Props
