import Verif.Spec.Reel
import Verif.Spec.Scan

/-! # Specification: which files open -/

namespace Segpy.Spec

/-- The integer stored in a field of the binary reel header. -/
def reelField (B : Format) (e : Endian) (data : Bytes) (f : Field) : Int :=
  storedInt e f.value_type.segy (B.fieldBytes f ((data.drop 3200).take 400))

/-- The pages of the extended textual header: as many as the binary header says, or, if it says a negative number, up to
the first page that begins with the stop stanza; no page before the last one does. -/
structure ExtendedPages (enc : Encoding) (data : Bytes) (declared : Int) (pages : List (List PyStr)) : Prop where
  readable : ∀ i (h : i < pages.length), PageAt enc data (3600 + 3200 * i) pages[i]
  count : declared = pages.length ∨ (declared < 0 ∧ ∃ p, pages.getLast? = some p ∧ Stops p)
  only_last_stops : ∀ p ∈ pages.dropLast, ¬ Stops p

/-- The reel headers of a file are complete and make sense: the text can be decoded, the fields of the binary header have
admissible values, and the pages of the extended textual header are there.  Then the samples have type `t`, and the traces
begin after `pages` pages. -/
structure SoundReel (enc : Encoding) (B : Format) (e : Endian) (data : Bytes) (t : SegYType) (pages : Nat) : Prop where
  size : 3600 ≤ data.length
  text : ∃ page, PageAt enc data 0 page
  binary : ∀ f ∈ B.fields, f.value_type.Admits (reelField B e data f)
  extended : ∀ f ∈ B.fields, f.name = "num_extended_textual_headers" →
    ∃ l : List (List PyStr), l.length = pages ∧ ExtendedPages enc data (reelField B e data f) l
  format : ∀ f ∈ B.fields, f.name = "data_sample_format" → formatCode t = some (reelField B e data f)

/-- The revision number in the binary header is one of those that are known. -/
def KnownRevision (B : Format) (e : Endian) (data : Bytes) : Prop :=
  ∀ f ∈ B.fields, f.name = "format_revision_num" → reelField B e data f ∈ [0, 1, 100, 256]

/-- The format has the fields of the binary reel header that reading a file depends on. -/
def HasReelFields (B : Format) : Prop :=
  ∀ name ∈ ["data_sample_format", "num_extended_textual_headers", "format_revision_num"], ∃ f ∈ B.fields, f.name = name

/-- A file from which a reader can be made. -/
def Sound (enc : Encoding) (B T : Format) (e : Endian) (data : Bytes) : Prop :=
  ∃ (t : SegYType) (pages : Nat) (starts : List Nat), SoundReel enc B e data t pages ∧ KnownRevision B e data ∧
    Traces T e data t.size (3600 + 3200 * pages) starts ∧ starts ≠ []

end Segpy.Spec
