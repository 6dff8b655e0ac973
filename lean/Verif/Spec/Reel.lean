import Verif.Spec.Text
import Verif.Spec.Samples
import Verif.Spec.Reader

/-! # The reel headers of a file -/

namespace Segpy.Spec

/-- The 3200 bytes at a position are a page of text in the given encoding. -/
def PageAt (enc : Encoding) (data : Bytes) (pos : Nat) (page : List PyStr) : Prop :=
  IsPage enc page ∧ pos + 3200 ≤ data.length ∧ encode enc page.flatten = .ok ((data.drop pos).take 3200)

/-- What the reel headers of a file contain: the textual header in the first 3200 bytes, the binary header in the next
400, then the pages of the extended textual header. -/
structure ReelHeaders (enc : Encoding) (B : Format) (e : Endian) (data : Bytes) (textual : List PyStr) (binary : Header)
    (extended : List (List PyStr)) : Prop where
  text : PageAt enc data 0 textual
  binary_format : binary.format = B
  /-- each field has the value stored at its place -/
  fields : ∀ f ∈ B.fields, binary.get f.name =
    .ok (storedInt e f.value_type.segy (B.fieldBytes f ((data.drop 3200).take 400)))
  pages : ∀ i (h : i < extended.length), PageAt enc data (3600 + 3200 * i) extended[i]
  /-- as many pages as the binary header says, or, if it says -1, up to a page that begins with the stop stanza; no page
  before the last one does -/
  count : ∃ n, binary.get "num_extended_textual_headers" = .ok n ∧
    (n = extended.length ∨ (n < 0 ∧ ∃ p, extended.getLast? = some p ∧ Stops p))
  only_last_stops : ∀ p ∈ extended.dropLast, ¬ Stops p

end Segpy.Spec
