import Verif.Model.Scan

/-!
# Model of the small functions on reel headers

`num_extended_textual_headers`, `samples_per_trace` and `trace_length_bytes` of `segpy/toolkit.py`,
`data_sample_format_size_in_bytes` of `segpy/datatypes.py` and `integer_to_decimal_revision` of `segpy/revisions.py`.
-/

namespace Segpy

/-- `num_extended_textual_headers(binary_reel_header)`, toolkit.py:51-62. -/
def numExtendedTextualHeaders (h : Header) : Res Int := h.get "num_extended_textual_headers"

/-- `samples_per_trace(binary_reel_header)`, toolkit.py:88-104. -/
def samplesPerTrace (h : Header) : Res Int := h.get "num_samples"

/-- `trace_length_bytes(binary_reel_header, bps)`, toolkit.py:107-124 (`TRACE_HEADER_NUM_BYTES` is 240, toolkit.py:31). -/
def traceLengthBytes (h : Header) (bps : Int) : Res Int := do
  let n ← samplesPerTrace h
  return n * bps + 240

/-- `data_sample_format_size_in_bytes(data_sample_format)`, datatypes.py:87-90. -/
def dataSampleFormatSizeInBytes (dsf : Int) : Res Nat := do
  let t ← dataSampleFormatToSegYType dsf
  return t.size

/-- `integer_to_decimal_revision(revision)`, revisions.py:56-68.  `Decimal` sums and quotients of these numbers have at
most four digits, so they are exact. -/
def integerToDecimalRevision (revision : Int) : ℚ :=
  let lo := revision % 256
  let hi := revision / 256 % 256
  (hi : ℚ) + (lo : ℚ) / 10

end Segpy
