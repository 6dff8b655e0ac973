import Verif.Py.Text
import Verif.Py.File

/-! # Vocabulary for stating the textual header properties -/

namespace Segpy.Spec

/-- The characters an encoding can represent: ASCII the first 128 code points, cp037 the first 256. -/
def Encodable (enc : Encoding) (s : PyStr) : Prop :=
  match enc with
  | .ascii => ∀ c ∈ s, c.toNat < 128
  | .ebcdic => ∀ c ∈ s, c.toNat < 256
  | .other => False

/-- A line cut or padded with spaces to 80 characters. -/
def card (l : PyStr) : PyStr := l.take 80 ++ List.replicate (80 - l.length) ' '

/-- The forty cards of a list of lines: excess lines dropped, missing lines blank. -/
def fortyCards (lines : List PyStr) : List PyStr := (List.range 40).map fun i => card (lines.getD i [])

/-- `s'` is the file `s` with `bs` stored at the position of `s` and the position moved past it. -/
structure Stored (s s' : FileH) (bs : Bytes) : Prop where
  stored : (s'.data.drop s.pos).take bs.length = bs
  before : s.pos ≤ s.data.length → s'.data.take s.pos = s.data.take s.pos
  after : s'.data.drop (s.pos + bs.length) = s.data.drop (s.pos + bs.length)
  pos : s'.pos = s.pos + bs.length

/-- A textual page as it has to be for extended headers: forty lines of eighty encodable characters. -/
def IsPage (enc : Encoding) (page : List PyStr) : Prop :=
  page.length = 40 ∧ ∀ l ∈ page, l.length = 80 ∧ Encodable enc l

/-- `cards` hold the line `line` wrapped at 78 characters: eighty characters each, ending in CR LF, and their bodies
joined are the line followed by fewer than 78 blanks.  In particular an empty line has no cards. -/
def WrappedAt78 (line : PyStr) (cards : List PyStr) : Prop :=
  (∀ c ∈ cards, c.length = 80 ∧ c.drop 78 = ['\r', '\n']) ∧
  ∃ m, m < 78 ∧ (cards.map (List.take 78)).flatten = line ++ List.replicate m ' '

/-- A blank card of an extended header. -/
def blankCard : PyStr := List.replicate 78 ' ' ++ ['\r', '\n']

/-- Does the first line of the page contain the stop stanza? -/
def Stops (page : List PyStr) : Prop := "((SEG: EndText))".toList <:+: page.getD 0 []

end Segpy.Spec
