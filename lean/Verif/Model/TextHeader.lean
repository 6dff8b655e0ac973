import Verif.Model.Util
import Verif.Model.Encoding
import Verif.Model.Template
import Verif.Py.File

/-!
# Model of the textual header functions of `segpy/toolkit.py`

Reading, writing, formatting and parsing of the 3200 byte textual header and of extended textual headers.
-/

namespace Segpy

/-- `HEADER_NEWLINE`, toolkit.py:23. -/
def HEADER_NEWLINE : PyStr := ['\r', '\n']
/-- `CARD_LENGTH`, toolkit.py:25. -/
def CARD_LENGTH : Nat := 80
/-- `CARDS_PER_HEADER`, toolkit.py:26. -/
def CARDS_PER_HEADER : Nat := 40
/-- `TEXTUAL_HEADER_NUM_BYTES`, toolkit.py:28. -/
def TEXTUAL_HEADER_NUM_BYTES : Nat := CARD_LENGTH * CARDS_PER_HEADER
/-- `BINARY_HEADER_NUM_BYTES`, toolkit.py:29. -/
def BINARY_HEADER_NUM_BYTES : Nat := 400
/-- `REEL_HEADER_NUM_BYTES`, toolkit.py:30. -/
def REEL_HEADER_NUM_BYTES : Nat := TEXTUAL_HEADER_NUM_BYTES + BINARY_HEADER_NUM_BYTES
/-- `TRACE_HEADER_NUM_BYTES`, toolkit.py:31. -/
def TRACE_HEADER_NUM_BYTES : Nat := 240
/-- `END_TEXT_STANZA`, toolkit.py:33. -/
def END_TEXT_STANZA : PyStr := "((SEG: EndText))".toList

/-- `guess_textual_header_encoding(fh)`, toolkit.py:127-142, with `restored_position_seek`, util.py:527-532. -/
def guessTextualHeaderEncoding : FileM (Option Encoding) := do
  let original ← FileM.tell
  FileM.seek 0
  let raw_header ← FileM.read TEXTUAL_HEADER_NUM_BYTES
  FileM.seek original
  return guessEncoding raw_header (.fin (1 / 2))

/-- The decoding of a textual header's bytes, toolkit.py:164. -/
def decodeCards (enc : Encoding) (raw_header : Bytes) : Res (List PyStr) := do
  let raw_lines ← batched raw_header CARD_LENGTH none
  raw_lines.mapM (decode enc)

/-- `read_textual_reel_header(fh, encoding)`, toolkit.py:145-165. -/
def readTextualReelHeader (enc : Encoding) : FileM (List PyStr) := do
  let raw_header ← FileM.read TEXTUAL_HEADER_NUM_BYTES
  let num_bytes_read := raw_header.length
  if num_bytes_read < TEXTUAL_HEADER_NUM_BYTES then
    FileM.raise .eofError
  else
    FileM.lift (decodeCards enc raw_header)

/-- `has_end_text_stanza(ext_header)`, toolkit.py:193-203; `ext_header[0]` raises on an empty header. -/
def hasEndTextStanza (ext_header : List PyStr) : Res Bool :=
  match ext_header with
  | [] => .error .indexError
  | l :: _ => .ok (isSubstring END_TEXT_STANZA l)

/-- The loop of `read_extended_headers_until_end`, toolkit.py:222-228.  `fuel` bounds the number of iterations; each
iteration that does not raise consumes 3200 bytes of the file, so that the file length is enough fuel
(`readUntil_fuel`).  Running out of fuel is reported as `nonTermination`, which
`C39_until_end_terminates` shows not to happen. -/
def readExtendedUntilEndLoop (enc : Encoding) : Nat → List (List PyStr) → FileM (List (List PyStr))
  | 0, _ => FileM.raise .nonTermination
  | fuel + 1, extended_headers => do
    let ext_header ← readTextualReelHeader enc
    let extended_headers := extended_headers ++ [ext_header]
    let stop ← FileM.lift (hasEndTextStanza ext_header)
    if stop then return extended_headers else readExtendedUntilEndLoop enc fuel extended_headers

/-- `read_extended_headers_until_end(fh, encoding)`, toolkit.py:206-228.  The loop bound is one more than the number
of bytes in the file. -/
def readExtendedHeadersUntilEnd (enc : Encoding) : FileM (List (List PyStr)) := fun s =>
  readExtendedUntilEndLoop enc (s.data.length + 1) [] s

/-- The loop of `read_extended_headers_counted`, toolkit.py:260-269; `i` is the loop index, `left` the number of
iterations left. -/
def readExtendedCountedLoop (enc : Encoding) (num_expected : Nat) :
    Nat → Nat → List (List PyStr) → FileM (List (List PyStr))
  | 0, _, extended_headers => return extended_headers
  | left + 1, i, extended_headers => do
    let ext_header ← readTextualReelHeader enc
    let extended_headers := extended_headers ++ [ext_header]
    let stop ← FileM.lift (hasEndTextStanza ext_header)
    if stop && i != num_expected - 1 then FileM.raise .valueError
    else readExtendedCountedLoop enc num_expected left (i + 1) extended_headers

/-- `read_extended_headers_counted(fh, num_expected, encoding)`, toolkit.py:231-269. -/
def readExtendedHeadersCounted (num_expected : Int) (enc : Encoding) : FileM (List (List PyStr)) :=
  if num_expected < 0 then FileM.raise .valueError
  else readExtendedCountedLoop enc num_expected.toNat num_expected.toNat 0 []

/-- `read_extended_textual_headers(fh, binary_reel_header, encoding)`, toolkit.py:272-304; the argument is the value of
the header's `num_extended_textual_headers` field. -/
def readExtendedTextualHeaders (declared_num_ext_headers : Int) (enc : Encoding) : FileM (List (List PyStr)) := do
  FileM.seek REEL_HEADER_NUM_BYTES
  if declared_num_ext_headers < 0 then readExtendedHeadersUntilEnd enc
  else readExtendedHeadersCounted declared_num_ext_headers enc

/-- `pad(iterable, padding, size)` with a size, util.py:68-71. -/
def padTo {α : Type} (l : List α) (padding : α) (size : Nat) : List α :=
  (l ++ List.replicate size padding).take size

/-- One encoded card, toolkit.py:675: `line.encode(encoding).ljust(CARD_LENGTH, ' '.encode(encoding))[:CARD_LENGTH]`. -/
def encodeCard (enc : Encoding) (line : PyStr) : Res Bytes := do
  let bs ← encode enc line
  let sp ← encodeChar enc ' '
  return (ljust bs CARD_LENGTH sp).take CARD_LENGTH

/-- `write_textual_reel_header(fh, lines, encoding)`, toolkit.py:643-679. -/
def writeTextualReelHeader (lines : List PyStr) (enc : Encoding) : FileM Unit := do
  if !isSupportedEncoding enc then FileM.raise .unsupportedEncodingError
  else
    let padded_lines ← FileM.lift ((padTo lines [] CARDS_PER_HEADER).mapM (encodeCard enc))
    let joined_header := padded_lines.flatten
    if joined_header.length ≠ TEXTUAL_HEADER_NUM_BYTES then FileM.raise .assertionError
    else FileM.write joined_header

/-- `pad_and_terminate_header_line(line, width)`, toolkit.py:738-739. -/
def padAndTerminateHeaderLine (line : PyStr) (width : Nat) : PyStr := ljust line width ' ' ++ HEADER_NEWLINE

/-- The pieces `original_line[i:i+width] for i in range(0, len(original_line), width)`, toolkit.py:725-726; `fuel`
bounds the recursion by the length of the line. -/
def widthChunks (width : Nat) : Nat → PyStr → List PyStr
  | 0, _ => []
  | fuel + 1, line => if line.isEmpty then [] else line.take width :: widthChunks width fuel (line.drop width)

/-- `format_extended_textual_header(text, encoding)` without the stop page, toolkit.py:710-729. -/
def formatExtendedPages (text : PyStr) (enc : Encoding) : Res (List (List PyStr)) :=
  if !isSupportedEncoding enc then .error .unsupportedEncodingError
  else
    let width := CARD_LENGTH - HEADER_NEWLINE.length
    let original_lines := splitlines text
    let lines := original_lines.flatMap fun original_line =>
      (widthChunks width original_line.length original_line).map fun piece => padAndTerminateHeaderLine piece width
    batched lines 40 (some (padAndTerminateHeaderLine [] width))

/-- `format_extended_textual_header(text, encoding, include_text_stop)`, toolkit.py:699-735. -/
def formatExtendedTextualHeader (text : PyStr) (enc : Encoding) (include_text_stop : Bool) :
    Res (List (List PyStr)) := do
  let pages ← formatExtendedPages text enc
  if include_text_stop then
    let stop_pages ← formatExtendedPages END_TEXT_STANZA enc
    match stop_pages with
    | [] => .error .indexError
    | stop_page :: _ => return pages ++ [stop_page]
  else return pages

/-- The encoding of one line of an extended header, toolkit.py:774-779. -/
def encodeExtLine (enc : Encoding) (line : PyStr) : Res Bytes := do
  let encoded_line ← encode enc line
  if encoded_line.length ≠ CARD_LENGTH then .error .valueError else return encoded_line

/-- The encoding of one page of an extended header, toolkit.py:771-784. -/
def encodeExtPage (enc : Encoding) (page : List PyStr) : Res (List Bytes) := do
  let encoded_page ← page.mapM (encodeExtLine enc)
  if encoded_page.length ≠ CARDS_PER_HEADER then .error .valueError else return encoded_page

/-- The writing loop of `write_extended_textual_headers`, toolkit.py:786-789. -/
def writeExtPages : List (List Bytes) → FileM Unit
  | [] => return ()
  | encoded_page :: rest => do
    let concatenated_page := encoded_page.flatten
    if concatenated_page.length ≠ TEXTUAL_HEADER_NUM_BYTES then FileM.raise .assertionError
    else
      FileM.write concatenated_page
      writeExtPages rest

/-- `write_extended_textual_headers(fh, pages, encoding)`, toolkit.py:742-789. -/
def writeExtendedTextualHeaders (pages : List (List PyStr)) (enc : Encoding) : FileM Unit := do
  if !isSupportedEncoding enc then FileM.raise .unsupportedEncodingError
  else
    FileM.seek REEL_HEADER_NUM_BYTES
    let encoded_pages ← FileM.lift (pages.mapM (encodeExtPage enc))
    writeExtPages encoded_pages

/-! ## The standard header template -/

/-- A character matched by `\w`.  Only ASCII is modelled; the template is ASCII. -/
def isWordChar (c : Char) : Bool := c.isAlphanum || c = '_'

/-- Match `\{\s*(\w*)\s*\}` (toolkit.py:585) at the start of a string: the name and the length of the match.  `\s` and
`\w` are disjoint, so greedy matching never has to back up. -/
def matchPlaceholder : PyStr → Option (PyStr × Nat)
  | '{' :: rest =>
    let sp1 := rest.takeWhile isSpace
    let rest1 := rest.dropWhile isSpace
    let name := rest1.takeWhile isWordChar
    let rest2 := rest1.dropWhile isWordChar
    let sp2 := rest2.takeWhile isSpace
    match rest2.dropWhile isSpace with
    | '}' :: _ => some (name, 1 + sp1.length + name.length + sp2.length + 1)
    | _ => none
  | _ => none

/-- `finditer` over the template, toolkit.py:600-607: (name, start, end) of the successive non-overlapping matches.
`skip` is the number of characters still belonging to the last match. -/
def findPlaceholders : Nat → Nat → PyStr → List (PyStr × Nat × Nat)
  | _, _, [] => []
  | index, skip + 1, _ :: cs => findPlaceholders (index + 1) skip cs
  | index, 0, c :: cs =>
    match matchPlaceholder (c :: cs) with
    | some (name, n) => (name, index, index + n) :: findPlaceholders (index + 1) (n - 1) cs
    | none => findPlaceholders (index + 1) 0 cs

/-- `fields[name] = slice(start, end)` in an `OrderedDict`, toolkit.py:607. -/
def fieldsSet {V : Type} (fields : List (PyStr × V)) (name : PyStr) (v : V) : List (PyStr × V) :=
  if fields.any (fun p => p.1 == name) then fields.map fun p => if p.1 == name then (p.1, v) else p
  else fields ++ [(name, v)]

/-- `parse_template(template)`, toolkit.py:589-609. -/
def parseTemplate (template : PyStr) : List (PyStr × Interval) :=
  (findPlaceholders 0 0 template).foldl (fun fields m => fieldsSet fields m.1 ⟨m.2.1, m.2.2⟩) []

/-- `template[slice(a, b)]` for `0 ≤ a`. -/
def sliceStr (s : PyStr) (i : Interval) : PyStr := (s.take i.stop.toNat).drop i.start.toNat

/-- `textual_reel_header.TEMPLATE_FIELD_NAMES[name]`. -/
def templateFieldName (name : PyStr) : Res PyStr :=
  match TEMPLATE_FIELD_NAMES.find? (fun p => p.1.toList == name) with
  | some p => .ok p.2.toList
  | none => .error .keyError

/-- `END_MARKERS[revision]`, textual_reel_header.py:60-61; the enumeration members are the integers 0 and 256. -/
def endMarker (revision : Int) : Res PyStr :=
  if revision = 0 then .ok END_EBCDIC else if revision = 256 then .ok END_TEXTUAL_HEADER else .error .keyError

/-- Keyword arguments: names with the `str()` of the values. -/
abbrev Kwargs := List (PyStr × PyStr)

/-- `kwargs.setdefault(name, value)`. -/
def Kwargs.setdefault (kw : Kwargs) (name value : PyStr) : Kwargs :=
  if kw.any (fun p => p.1 == name) then kw else kw ++ [(name, value)]

/-- `kwargs.pop(name, '')`: the value and what is left. -/
def Kwargs.pop (kw : Kwargs) (name : PyStr) : PyStr × Kwargs :=
  (((kw.find? fun p => p.1 == name).map Prod.snd).getD [], kw.filter fun p => !(p.1 == name))

/-- The loop of `format_standard_textual_header`, toolkit.py:562-574: `zip_longest` of the background slices and the
placeholders; returns the chunks and the remaining keyword arguments. -/
def formatLoop (template : PyStr) :
    List Interval → List (PyStr × Interval) → Kwargs → Res (List PyStr × Kwargs)
  | [], [], kw => .ok ([], kw)
  | bg :: bgs, [], kw => do
    let (chunks, kw) ← formatLoop template bgs [] kw
    return (sliceStr template bg :: chunks, kw)
  | bgs, (ph_name, ph_slice) :: phs, kw => do
    let ph_arg_name ← templateFieldName ph_name
    let (ph_value, kw) := kw.pop ph_arg_name
    let ph_len := (ph_slice.stop - ph_slice.start).toNat
    let substitute := ljust (ph_value.take ph_len) ph_len ' '
    let (chunks, kw) ← formatLoop template bgs.tail phs kw
    return ((bgs.head?.map (sliceStr template)).toList ++ [substitute] ++ chunks, kw)

/-- `format_standard_textual_header(revision, **kwargs)` for a given template, toolkit.py:555-583. -/
def formatTemplate (template : PyStr) (revision : Int) (kw : Kwargs) : Res (List PyStr) := do
  let marker ← endMarker revision
  let kw := kw.setdefault "end_marker".toList marker
  let placeholder_slices := parseTemplate template
  let background_slices ← complementaryIntervals (placeholder_slices.map Prod.snd) (some 0) (some template.length)
  let (chunks, kw) ← formatLoop template background_slices placeholder_slices kw
  if kw.length > 0 then .error .typeError
  else
    let concatenation := chunks.flatten
    batched concatenation CARD_LENGTH none

/-- `format_standard_textual_header(revision, **kwargs)`, toolkit.py:520-583. -/
def formatStandardTextualHeader (revision : Int) (kw : Kwargs) : Res (List PyStr) :=
  formatTemplate TEMPLATE revision kw

/-- The loop of `parse_standard_textual_header`, toolkit.py:632-638. -/
def parseLoop (header : PyStr) : List (PyStr × Interval) → List (PyStr × PyStr) → Res (List (PyStr × PyStr))
  | [], fields => .ok fields
  | (name, interval) :: rest, fields => do
    let field_value := strip (sliceStr header interval)
    let field_name ← templateFieldName name
    parseLoop header rest (fieldsSet fields field_name field_value)

/-- `parse_standard_textual_header(header_lines)`, toolkit.py:612-640. -/
def parseStandardTextualHeader (header_lines : List PyStr) : Res (List (PyStr × PyStr)) :=
  if header_lines.length ≠ CARDS_PER_HEADER then .error .valueError
  else if header_lines.any (fun line => line.length != CARD_LENGTH) then .error .valueError
  else parseLoop header_lines.flatten (parseTemplate TEMPLATE) []

end Segpy
