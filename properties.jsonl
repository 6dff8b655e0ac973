{"id": "C01", "title": "IBM float decoding is exact", "statement": "float(IBMFloat.from_bytes(b)) equals exactly (-1)^sign * (24-bit mantissa / 2^24) * 16^(characteristic-64): none of the double-precision operations performed on the way rounds.", "quantifier": "every 4-byte buffer", "why_tests_cant": "There are 2^32 byte patterns (2^64 pairs for binary operations) and an uncountable-looking set of doubles; the bundled hypothesis tests sample a few hundred.", "anchors": ["segpy/ibm_float.py:ibm2ieee", "segpy/ibm_float.py:IBMFloat.__float__"]}
{"id": "C02", "title": "IBM -> IEEE -> IBM round trip", "statement": "Converting any IBM float to a Python float and back never raises and gives an IBM float of exactly the same value; for a normalised pattern (or the all-zero pattern) it gives back the identical four bytes.", "quantifier": "every 4-byte buffer", "why_tests_cant": "There are 2^32 byte patterns (2^64 pairs for binary operations) and an uncountable-looking set of doubles; the bundled hypothesis tests sample a few hundred.", "anchors": ["segpy/ibm_float.py:ibm2ieee", "segpy/ibm_float.py:ieee2ibm"]}
{"id": "C03", "title": "IEEE -> IBM conversion truncates toward zero, optimally", "statement": "If from_float(f) succeeds, the result r has |r| <= |f|, the same sign as f, and there is no IBM-representable magnitude strictly between |r| and |f|; for |f| >= 16^-65 the relative error is below 2^-20.", "quantifier": "every finite double (indeed every rational) for which the conversion does not raise", "why_tests_cant": "There are 2^32 byte patterns (2^64 pairs for binary operations) and an uncountable-looking set of doubles; the bundled hypothesis tests sample a few hundred.", "anchors": ["segpy/ibm_float.py:ieee2ibm"]}
{"id": "C04", "title": "IEEE -> IBM conversion raises exactly when it must", "statement": "from_float(f) raises OverflowError iff f is finite and |f| exceeds the largest IBM magnitude, ValueError iff f is NaN or an infinity, FloatingPointError iff 0 < |f| < 2^-280 (the smallest positive IBM value), and otherwise succeeds; no other exception can escape.", "quantifier": "every Python float including NaN and infinities", "why_tests_cant": "There are 2^32 byte patterns (2^64 pairs for binary operations) and an uncountable-looking set of doubles; the bundled hypothesis tests sample a few hundred.", "anchors": ["segpy/ibm_float.py:ieee2ibm"]}
{"id": "C05", "title": "IEEE -> IBM conversion is monotone and odd", "statement": "If f <= g and both convert, float(from_float(f)) <= float(from_float(g)); negating a non-zero input flips exactly the sign bit of the output.", "quantifier": "all pairs of finite floats", "why_tests_cant": "There are 2^32 byte patterns (2^64 pairs for binary operations) and an uncountable-looking set of doubles; the bundled hypothesis tests sample a few hundred.", "anchors": ["segpy/ibm_float.py:ieee2ibm"]}
{"id": "C06", "title": "IBMFloat == is value equality", "statement": "For two IBMFloat objects, a == b is True exactly when they denote the same number.", "quantifier": "all pairs of 4-byte buffers", "why_tests_cant": "There are 2^32 byte patterns (2^64 pairs for binary operations) and an uncountable-looking set of doubles; the bundled hypothesis tests sample a few hundred.", "anchors": ["segpy/ibm_float.py:IBMFloat.__eq__", "segpy/ibm_float.py:IBMFloat.try_normalize"]}
{"id": "C07", "title": "IBMFloat ordering is the order of exact values", "statement": "<, <=, >, >= between IBMFloats agree with the order of the exact rational values, hence form a total preorder; comparison against floats is exact as well.", "quantifier": "all pairs/triples of 4-byte buffers", "why_tests_cant": "There are 2^32 byte patterns (2^64 pairs for binary operations) and an uncountable-looking set of doubles; the bundled hypothesis tests sample a few hundred.", "anchors": ["segpy/ibm_float.py:IBMFloat.__lt__", "segpy/ibm_float.py:IBMFloat.__le__"]}
{"id": "C08", "title": "normalize preserves value and normalises", "statement": "normalize() of x either returns a normalised IBMFloat with exactly the value of x (zero becomes the canonical zero), or raises FloatingPointError; it raises exactly when 0 < |x| < 16^-65, and try_normalize returns x unchanged in that case.", "quantifier": "every 4-byte buffer", "why_tests_cant": "There are 2^32 byte patterns (2^64 pairs for binary operations) and an uncountable-looking set of doubles; the bundled hypothesis tests sample a few hundred.", "anchors": ["segpy/ibm_float.py:IBMFloat.normalize", "segpy/ibm_float.py:IBMFloat.try_normalize"]}
{"id": "C09", "title": "int/trunc, ceil and floor are correct", "statement": "int(x) is the exact value rounded toward zero, math.ceil(x) the least integer >= x and math.floor(x) the greatest integer <= x.", "quantifier": "every 4-byte buffer", "why_tests_cant": "There are 2^32 byte patterns (2^64 pairs for binary operations) and an uncountable-looking set of doubles; the bundled hypothesis tests sample a few hundred.", "anchors": ["segpy/ibm_float.py:IBMFloat.__trunc__", "segpy/ibm_float.py:IBMFloat.__ceil__", "segpy/ibm_float.py:IBMFloat.__floor__"]}
{"id": "C10", "title": "neg and abs act on the value", "statement": "-x has exactly the negated value, abs(x) the absolute value, and -(-x) is bytewise x for non-zero x.", "quantifier": "every 4-byte buffer", "why_tests_cant": "There are 2^32 byte patterns (2^64 pairs for binary operations) and an uncountable-looking set of doubles; the bundled hypothesis tests sample a few hundred.", "anchors": ["segpy/ibm_float.py:IBMFloat.__neg__", "segpy/ibm_float.py:IBMFloat.__abs__"]}
{"id": "C11", "title": "frexp/ldexp are exact inverses", "statement": "x.frexp() returns (m, e) with |m| < 1 and m*2^e exactly the value of x, and IBMFloat.ldexp(m, e) then succeeds with an IBMFloat of the same value.", "quantifier": "every 4-byte buffer", "why_tests_cant": "There are 2^32 byte patterns (2^64 pairs for binary operations) and an uncountable-looking set of doubles; the bundled hypothesis tests sample a few hundred.", "anchors": ["segpy/ibm_float.py:IBMFloat.frexp", "segpy/ibm_float.py:IBMFloat.ldexp"]}
{"id": "C12", "title": "as_integer_ratio is exact and reduced", "statement": "x.as_integer_ratio() is a pair (n, d) of coprime integers with d > 0 and n/d exactly the value of x; hence == against a finite float or a Rational is exact value equality.", "quantifier": "every 4-byte buffer, every finite float, every rational", "why_tests_cant": "There are 2^32 byte patterns (2^64 pairs for binary operations) and an uncountable-looking set of doubles; the bundled hypothesis tests sample a few hundred.", "anchors": ["segpy/ibm_float.py:IBMFloat.as_integer_ratio", "segpy/ibm_float.py:IBMFloat.__eq__"]}
{"id": "C13", "title": "IBM arithmetic results are truncations of the correctly rounded result", "statement": "a*b is the exact product truncated toward zero to IBM precision (0 on underflow, OverflowError only when the product exceeds the largest magnitude); a+b and a-b are the truncated double-precision sum/difference, and a + (-a) is zero, a + 0 has the value of a.", "quantifier": "all pairs of 4-byte buffers", "why_tests_cant": "There are 2^32 byte patterns (2^64 pairs for binary operations) and an uncountable-looking set of doubles; the bundled hypothesis tests sample a few hundred.", "anchors": ["segpy/ibm_float.py:IBMFloat.__add__", "segpy/ibm_float.py:IBMFloat.__mul__", "segpy/ibm_float.py:IBMFloat._from_float_without_underflow"]}
{"id": "C14", "title": "reversed_range reverses every range", "statement": "list(reversed_range(r)) == list(reversed(list(r))) for every range, of either step sign and including empty ones, and reversing twice gives an equal range.", "quantifier": "all start, stop and non-zero step integers", "why_tests_cant": "Off-by-one errors only show for particular remainders and signs of (stop-start, step); the integers are unbounded.", "anchors": ["segpy/util.py:reversed_range"]}
{"id": "C15", "title": "make_sorted_distinct_sequence denotes the set of its inputs in order", "statement": "For a non-empty list of integers the result contains exactly the distinct items, ascending (or, with sense=None, descending when the input was already strictly descending); it is a range precisely when the items are equally spaced.", "quantifier": "every non-empty list of integers", "why_tests_cant": "Unbounded lists; the branch taken depends on global properties (sortedness, distinctness, equal spacing) of the input.", "anchors": ["segpy/util.py:make_sorted_distinct_sequence", "segpy/util.py:compress_sorted_sequence_to_range", "segpy/util.py:is_sorted"]}
{"id": "C16", "title": "empty inputs to the sequence utilities", "statement": "contains_duplicates, is_sorted, measure_stride and intervals_are_contiguous accept an empty sequence (returning False, True, a stride/None and True).", "quantifier": "the empty sequence, in every function built on pairwise", "why_tests_cant": "The behaviour is decided by the Python version's generator semantics (PEP 479), not by any input value.", "anchors": ["segpy/util.py:pairwise", "segpy/util.py:contains_duplicates", "segpy/util.py:measure_stride"]}
{"id": "C17", "title": "batched partitions its input", "statement": "list(batched(xs, n)) concatenates back to xs; every batch has n items except possibly the last which has 1..n; with padding every batch has exactly n items and the concatenation is xs followed by fewer than n pads.", "quantifier": "every list and every n >= 1", "why_tests_cant": "Unbounded lengths and batch sizes; boundary when n divides the length.", "anchors": ["segpy/util.py:batched"]}
{"id": "C18", "title": "complementary_intervals tile the container", "statement": "For sorted non-overlapping intervals inside [start, stop), the returned intervals interleave with them and together cover [start, stop) exactly once.", "quantifier": "every sorted list of disjoint intervals and every container", "why_tests_cant": "Unbounded interval lists.", "anchors": ["segpy/util.py:complementary_intervals"]}
{"id": "C19", "title": "SortedFrozenSet is a finite set with an order", "statement": "Construction from any iterable of integers yields the sorted distinct items; membership, len, iteration, index (binary search), count, equality and the set operators & | ^ - <= < isdisjoint agree with the mathematical set of the items, and results are again sorted and distinct.", "quantifier": "all lists of integers, all pairs of sets", "why_tests_cant": "Binary search and the mixin algebra must be right for every size and position.", "anchors": ["segpy/sorted_frozen_set.py:SortedFrozenSet"]}
{"id": "C20", "title": "ReversedSequenceView is the reversal", "statement": "len, indexing (positive, negative, out of range), iteration, membership, index and count of the view agree with the reversed list.", "quantifier": "every list and every integer index", "why_tests_cant": "Unbounded lists and indices.", "anchors": ["segpy/reversed_sequence_view.py:ReversedSequenceView"]}
{"id": "C21", "title": "one-dimensional catalog refines the mapping", "statement": "For every list of (int key, int value) entries with distinct keys added in any order, create() returns a mapping whose lookups, membership, length and ascending iteration are exactly those of the entries (KeyError elsewhere), whichever compact representation is selected.", "quantifier": "every non-empty association list with distinct integer keys, every probe key", "why_tests_cant": "Selection among five representations depends on global arithmetic structure; correctness must hold for unbounded lists and strides of any sign.", "anchors": ["segpy/catalog.py:CatalogBuilder.create", "segpy/catalog.py:RegularConstantCatalog", "segpy/catalog.py:ConstantCatalog", "segpy/catalog.py:RegularCatalog", "segpy/catalog.py:LinearRegularCatalog", "segpy/catalog.py:DictionaryCatalog"]}
{"id": "C22", "title": "two-dimensional catalog refines the mapping", "statement": "For every list of ((int, int), int) entries with distinct keys, create() returns a mapping whose lookups, membership, length and iterated key set are exactly those of the entries; i_min/i_max/j_min/j_max bound the keys tightly.", "quantifier": "every non-empty association list with distinct integer-pair keys, every probe key", "why_tests_cant": "The row-major/column-major compaction must be proved to apply only when it is lossless, for grids of every shape.", "anchors": ["segpy/catalog.py:CatalogBuilder._create_catalog_2", "segpy/catalog.py:LastIndexVariesQuickestCatalog2D", "segpy/catalog.py:FirstIndexVariesQuickestCatalog2D", "segpy/catalog.py:DictionaryCatalog2D"]}
{"id": "C23", "title": "catalog creation detects duplicates", "statement": "create() returns None exactly when two entries have equal keys.", "quantifier": "every non-empty association list", "why_tests_cant": "Unbounded lists; duplicates may be anywhere.", "anchors": ["segpy/catalog.py:CatalogBuilder.create", "segpy/util.py:contains_duplicates"]}
{"id": "C24", "title": "catalog creation is independent of insertion order", "statement": "Adding the same entries in any order gives a catalog with the same lookups, length and iteration order.", "quantifier": "every list and every permutation of it", "why_tests_cant": "n! orders.", "anchors": ["segpy/catalog.py:CatalogBuilder.create"]}
{"id": "C25", "title": "reverse lookup of 2D catalogs is the inverse", "statement": "On a row-major or column-major 2D catalog, key(value) returns the unique key whose lookup is value and raises ValueError for values not present.", "quantifier": "every such catalog, every value", "why_tests_cant": "Index arithmetic must be right for every shape.", "anchors": ["segpy/catalog.py:LastIndexVariesQuickestCatalog2D.key", "segpy/catalog.py:FirstIndexVariesQuickestCatalog2D.key"]}
{"id": "C26", "title": "compile_struct accepts only layouts with disjoint or coincident fields", "statement": "If compile_struct succeeds, any two fields of the format either occupy disjoint byte ranges or coincide exactly and have the same type, all within the stated length; partial overlap, type conflict, over-length and empty formats raise.", "quantifier": "every header format (any number of fields, offsets and types)", "why_tests_cant": "The code only compares neighbours after sorting; that this suffices for all pairs is an argument, not a test.", "anchors": ["segpy/packer.py:compile_struct", "segpy/util.py:intervals_partially_overlap"]}
{"id": "C27", "title": "a packed header puts every field at its declared offset", "statement": "packer.pack(h) has exactly the declared length, stores each field's value at bytes [offset-start, offset-start+size) in the requested byte order as two's complement, and zeros everywhere else.", "quantifier": "every accepted format none of whose fields begins before its start offset, both byte orders, every header value that packs", "why_tests_cant": "Layouts are user-definable; values range over 2^16/2^32 per field.", "anchors": ["segpy/packer.py:HeaderPacker.pack", "segpy/packer.py:compile_struct"]}
{"id": "C28", "title": "header pack/unpack round trip", "statement": "unpack(pack(h)) equals h field by field.", "quantifier": "every accepted format, both byte orders, every valid header value", "why_tests_cant": "User-definable formats with arbitrary declaration order and coincident fields.", "anchors": ["segpy/packer.py:BijectiveHeaderPacker._unpack", "segpy/packer.py:SurjectiveHeaderPacker._unpack", "segpy/packer.py:HeaderPacker.pack"]}
{"id": "C29", "title": "rewriting an unpacked header preserves field bytes", "statement": "If unpack(buf) succeeds then pack(unpack(buf)) agrees with buf on all bytes covered by fields and is zero on the gaps; unpack raises exactly when the buffer is short or some field's value is not admitted by its type.", "quantifier": "every accepted in-order format and every byte buffer", "why_tests_cant": "2^1920 trace header buffers.", "anchors": ["segpy/packer.py:HeaderPacker.unpack", "segpy/field_types.py:IntFieldMeta"]}
{"id": "C30", "title": "a sub-format view reads the same values", "statement": "Reading a buffer through a sub-format of selected fields (in layout order) gives, for each selected field, the value the full format gives.", "quantifier": "every accepted format, every in-order selection of its fields, every buffer", "why_tests_cant": "catalog building relies on it for every trace and every custom format.", "anchors": ["segpy/header.py:SubFormatMeta", "segpy/packer.py:make_header_packer", "segpy/toolkit.py:catalog_traces"]}
{"id": "C31", "title": "header fields only ever hold admissible values", "statement": "After any sequence of constructions, assignments (successful or raising), copies, each field of each header holds a value admitted by its type, a failed assignment changes nothing, and assignments to one header never affect another header.", "quantifier": "every format, every history of operations on any number of headers", "why_tests_cant": "Histories are unbounded; field values live in per-descriptor weak dictionaries shared by all instances.", "anchors": ["segpy/header.py:HeaderFieldDescriptor.__set__", "segpy/field_types.py:IntFieldMeta.__call__", "segpy/header.py:BaseHeader.__init__"]}
{"id": "C32", "title": "copy() with updates", "statement": "h.copy(**updates) equals h except for the updated fields, leaves h untouched, and raises TypeError for names that are not fields and ValueError for inadmissible values.", "quantifier": "every format, header, update set", "why_tests_cant": "Unbounded formats and values.", "anchors": ["segpy/header.py:BaseHeader.copy", "segpy/header.py:are_equal"]}
{"id": "C33", "title": "pickling a header preserves it", "statement": "pickle.loads(pickle.dumps(h)) equals h field by field.", "quantifier": "every format (including subclassed formats) and header value", "why_tests_cant": "Depends on class structure, not on values.", "anchors": ["segpy/header.py:BaseHeader.__getstate__", "segpy/header.py:BaseHeader.__setstate__", "segpy/header.py:BaseHeader._all_attributes"]}
{"id": "C34", "title": "the shipped header formats are well formed", "statement": "BinaryReelHeader, TraceHeaderRev0 and TraceHeaderRev1 compile to structs of exactly 400, 240 and 240 bytes, fields are declared in offset order, names are distinct and every default is admissible - so all packer theorems apply to them.", "quantifier": "all fields of the three shipped formats", "why_tests_cant": "The conclusion feeds the for-all-headers theorems.", "anchors": ["segpy/binary_reel_header.py", "segpy/trace_header.py"]}
{"id": "C35", "title": "text codecs round trip", "statement": "For both supported encodings decode(encode(s)) == s whenever encoding succeeds, encoding is byte-per-character, every byte string decodes under cp037, and ASCII decoding fails exactly on bytes >= 128.", "quantifier": "every string and byte string", "why_tests_cant": "Unbounded strings.", "anchors": ["segpy/encoding.py"]}
{"id": "C36", "title": "textual reel header write/read round trip", "statement": "write_textual_reel_header writes exactly 3200 bytes at the current position (or raises before writing anything), and read_textual_reel_header then returns the 40 lines, each truncated or space-padded to 80 characters.", "quantifier": "every list of lines, both encodings, every file", "why_tests_cant": "Unbounded line lengths and contents; failure atomicity.", "anchors": ["segpy/toolkit.py:write_textual_reel_header", "segpy/toolkit.py:read_textual_reel_header"]}
{"id": "C37", "title": "encoding guess decides by character frequency", "statement": "guess_encoding returns the unique encoding whose common characters make up at least half of the buffer and None when both or neither do; an empty buffer gives None and a non-empty buffer of zero bytes gives ASCII.", "quantifier": "every byte string of at most 2^52 bytes (beyond that the frequency itself is rounded)", "why_tests_cant": "Unbounded buffers.", "anchors": ["segpy/encoding.py:guess_encoding", "segpy/toolkit.py:guess_textual_header_encoding"]}
{"id": "C38", "title": "extended textual header pages are well formed and lose no text", "statement": "format_extended_textual_header returns pages of exactly 40 lines of exactly 80 characters ending CR LF; the concatenated line bodies contain the text's lines in order, wrapped at 78, blank-padded; with include_text_stop the last page starts with the stop stanza.", "quantifier": "every text, both encodings, both flags", "why_tests_cant": "Unbounded text.", "anchors": ["segpy/toolkit.py:format_extended_textual_header"]}
{"id": "C39", "title": "extended textual headers round trip", "statement": "Pages written by write_extended_textual_headers are read back identically by read_extended_textual_headers with a matching count, or with count -1 when only the last page's first line has the stop stanza; the file is left positioned after the pages.", "quantifier": "every list of well-formed pages, both encodings", "why_tests_cant": "Unbounded number and content of pages.", "anchors": ["segpy/toolkit.py:write_extended_textual_headers", "segpy/toolkit.py:read_extended_textual_headers"]}
{"id": "C40", "title": "writing extended headers is all-or-nothing", "statement": "write_extended_textual_headers either writes all pages or raises ValueError/UnicodeEncodeError without having written anything.", "quantifier": "every nested list of lines, both encodings", "why_tests_cant": "A malformed line may occur anywhere in unboundedly many pages.", "anchors": ["segpy/toolkit.py:write_extended_textual_headers"]}
{"id": "C41", "title": "standard textual header format/parse", "statement": "format_standard_textual_header returns 40 lines of 80 characters for every choice of fields; parse_standard_textual_header of it returns each given field's text truncated to its width and stripped; unknown field names raise TypeError.", "quantifier": "every revision, every assignment of strings to template fields", "why_tests_cant": "Unbounded strings in 65 fields.", "anchors": ["segpy/toolkit.py:format_standard_textual_header", "segpy/toolkit.py:parse_standard_textual_header", "segpy/toolkit.py:parse_template"]}
{"id": "C42", "title": "numeric samples pack/unpack round trip", "statement": "For each sample type, unpack_values(pack_values(vs)) == vs whenever packing succeeds, bytes length is len(vs)*size, for both byte orders; packing succeeds exactly when all values are in range; float32 values that are float32-representable survive unchanged and others are rounded to nearest-even; IBM samples survive as exact values.", "quantifier": "every list of values of every sample type, both byte orders", "why_tests_cant": "Unbounded lists; 2^32 values per sample.", "anchors": ["segpy/toolkit.py:pack_values", "segpy/toolkit.py:unpack_values", "segpy/ibm_float_packer.py"]}
{"id": "C43", "title": "trace cataloguing terminates and tiles the file", "statement": "catalog_traces visits each complete trace header once in file order; trace k+1 starts exactly where trace k's header and samples end; it stops at the first incomplete header; offset and sample-count catalogs have one entry per trace, keyed 0..n-1.", "quantifier": "every file content, start position and sample size", "why_tests_cant": "Unbounded files; termination for all inputs.", "anchors": ["segpy/toolkit.py:catalog_traces"]}
{"id": "C44", "title": "progress callbacks stay within 0..1", "statement": "catalog_traces calls progress with values between zero and one, non-decreasing, ending with 1.", "quantifier": "every file", "why_tests_cant": "Depends on file contents (truncated last trace).", "anchors": ["segpy/toolkit.py:catalog_traces"]}
{"id": "C45", "title": "trace sample sub-ranges", "statement": "reader.trace_samples(i, a, b) equals reader.trace_samples(i)[a:b] for valid 0 <= a <= b <= n, raises ValueError for invalid ranges or indices and EOFError if the file ends early.", "quantifier": "every reader, trace index and range", "why_tests_cant": "Unbounded files and ranges.", "anchors": ["segpy/reader.py:SegYReader.trace_samples", "segpy/toolkit.py:read_binary_values"]}
{"id": "C46", "title": "reader answers do not depend on access history", "statement": "The result of any trace_samples/trace_header call is the same whatever sequence of other reader calls preceded it on the shared file handle.", "quantifier": "every history of reader calls", "why_tests_cant": "Unbounded interleavings of calls sharing one file position.", "anchors": ["segpy/reader.py:SegYReader.trace_samples", "segpy/reader.py:SegYReader.trace_header"]}
{"id": "C47", "title": "write then read returns the dataset", "statement": "A file produced by write_segy from a consistent dataset, opened with create_reader, yields the same textual header, binary header, extended headers, number of traces, trace headers and samples.", "quantifier": "every consistent dataset: any number and lengths of traces, any header values, every sample format, both encodings, both byte orders, counted and uncounted extended headers", "why_tests_cant": "Unbounded datasets; composition of every codec in the library.", "anchors": ["segpy/writer.py:write_segy", "segpy/reader.py:create_reader"]}
{"id": "C48", "title": "crash during write leaves a readable prefix", "statement": "If writing stops after any number of bytes past the headers, opening the file yields exactly the traces whose header was completely written, with correct headers, and reading samples of completely written traces returns the correct values while an incompletely written trace raises EOFError.", "quantifier": "every consistent dataset and every crash point", "why_tests_cant": "Every byte position of every dataset.", "anchors": ["segpy/writer.py:write_segy", "segpy/toolkit.py:catalog_traces", "segpy/reader.py:SegYReader.trace_samples"]}
{"id": "C49", "title": "line catalog maps positions to traces", "statement": "In a reader classified as 3D, trace_index((inline, xline)) is the index of the unique trace carrying those numbers, has_trace_index is its domain and inline_xline_numbers enumerates exactly those pairs; in a 2D reader likewise for CDP numbers.", "quantifier": "every file", "why_tests_cant": "Composition of cataloguing with catalog compaction over unbounded files.", "anchors": ["segpy/reader.py:SegYReader3D", "segpy/reader.py:SegYReader2D", "segpy/toolkit.py:catalog_traces"]}
{"id": "C50", "title": "dimensionality classification", "statement": "Without a dimensionality argument create_reader returns a 3D reader iff all (inline, xline) pairs are distinct, else a 2D reader iff all ensemble numbers are distinct, else a plain reader.", "quantifier": "every file with at least one trace", "why_tests_cant": "Depends on the whole file.", "anchors": ["segpy/reader.py:_make_reader", "segpy/toolkit.py:catalog_traces"]}
{"id": "C51", "title": "a file with no traces can be opened", "statement": "create_reader on a file consisting only of headers returns a reader with zero traces.", "quantifier": "every traceless file", "why_tests_cant": "Depends on generator semantics on an empty sequence.", "anchors": ["segpy/toolkit.py:catalog_traces", "segpy/catalog.py:CatalogBuilder.create", "segpy/util.py:pairwise"]}
{"id": "C52", "title": "the reader cache is transparent", "statement": "create_reader with a cache directory returns a reader giving the same answers as without, at every point of every history of file modifications, renames and opens, including after cache files were truncated by a crash.", "quantifier": "every history of file writes, opens with varying parameters, cache corruption and crash points", "why_tests_cant": "Unbounded histories.", "anchors": ["segpy/reader.py:create_reader", "segpy/reader.py:_locate_cache_file", "segpy/reader.py:_load_reader_from_cache", "segpy/reader.py:_save_reader_to_cache", "segpy/reader.py:SegYReader.__setstate__"]}
{"id": "C53", "title": "a damaged cache file never breaks opening", "statement": "If the cache file is unreadable as a pickle for any reason, it is removed and the reader is rebuilt from the data file.", "quantifier": "every corrupted cache content", "why_tests_cant": "Every possible truncation point.", "anchors": ["segpy/reader.py:_load_reader_from_cache"]}
{"id": "C54", "title": "truncated or invalid trace headers are reported as such", "statement": "read_trace_header raises EOFError exactly when fewer than 240 bytes remain, and ValueError for a complete header with an inadmissible field.", "quantifier": "every file and position", "why_tests_cant": "2^1920 header contents.", "anchors": ["segpy/toolkit.py:read_trace_header"]}
{"id": "C55", "title": "every revision variant listed is readable", "statement": "A file whose binary header revision field holds any of the documented variants (0, 1, 100, 256) opens, with the canonical revision reported.", "quantifier": "every file", "why_tests_cant": "Composition of enum-typed field decoding with canonicalisation.", "anchors": ["segpy/revisions.py:canonicalize_revision", "segpy/binary_reel_header.py:FormatRevisionNumField"]}
{"id": "C56", "title": "file hash identifies content and arguments", "statement": "hash_for_file depends only on the bytes of the file and the arguments (not on position or block boundaries) and restores nothing else; two different (content, length, args) triples feed different byte strings to the digest.", "quantifier": "every file content, block size and argument list", "why_tests_cant": "Unbounded contents; block boundary effects.", "anchors": ["segpy/util.py:hash_for_file"]}
{"id": "C57", "title": "interval, stride and rounding helpers", "statement": "intervals_partially_overlap is true iff two ranges intersect without being equal; measure_stride returns the common difference iff there is one; round_up gives the least multiple >= x; minmax the extrema; contains_duplicates is exact on sorted input; is_sorted agrees with its definition for all four modes.", "quantifier": "all integers and lists", "why_tests_cant": "Unbounded.", "anchors": ["segpy/util.py:intervals_partially_overlap", "segpy/util.py:measure_stride", "segpy/util.py:round_up", "segpy/util.py:minmax", "segpy/util.py:is_sorted"]}
{"id": "C58", "title": "range superset test (numpy extension)", "statement": "is_range_superset_of_range is true exactly when every element of the sub-range is in the super-range, for ascending ranges; ensure_superset raises exactly when it is not.", "quantifier": "all pairs of ascending ranges", "why_tests_cant": "Unbounded ranges.", "anchors": ["segpy-ext/segpy_numpy/segpy_numpy/extract.py", "segpy-ext/segpy_numpy/segpy_numpy/util.py"]}
{"id": "C59", "title": "array dataset trace index is row-major bijective (numpy extension)", "statement": "For a complete array of shape (i, j), mapping trace index to (inline, xline) indices is a bijection onto the grid.", "quantifier": "all shapes and indices", "why_tests_cant": "All non-square shapes.", "anchors": ["segpy-ext/segpy_numpy/segpy_numpy/array_dataset.py"]}
{"id": "C60", "title": "opening with a revision 0 trace header format", "statement": "create_reader accepts every trace header format the package ships, TraceHeaderRev0 and TraceHeaderRev1, and catalogs the traces of any file with either.", "quantifier": "every file, both shipped trace header formats, both byte orders", "why_tests_cant": "Whether any file at all can be opened is a statement about all files.", "anchors": ["segpy/toolkit.py:catalog_traces", "segpy/trace_header.py:TraceHeaderRev0"]}
{"id": "C61", "title": "an opened reader describes the file", "statement": "After create_reader succeeds, num_traces, trace_indexes, num_trace_samples, max_num_trace_samples and trace_header agree with the bytes of the file: the traces are those that follow the reel headers, each beginning where the one before ends, and every header field holds the integer stored at its offset.", "quantifier": "every file, every trace header format that can be catalogued by, both byte orders, every dimensionality argument", "why_tests_cant": "Unbounded files; the composition of cataloguing, catalog compaction and header decoding.", "anchors": ["segpy/reader.py:SegYReader", "segpy/reader.py:create_reader"]}
{"id": "C62", "title": "reading a binary reel header", "statement": "read_binary_reel_header returns a header exactly if 400 bytes remain and each of its fields holds an admissible value; the header then holds, for each field, the integer the bytes stand for, and otherwise ValueError is raised.", "quantifier": "every file, position, 400 byte header format and byte order", "why_tests_cant": "2^3200 header contents.", "anchors": ["segpy/toolkit.py:read_binary_reel_header", "segpy/packer.py:HeaderPacker"]}
{"id": "C63", "title": "progress of writing", "statement": "If write_segy succeeds, the progress callback has been called once per trace and once at the end, with values between 0 and 1 that never decrease and end in 1.", "quantifier": "every dataset, every file, encoding, trace header format and byte order", "why_tests_cant": "Unbounded numbers of traces; the values are rounded quotients.", "anchors": ["segpy/writer.py:write_segy"]}
{"id": "C64", "title": "sections and time slices (numpy extension)", "statement": "extract_inline_3d, extract_xline_3d and extract_timeslice_3d return an array whose rows and columns belong to the selected line and sample numbers in increasing order, each element being the stored sample of the trace with those line numbers (IBM floats rounded to binary32), and the null value or a masked element where there is no such trace or sample; a section of a line that does not exist is refused with ValueError.", "quantifier": "every file opened as 3D with distinct line numbers, every selection of lines and samples, both byte orders, every sample format", "why_tests_cant": "Unbounded files and selections; the composition of cataloguing, selection and sample decoding.", "anchors": ["segpy-ext/segpy_numpy/segpy_numpy/extract.py:extract_inline_3d", "segpy-ext/segpy_numpy/segpy_numpy/extract.py:extract_xline_3d", "segpy-ext/segpy_numpy/segpy_numpy/extract.py:extract_timeslice_3d"]}
{"id": "C65", "title": "arrays of trace header fields (numpy extension)", "statement": "extract_trace_headers and extract_trace_header_field_3d return, under the name of each requested field, the values of that field in the headers of the selected traces, in the order asked for.", "quantifier": "every file, every list of fields, every selection of traces or lines", "why_tests_cant": "Unbounded files; every combination and order of fields.", "anchors": ["segpy-ext/segpy_numpy/segpy_numpy/extract.py:extract_trace_headers", "segpy-ext/segpy_numpy/segpy_numpy/extract.py:extract_trace_header_field_3d"]}
{"id": "C66", "title": "extracting a trace by its index (numpy extension)", "statement": "extract_trace(reader, trace_index, sample_numbers) returns the selected samples of the trace with that index, in increasing order of sample number.", "quantifier": "every reader, trace index and selection of samples", "why_tests_cant": "Whether it works for any 3D reader at all is a statement about all readers.", "anchors": ["segpy-ext/segpy_numpy/segpy_numpy/extract.py:extract_trace"]}
{"id": "C67", "title": "a file can be copied through reader and writer", "statement": "If every trace of an opened file can be read, handing the reader to write_segy succeeds, also with the other byte order; the copy, opened with the same arguments, answers every question about headers, numbers of traces and samples, any range of samples of any trace, dimensionality and trace numbers in the same way, and begins with the same 3200 bytes.", "quantifier": "every file that opens, every sample format, encoding, dimensionality argument and pair of byte orders, every header format in which valid headers can be stored", "why_tests_cant": "Unbounded files; NaNs, negative zeros and every pattern of IBM floats must survive.", "anchors": ["examples/loadsave.py:load_save", "segpy/reader.py:SegYReader", "segpy/writer.py:write_segy"]}
{"id": "C68", "title": "converting a file of IBM floats to another sample format", "statement": "Converting a file of IBM floats (examples/convert_sample_type) yields a file with the code of the new format that otherwise has the same headers, traces and trace numbers, in which each sample is the nearest storable value: for integers the integer part limited to the range of the type, for binary32 the nearest binary32 number. Samples beyond the range of binary32 raise OverflowError, files in another format RuntimeError, and formats a file cannot have KeyError.", "quantifier": "every file of IBM floats in which every trace can be read, every target format", "why_tests_cant": "2^32 samples in five formats; unbounded files.", "anchors": ["examples/convert_sample_type.py:transform", "segpy/toolkit.py:pack_samples", "segpy/writer.py:write_segy"]}
{"id": "C69", "title": "scaling the samples of a file", "statement": "Scaling a file by a float (examples/scale_samples) yields a file with the same headers, traces and trace numbers in which each sample is the product with the factor, limited to the range of the sample format; if a product cannot be represented the exception tells so. Scaling by one leaves every sample as it is.", "quantifier": "every file in which every trace can be read, every factor", "why_tests_cant": "2^32 samples times 2^64 factors in five formats; limits, infinities and NaNs.", "anchors": ["examples/scale_samples.py:transform", "segpy/ibm_float.py:IBMFloat", "segpy/writer.py:write_segy"]}
{"id": "C70", "title": "scaling the source coordinates of a file", "statement": "Scaling source coordinates by a float (examples/scale_source_coords) yields a file in which source_x and source_y of every trace header are the integer part of the product, and which otherwise answers every question in the same way; if a product does not fit into the field, ValueError is raised, and ValueError or OverflowError if it is not finite.", "quantifier": "every file in which every trace can be read, every factor", "why_tests_cant": "Unbounded files; header values and factors at the limits of the field.", "anchors": ["examples/scale_source_coords.py:transform", "segpy/header.py:Header", "segpy/writer.py:write_segy"]}
{"id": "C71", "title": "the reel headers of an opened file", "statement": "After create_reader succeeds, the reader's textual_reel_header, binary_reel_header, extended_textual_header and data_sample_format are those stored in the file: the text of the first 3200 bytes in the encoding used, the integer at the place of every field of the binary header, and the pages that follow, as many as the header says or up to the stop stanza.", "quantifier": "every file, encoding argument, 400 byte header format and byte order", "why_tests_cant": "Unbounded files and 2^28800 possible reel headers.", "anchors": ["segpy/reader.py:SegYReader", "segpy/reader.py:create_reader", "segpy/toolkit.py:read_textual_reel_header", "segpy/toolkit.py:read_extended_textual_headers"]}
{"id": "C72", "title": "the commands metadata and report", "statement": "`segpy metadata` and `segpy report` succeed on every file that create_reader opens with its default arguments, and print the number of traces, dimensionality, sample format, greatest number of samples, revision, number of different line or ensemble numbers and the text the file contains; on any other file they raise what create_reader raises.", "quantifier": "every file", "why_tests_cant": "Unbounded files; whether a command can fail on a file that opens is a statement about all files.", "anchors": ["segpy/cli.py:handle_metadata", "segpy/cli.py:report", "examples/report.py:report_segy", "segpy/dataset.py:Dataset.data_sample_format_description"]}
{"id": "C73", "title": "time slices of a file (example script)", "statement": "timeslice.py saves, for every file that opens as a three-dimensional survey and has all its samples, the table with one row per inline number and one column per crossline number in increasing order whose elements are the samples of the given number, and the null value where there is no such trace or it is too short. A slice index no trace reaches raises ValueError, a truncated trace EOFError, and a survey that is not three-dimensional is refused with an exception.", "quantifier": "every file, slice index, null value and native byte order", "why_tests_cant": "Unbounded files, every arrangement of lines, short traces.", "anchors": ["examples/timeslice.py:extract_timeslice"]}
{"id": "C74", "title": "positions of traces (example script)", "statement": "trace_positions.py prints for every file that opens and whose trace headers are valid the index and the CDP coordinates of every trace, in order; a header with an inadmissible value raises EOFError.", "quantifier": "every file", "why_tests_cant": "Unbounded files.", "anchors": ["examples/trace_positions.py:extract_trace_positions"]}
{"id": "C75", "title": "customised header formats (example scripts)", "statement": "A header format derived from a shipped one can be used in its place. With the trace header format of check_equal.py, which adds fields, a file whose traces can all be read is copied so that traces have the same places and the bytes of all fields are the same, and the checks of the script succeed; all bytes of the header are assigned. With the binary reel header format of custom_header.py, which redefines num_samples as unsigned, every file opens that opens with the standard format, with the same answers, and numbers of samples up to 65535 are accepted and reported.", "quantifier": "every file, encoding argument, dimensionality argument and byte order", "why_tests_cant": "Unbounded files; a redefined field changes the layout computed for the whole header.", "anchors": ["examples/check_equal.py:CustomTraceHeader", "examples/custom_header.py:CustomBinaryReelHeader", "examples/custom_header.py:report_segy", "segpy/header.py:FormatMeta"]}
{"id": "C76", "title": "arithmetic between IBM floats and Python numbers", "statement": "The sum, difference, product and quotient of an IBMFloat and an int or float, in either order, is the Python float nearest to the exact result; a zero divisor raises ZeroDivisionError and an int too large for a float OverflowError. The sum of a sequence of IBMFloats is a float, and exact if their exponents do not differ by much.", "quantifier": "every IBMFloat, every int, every float including infinities and NaN; sequences of any length", "why_tests_cant": "2^32 values times 2^64 floats times all ints; rounding and limits.", "anchors": ["segpy/ibm_float.py:IBMFloat.__add__", "segpy/ibm_float.py:IBMFloat.__radd__", "segpy/ibm_float.py:IBMFloat.__sub__", "segpy/ibm_float.py:IBMFloat.__mul__", "segpy/ibm_float.py:IBMFloat.__truediv__", "segpy/ibm_float.py:IBMFloat.__rtruediv__"]}
{"id": "C77", "title": "comparing IBM floats with ints", "statement": "x < n, x <= n, x > n and x >= n for an IBMFloat x and an int n hold exactly if they hold between the number x stands for and n.", "quantifier": "every IBMFloat and every int", "why_tests_cant": "All ints, in particular those a float cannot represent.", "anchors": ["segpy/ibm_float.py:IBMFloat.__lt__", "segpy/ibm_float.py:IBMFloat.__le__", "segpy/ibm_float.py:IBMFloat.__gt__", "segpy/ibm_float.py:IBMFloat.__ge__"]}
{"id": "C78", "title": "rounding IBM floats", "statement": "round(x) is the integer nearest to an IBMFloat x, the even one of two, without any error; round(x, n) for any int n is the nearest decimal number with n places, as a double truncated to IBM precision, and raises OverflowError if that is too large.", "quantifier": "every IBMFloat and number of digits", "why_tests_cant": "2^32 values and all ints; ties; values near the limits.", "anchors": ["segpy/ibm_float.py:IBMFloat.__round__"]}
{"id": "C79", "title": "remainders and floor division of IBM floats", "statement": "x % y is the remainder of floored division, rounded: it has the sign of y, lies between zero and y, and is exact if x and y have the same sign. x // y is the integer part of the exact quotient, so that x == (x // y) * y + x % y. Zero divisors raise ZeroDivisionError.", "quantifier": "every pair of IBMFloats, and of an IBMFloat and a float or int", "why_tests_cant": "2^64 pairs; quotients a float cannot represent.", "anchors": ["segpy/ibm_float.py:IBMFloat.__mod__", "segpy/ibm_float.py:IBMFloat.__rmod__", "segpy/ibm_float.py:IBMFloat.__floordiv__", "segpy/ibm_float.py:IBMFloat.__rfloordiv__"]}
{"id": "C80", "title": "reading every trace of a file", "statement": "Of every file that create_reader opens, every trace but the last can be read in full, whatever has been read before; the last can be read exactly if the file contains all its samples, and raises EOFError otherwise. timed_reader.py, which reads them all, succeeds exactly on these files and otherwise raises what opening raises, or EOFError.", "quantifier": "every file, trace and native byte order", "why_tests_cant": "Unbounded files, cut off at any byte.", "anchors": ["examples/timed_reader.py:read_traces", "segpy/reader.py:SegYReader.trace_samples", "segpy/toolkit.py:catalog_traces"]}
{"id": "C81", "title": "reading a file that grows", "statement": "If bytes are appended to a file while a reader of it is in use, then every call answers what it would have answered at first, except that samples of the last trace which were missing may have become readable. Opening the file again raises ValueError or succeeds, with the same reel headers and at least as many traces, and each earlier trace keeps its number, header and samples.", "quantifier": "every file, every sequence of calls and of appended bytes between them, every pair of byte orders", "why_tests_cant": "Schedules of a writer and a reader, unbounded files and histories.", "anchors": ["segpy/reader.py:create_reader", "segpy/reader.py:SegYReader.trace_samples", "segpy/reader.py:SegYReader.trace_header", "segpy/toolkit.py:read_binary_values"]}
{"id": "C82", "title": "readers used by several threads", "statement": "Any number of threads, each calling a reader that has a file object of its own, get the answers a program that is alone would get, whatever the schedule of their operations on the files, and each finishes after a bounded number of its own steps. Readers that share a file object may be called in turn in any order. Threads must not share a reader without a lock: some schedule gives one numbers that are not in the trace it asked for.", "quantifier": "any number of threads and calls, every schedule of seeks and reads", "why_tests_cant": "Schedules: the number of interleavings is exponential and the wrong ones are rare.", "anchors": ["segpy/reader.py:SegYReader.trace_samples", "segpy/reader.py:SegYReader.trace_header", "segpy/toolkit.py:read_binary_values", "segpy/toolkit.py:read_trace_header"]}
{"id": "C83", "title": "headers and garbage collection", "statement": "Whenever headers are collected, the fields of the others stay as they are: after any history of constructing, assigning to, copying and forgetting headers, every living header has the field values and every operation the outcome they would have if nothing were ever collected. A header made at the address of a collected one starts with the default values. Collected headers leave no values behind.", "quantifier": "every history, every choice of addresses by the interpreter", "why_tests_cant": "Which addresses are used again is up to the memory allocator; unbounded histories.", "anchors": ["segpy/header.py:HeaderFieldDescriptor"]}
{"id": "C84", "title": "processes that share a cache directory", "statement": "If any number of processes open the same file with the same arguments at the same time and with a cache, in any interleaving of their operations on the cache file and with any of them killed at any point, each that finishes gets a reader with the same answers, or the same exception, as one that is alone. No process waits for another; each finishes after a bounded number of its own operations. If none is killed, a complete cache file is left, the one a single process leaves; where there is one already, all read it and none changes it.", "quantifier": "any number of processes, every schedule of checks, reads, writes and removals of any number of bytes, every crash point", "why_tests_cant": "Schedules and crash points: the windows between two operations are short, so tests hardly ever hit them.", "anchors": ["segpy/reader.py:create_reader", "segpy/reader.py:_load_reader_from_cache", "segpy/reader.py:_save_reader_to_cache"]}
{"id": "C85", "title": "updating a file in place", "statement": "If traces of a file are given other valid headers or other samples in place, at the positions catalog_traces gives and with write_trace_header and write_trace_samples, any number of times and in any order, without changing numbers of samples, then nothing raises and the file can be opened again; the reel headers and the number and lengths of traces are what they were, and readers, whether opened before or afterwards, give for each trace the header and samples it was given last, and otherwise those it had. What is refused changes nothing. If the device fails while samples are written, only samples of that trace are affected, and each is what it was, or the new one, except for one at which writing stopped.", "quantifier": "every file that opens, every sequence of updates, every header format in which valid headers can be stored, every sample format and byte order, every crash point within the samples of a trace", "why_tests_cant": "Unbounded files and histories, and crash points; that nothing else changes is a statement about all other bytes.", "anchors": ["segpy/toolkit.py:write_trace_header", "segpy/toolkit.py:write_trace_samples", "segpy/toolkit.py:catalog_traces", "segpy/reader.py:SegYReader.trace_header", "segpy/reader.py:SegYReader.trace_samples"]}
{"id": "C86", "title": "replacing the reel headers of a file in place", "statement": "If the textual header of a file that opens is overwritten with write_textual_reel_header, in the encoding in which it was read, then nothing raises, the file opens again and has the new text; if the device fails, it opens with the part of the new text that was written followed by the rest of the old one. If the binary header is overwritten with write_binary_reel_header by a valid one with the same sample format and number of extended headers and a known revision, the file opens again and has the new header. In all cases every other header, the number of traces, their lengths, their headers and their samples are what they were, for new readers and for those that were open.", "quantifier": "every file that opens, every text that can be encoded, every valid binary header, every byte order, every crash point within the text", "why_tests_cant": "Unbounded files and texts, and crash points; that nothing else changes is a statement about all other bytes.", "anchors": ["segpy/toolkit.py:write_textual_reel_header", "segpy/toolkit.py:write_binary_reel_header", "segpy/reader.py:create_reader"]}
{"id": "C87", "title": "saving an inline section (segpy_numpy example script)", "statement": "extract_inline.py exits with status 0 and saves the section of the given inline of every file that opens, is three-dimensional and has the inline, row by row: a row for each crossline number in increasing order and in it the samples of the trace with these line numbers, the null value standing for missing traces and for samples that short traces do not have. Otherwise it exits with status 70 and saves nothing.", "quantifier": "every file, inline number, null value or none, and native byte order", "why_tests_cant": "Unbounded files, every arrangement of lines, short traces and cut off ones.", "anchors": ["segpy-ext/segpy_numpy/examples/extract_inline.py:extract_inline", "segpy-ext/segpy_numpy/examples/extract_inline.py:main", "segpy-ext/segpy_numpy/extract.py:extract_inline_3d"]}
{"id": "C88", "title": "extracting a trace header field (segpy_numpy example script)", "statement": "extract_trace_header_field.py extracts the named field of the trace headers of every file that opens and is three-dimensional, on the grid of inline and crossline numbers, with the null value where there is no trace, and saves it. A name that is no field is refused.", "quantifier": "every file, field name, null value or none", "why_tests_cant": "Unbounded files, every arrangement of lines.", "anchors": ["segpy-ext/segpy_numpy/examples/extract_trace_header_field.py:extract_header_field", "segpy-ext/segpy_numpy/examples/extract_trace_header_field.py:main", "segpy-ext/segpy_numpy/extract.py:extract_trace_header_field_3d"]}
{"id": "C89", "title": "appending traces to a file", "statement": "If traces with valid headers, whose num_samples is the number of their samples, and with samples that the sample format of the file can represent are written with write_trace_header and write_trace_samples at the end of a file that opens and ends with the last sample of its last trace, then nothing raises and the file opens again, with the same reel headers; its traces are those it had, with the same headers and samples, and after them the new ones, in order, with the headers and samples given. If the device is full after any number of bytes, OSError is raised and the file still opens: it has the traces it had, and those new ones whose headers were written; their samples can be read if they were written completely, and otherwise raise EOFError.", "quantifier": "every file that opens, every list of new traces, every header format in which valid headers can be stored, every sample format and byte order, every crash point", "why_tests_cant": "Unbounded files and lists of traces, and every crash point.", "anchors": ["segpy/toolkit.py:write_trace_header", "segpy/toolkit.py:write_trace_samples", "segpy/toolkit.py:catalog_traces", "segpy/reader.py:create_reader", "segpy/util.py:file_length"]}
{"id": "C90", "title": "writing selected traces of a file", "statement": "A DelegatingDataset over a reader whose trace_indexes() are any trace numbers of the file, in any order and with any repetitions, and whose num_traces() is how many there are, can be written with write_segy in either byte order if the header and samples of each of these traces can be read, whether or not other traces can. The new file opens with the same arguments, has the reel headers of the old one, the textual header byte for byte, and its traces are the selected ones in the order given, with their headers and samples.", "quantifier": "every file that opens, every non-empty list of trace numbers, every pair of byte orders, every header format in which valid headers can be stored, every sample format", "why_tests_cant": "Unbounded files and lists.", "anchors": ["segpy/dataset.py:DelegatingDataset", "segpy/writer.py:write_segy", "segpy/reader.py:SegYReader.trace_header", "segpy/reader.py:SegYReader.trace_samples"]}
{"id": "C91", "title": "slices and set methods of SortedFrozenSet", "statement": "A slice of a SortedFrozenSet, with any start, stop and step, positive or negative, present or not, is a SortedFrozenSet of exactly the items at the positions that the slice selects; a step of zero raises ValueError. s[a:b] lists the items from position a up to position b, and s[::-1] == s. issubset, issuperset, union, intersection, difference and symmetric_difference take any iterable, in any order and with repetitions, never raise and give the mathematical answer, sorted. reversed(s) runs through the items in descending order; n * s is s for positive n and empty otherwise.", "quantifier": "every finite collection of comparable items, every slice, every iterable", "why_tests_cant": "All slices, all collections: signs, missing and out-of-range bounds.", "anchors": ["segpy/sorted_frozen_set.py:SortedFrozenSet.__getitem__", "segpy/sorted_frozen_set.py:SortedFrozenSet.issubset", "segpy/sorted_frozen_set.py:SortedFrozenSet.intersection", "segpy/sorted_frozen_set.py:SortedFrozenSet.symmetric_difference", "segpy/sorted_frozen_set.py:SortedFrozenSet.__rmul__"]}
{"id": "C92", "title": "trace_length_bytes", "statement": "If all traces of a file that opens have as many samples as its binary reel header says, then trace_length_bytes of that header, with its bytes_per_sample, is the distance between the beginnings of consecutive traces; if the last trace is complete, the length of the file after the reel headers divided by it, rounded down, is the number of traces. bytes_per_sample and data_sample_format_size_in_bytes agree on every sample format.", "quantifier": "every file that opens and whose traces all have the length its reel header gives; every sample format code", "why_tests_cant": "Unbounded files.", "anchors": ["segpy/toolkit.py:trace_length_bytes", "segpy/toolkit.py:samples_per_trace", "segpy/toolkit.py:bytes_per_sample", "segpy/datatypes.py:data_sample_format_size_in_bytes"]}
{"id": "C93", "title": "decimal form of a revision number", "statement": "integer_to_decimal_revision gives the decimal number that a 16-bit revision number denotes, the integral part in the first byte and the fraction in the second, so that different revision numbers have different decimal forms.", "quantifier": "every 16-bit revision number", "why_tests_cant": "65536 numbers; only two occur in tests.", "anchors": ["segpy/revisions.py:integer_to_decimal_revision", "segpy/revisions.py:canonicalize_revision"]}
{"id": "C94", "title": "command lines of the example scripts", "statement": "loadsave.py, convert_sample_type.py, scale_samples.py and scale_source_coords.py change no file but the one they write; with too few or wrong arguments they exit with status 64, and if a file cannot be opened with the status that says why, and have changed nothing. They exit with status 0 if and only if the input file opens and all of it can be read and transformed, and then the output file opens and has the transformed contents; in particular, they never destroy their input. timed_reader.py exits with status 0 if and only if the file opens and its last trace is complete.", "quantifier": "every list of arguments, every set of files and of names for them, every native byte order", "why_tests_cant": "Unbounded files; several names of the same file.", "anchors": ["examples/loadsave.py:main", "examples/loadsave.py:load_save", "examples/convert_sample_type.py:main", "examples/convert_sample_type.py:transform", "examples/scale_samples.py:main", "examples/scale_source_coords.py:main", "examples/timed_reader.py:main"]}
{"id": "C95", "title": "catalog builders in use and catalogs as mappings", "statement": "However add() and create() are called on a CatalogBuilder, begun with nothing, a mapping or a series of pairs, each create() returns a catalog with exactly the entries given until then, or None if two have the same key; creating changes nothing for later calls. get, items, values and == of every catalog agree with its entries: two catalogs, of whatever kinds, or a catalog and a dict, are equal exactly if they have the same entries, and CatalogBuilder(m).create() == m for every mapping m that is not empty.", "quantifier": "every history of calls on a builder; every two catalogs or dicts with integer keys, or with pairs of integers as keys, and integer values", "why_tests_cant": "Unbounded histories and mappings; create() sorts the entries in place in ways that depend on them, and picks one of nine representations.", "anchors": ["segpy/catalog.py:CatalogBuilder", "segpy/catalog.py:Catalog2D", "segpy/catalog.py:LinearRegularCatalog"]}
{"id": "C96", "title": "the bytes of a copy", "statement": "If the traces of a file can all be read, handing its reader to write_segy with the byte order of the file writes the bytes of the file up to the end of its last trace, except that bytes of the binary reel header and of trace headers which belong to no field become zero, and that float samples which are not numbers may be stored as other bytes that are not numbers. A file in which such header bytes are zero, no sample is not a number and nothing follows the last trace is therefore copied byte for byte; and a copy of a copy of a file without such samples has the same bytes as the copy.", "quantifier": "every file that opens and whose traces can be read, every header format in which valid headers can be stored, every sample format, byte order and encoding", "why_tests_cant": "Unbounded files: every byte of every header and sample must survive decoding and encoding.", "anchors": ["segpy/writer.py:write_segy", "segpy/reader.py:create_reader", "segpy/toolkit.py:pack_samples", "segpy/toolkit.py:unpack_samples", "examples/loadsave.py"]}
{"id": "C97", "title": "which files open", "statement": "create_reader makes a reader of a file exactly if dimensionality is None, 1, 2 or 3, the file has 3600 bytes at least, its textual header can be decoded in the encoding used, every field of its binary reel header has an admissible value, the pages of its extended textual header are there, can be decoded, and end as the binary header says, its sample format and revision number are known ones, the trace headers found one after the other have admissible values in the fields that are indexed, and there is at least one trace. For any other bytes it ends too, and raises ValueError (UnicodeDecodeError included), or EOFError, only if extended textual headers are missing, or RuntimeError, only if the reel headers are sound but there is no trace, or SegYRevisionError, only if the revision number is unknown.", "quantifier": "every sequence of bytes, every encoding or none, both byte orders, every dimensionality argument, every pair of header formats in which files can be read", "why_tests_cant": "All files, of any length and content, including those cut off or damaged at any place.", "anchors": ["segpy/reader.py:create_reader", "segpy/reader.py:_make_reader", "segpy/toolkit.py:read_extended_textual_headers", "segpy/toolkit.py:catalog_traces", "segpy/revisions.py:canonicalize_revision"]}
{"id": "C98", "title": "the byte order of a file", "statement": "No file opens both as big-endian and as little-endian: if create_reader makes a reader of a file in one byte order, then in the other it raises, whatever the other arguments.", "quantifier": "every file, every encoding, dimensionality and trace header format in each of the two calls, every format of the binary reel header that stores the sample format in more than one byte", "why_tests_cant": "All files; that wrong byte orders are noticed rests on what is checked, not on any file tested.", "anchors": ["segpy/reader.py:create_reader", "segpy/toolkit.py:bytes_per_sample", "segpy/binary_reel_header.py:BinaryReelHeader"]}
{"id": "C99", "title": "command lines of the scripts that only read", "statement": "The exit status of report.py and custom_header.py says what became of the file: 64 without an argument; 66 if it is not there or a directory, 77 if permission is missing, 0 exactly if a reader can be made of it (which C97 describes), else 70; custom_header.py succeeds whenever report.py does. trace_positions.py succeeds exactly if moreover all trace header fields are admissible. timeslice.py saves the slice, under the name given, with .npy appended if it does not end so, and ends with status 0, exactly if the file is a sound three-dimensional survey with a sample of that number and no trace cut off and the output can be opened; otherwise it changes no file at all. In no case does any other file change.", "quantifier": "every command line, every file system, every contents of the files", "why_tests_cant": "All contents of the files and all ways in which they can be missing or be damaged; that nothing is written before everything has been read concerns every point of failure.", "anchors": ["examples/report.py:main", "examples/custom_header.py:main", "examples/trace_positions.py:main", "examples/timeslice.py:main", "examples/timeslice.py:extract_timeslice"]}
{"id": "C100", "title": "constructing, pickling and copying IBM floats", "statement": "IBMFloat(b) makes an IBM float of exactly the four bytes given, or of an IBM float, and refuses everything else with ValueError or TypeError. The samples of a trace can be pickled and loaded again, as when they are passed between processes, and copied with copy.deepcopy, and stay the same, whatever the sample format of the file.", "quantifier": "every argument that is bytes, a sequence of ints, an int, an IBM float, or neither iterable nor an integer; every trace of every file; every pickle protocol", "why_tests_cant": "All arguments, all samples and all protocols.", "anchors": ["segpy/ibm_float.py:IBMFloat", "segpy/reader.py:SegYReader.trace_samples"]}
{"id": "C101", "title": "files that are not empty, or not at their beginning", "statement": "write_segy stores what it would write to an empty file at the position of the file it is given, whatever that file holds; create_reader, given a file positioned at the beginning of a reel header, as its documentation says, reads the SEG Y data that begin there. What write_segy returns or raises does not depend on the file. A file that was longer than what is written from its beginning is left with exactly what is written.", "quantifier": "every dataset, all contents and positions of the file", "why_tests_cant": "Unbounded files and positions; tests begin with empty files, at position zero.", "anchors": ["segpy/writer.py:write_segy", "segpy/reader.py:create_reader", "segpy/toolkit.py:write_extended_textual_headers", "segpy/toolkit.py:read_extended_textual_headers", "segpy/toolkit.py:guess_textual_header_encoding", "segpy/util.py:hash_for_file"]}
{"id": "C102", "title": "stopping through the progress callback", "statement": "A progress callback may raise, to stop. create_reader then raises what the callback first raised, and otherwise makes the same reader, with the same reports, as without a callback, even if the callback moves the position of the file; the file is not changed, and no cache file is written unless it raised at the last report. write_segy, with a callback that does not touch the file, then raises the same; the file holds exactly the headers and the traces reported so far, opens, and these traces can be read. A callback that never raises changes nothing.", "quantifier": "every file, every consistent dataset, every callback and every report at which it may raise, every state of the cache", "why_tests_cant": "Unbounded files and datasets, every point at which the callback may raise.", "anchors": ["segpy/toolkit.py:catalog_traces", "segpy/reader.py:create_reader", "segpy/reader.py:_make_reader", "segpy/writer.py:write_segy"]}
{"id": "C103", "title": "repr and str of IBM floats", "statement": "repr(x) of an IBM float is, up to the sign \u2248, a Python expression that makes an IBM float of the same bytes, so two IBM floats have the same repr exactly if they have the same bytes; they have the same str exactly if they denote the same number.", "quantifier": "every two of the 2^32 IBM floats", "why_tests_cant": "Over four thousand million values; no test looks at either.", "anchors": ["segpy/ibm_float.py:IBMFloat.__repr__", "segpy/ibm_float.py:IBMFloat.__str__"]}
{"id": "C104", "title": "headers and the SEG Y standard", "statement": "The fields of BinaryReelHeader, TraceHeaderRev0 and TraceHeaderRev1 are the entries of the headers in the SEG Y standard (revision 1): whatever bytes a header has, each field is the two's complement number in the bytes where the standard has the entry, and packing puts it there, with zeros where there is no entry; so the headers of a reader are those the standard says are in the file. A header is accepted whenever its codes are among those that the standard defines.", "quantifier": "every sequence of bytes, every header of these formats, every file that opens, both byte orders", "why_tests_cant": "All headers: 2^3200 binary ones and 2^1920 trace headers, and a table of 119 entries.", "anchors": ["segpy/binary_reel_header.py:BinaryReelHeader", "segpy/trace_header.py:TraceHeaderRev0", "segpy/trace_header.py:TraceHeaderRev1", "segpy/packer.py:make_header_packer", "segpy/field_types.py"]}
{"id": "C105", "title": "powers of IBM floats", "statement": "x ** y of IBM floats: the power 0 is 1; a positive power of 0 is 0 and a negative one raises ZeroDivisionError; an integral power of any other number is the exact power if that is an IBM float, and otherwise one of the two IBM floats around it, or raises OverflowError if it is beyond the largest one (which may also be the result). Any power of a positive number is what C's pow computes, truncated to IBM precision, or OverflowError if beyond the largest IBM float. A power of a negative number that is not integral is the complex number Python gives; if its imaginary part has underflowed to 0 it is 0 or, if the real part has not, TypeError is raised. With an int or float as base or exponent results are floats or complex, never IBM floats, and integral powers are as accurate as those of Python floats.", "quantifier": "every two IBM floats; every IBM float with every finite float or int of at most 53 bits; every C library whose pow is off by less than a unit in the last place", "why_tests_cant": "2^64 pairs of operands.", "anchors": ["segpy/ibm_float.py:IBMFloat.__pow__", "segpy/ibm_float.py:IBMFloat.__rpow__", "segpy/ibm_float.py:IBMFloat.from_float_without_underflow"]}
