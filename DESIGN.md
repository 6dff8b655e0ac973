# Formal model of segpy in Lean 4: design

Plan written before the proofs; the later sections are kept current as the model grows.

## Layout

* `lean/Verif/Py/` - the fragment of Python semantics the code relies on (exceptions as values, `range`, floor division, finite floats with IEEE rounding, `struct`, text codecs, seekable files).
* `lean/Verif/Model/` - one file per segpy module, each definition citing file and lines.
* `lean/Verif/Spec/` - small independent specifications used in theorem statements.
* `lean/Verif/Lemmas/` - supporting lemmas.
* `lean/Verif/Props/` - the property theorems, each with non-vacuity examples.

## Plan per property

* **C01 IBM float decoding is exact** - ibm2ieee is modelled step by step with every double operation followed by round-to-nearest-even (`F64.round`); proof that each intermediate is already representable.
* **C02 IBM -> IEEE -> IBM round trip** - Compose models of ibm2ieee and ieee2ibm; arithmetic on shifts/bit lengths.
* **C03 IEEE -> IBM conversion truncates toward zero, optimally** - Value spec `ibmValue : bytes -> Rat`; optimality against all representable values.
* **C04 IEEE -> IBM conversion raises exactly when it must** - Decision theorem: iff for every constructor of the float model.
* **C05 IEEE -> IBM conversion is monotone and odd** - Corollary of 3 (greatest representable below is monotone).
* **C06 IBMFloat == is value equality** - Expected false (sign of zero; lossy shift of un-normalisable operands): negation by witness, plus exact partial theorem.
* **C07 IBMFloat ordering is the order of exact values** - Comparisons convert to doubles exactly, then rational order.
* **C08 normalize preserves value and normalises** - Induction on the normalisation loop.
* **C09 int/trunc, ceil and floor are correct** - trunc proved; ceil/floor expected false on integers: negation + partial theorem for non-integers.
* **C10 neg and abs act on the value** - Bit-level computation.
* **C11 frexp/ldexp are exact inverses** - Rational identity + C02.
* **C12 as_integer_ratio is exact and reduced** - gcd reasoning; iff with rational equality.
* **C13 IBM arithmetic results are truncations of the correctly rounded result** - Product of two 24-bit mantissas is exact in 53 bits; sum via the rounding model.
* **C14 reversed_range reverses every range** - Model of Python range; fdiv/fmod arithmetic.
* **C15 make_sorted_distinct_sequence denotes the set of its inputs in order** - Model over lists; sortedness/distinctness invariants.
* **C16 empty inputs to the sequence utilities** - Expected false on Python >= 3.7 (PEP 479): negation theorem.
* **C17 batched partitions its input** - Structural induction.
* **C18 complementary_intervals tile the container** - Induction over the interval list; membership count spec.
* **C19 SortedFrozenSet is a finite set with an order** - Refinement to Finset/List.Mem; binary search loop invariant.
* **C20 ReversedSequenceView is the reversal** - List.reverse refinement.
* **C21 one-dimensional catalog refines the mapping** - Refinement to association-list lookup; case analysis on representation.
* **C22 two-dimensional catalog refines the mapping** - Refinement; product-grid counting argument.
* **C23 catalog creation detects duplicates** - Sort + adjacent duplicates iff not Nodup.
* **C24 catalog creation is independent of insertion order** - Sorting of permutations with distinct keys is unique.
* **C25 reverse lookup of 2D catalogs is the inverse** - Index arithmetic on ranges.
* **C26 compile_struct accepts only layouts with disjoint or coincident fields** - Sorted-adjacent implies pairwise.
* **C27 a packed header puts every field at its declared offset** - Layout lemma: struct item k lies at the sum of preceding sizes = offset - start.
* **C28 header pack/unpack round trip** - Round-trip; expected false for out-of-order declarations: negation + partial theorem.
* **C29 rewriting an unpacked header preserves field bytes** - Struct codec lemmas.
* **C30 a sub-format view reads the same values** - From 29/27: value of a field depends only on its byte range.
* **C31 header fields only ever hold admissible values** - State machine over header store; invariant by induction over operations.
* **C32 copy() with updates** - Function-update reasoning.
* **C33 pickling a header preserves it** - Expected false for derived formats: negation + partial theorem for underived ones.
* **C34 the shipped header formats are well formed** - Tables extracted from source text; kernel `decide`, lifted by 26-29.
* **C35 text codecs round trip** - Table of cp037 (from Python's codec) as data; induction over strings.
* **C36 textual reel header write/read round trip** - File-handle model; induction.
* **C37 encoding guess decides by character frequency** - Counting spec; decision logic.
* **C38 extended textual header pages are well formed and lose no text** - Wrapping function induction; blank-line loss expected: negation + partial.
* **C39 extended textual headers round trip** - File model round trip.
* **C40 writing extended headers is all-or-nothing** - Validation pass precedes writing.
* **C41 standard textual header format/parse** - Template as data; slice arithmetic.
* **C42 numeric samples pack/unpack round trip** - Struct/array codec, binary32 rounding model.
* **C43 trace cataloguing terminates and tiles the file** - Well-founded loop on file position; refinement to a tiling spec.
* **C44 progress callbacks stay within 0..1** - Expected false: negation + partial theorem.
* **C45 trace sample sub-ranges** - Slice of decoded list = decode of slice.
* **C46 reader answers do not depend on access history** - Position is always re-seeked: state-machine theorem.
* **C47 write then read returns the dataset** - Composition of C27-C43.
* **C48 crash during write leaves a readable prefix** - Prefix of the written byte list, composition with C43/C45.
* **C49 line catalog maps positions to traces** - Composition of C43 with C21/C22.
* **C50 dimensionality classification** - Decision theorem from C23.
* **C51 a file with no traces can be opened** - Expected false on Python >= 3.7: negation theorem.
* **C52 the reader cache is transparent** - State machine of files + cache; expected false (dimensionality not in key; file name bound at caching): negations + partial theorem under explicit side conditions and injective digest.
* **C53 a damaged cache file never breaks opening** - Decision logic of the loader.
* **C54 truncated or invalid trace headers are reported as such** - Expected false (ValueError reported as EOFError): negation + partial.
* **C55 every revision variant listed is readable** - Expected false (enum rejects 1 and 100 first): negation + partial.
* **C56 file hash identifies content and arguments** - Digest abstracted as a function of the fed byte string; block concatenation lemma.
* **C57 interval, stride and rounding helpers** - List/integer lemmas.
* **C58 range superset test (numpy extension)** - Expected false for singleton sub-ranges: negation + partial.
* **C59 array dataset trace index is row-major bijective (numpy extension)** - Expected false for non-square shapes: negation + partial.
* **C60 opening with a revision 0 trace header format** - Expected false (`TraceHeaderRev0` lacks attributes that cataloguing needs): negation for every file; the other half from C43.
* **C61 an opened reader describes the file** - Refinement of the reader to a byte-level description of the file (`Describes`, `Opened`).
* **C62 reading a binary reel header** - Packer lemmas of C27-C29 composed with the file model.
* **C63 progress of writing** - Rounded quotients are monotone and at most 1 if traces are numbered from zero; false otherwise.
* **C64 sections and time slices (numpy extension)** - Composition of C49, C45 with the model of arrays; expected false for short traces: negations + partial.
* **C65 arrays of trace header fields (numpy extension)** - From C30; expected false for fields out of order: negations + partial.
* **C66 extracting a trace by its index (numpy extension)** - Expected false: negations for every reader + partial.
* **C67 a file can be copied through reader and writer** - An opened reader is a consistent dataset, then C47.
* **C68 converting sample formats** - C67 with changed samples (`Derived` datasets) and C03/C42.
* **C69 scaling samples** - As C68 with the double and IBM arithmetic of C13; scaling by one expected false for binary32: negation + partial.
* **C70 scaling source coordinates** - As C68 with changed headers.
* **C71 reel headers of an opened file** - Follow the headers through `createReader`; state what is stored where in a `ReelHeaders` specification.
* **C72 commands** - Model both commands of `cli.py`; from C49, C61 and C71.
* **C73 time slices, C74 trace positions** - Model the two example scripts; induction over the loop that fills the array, from C45, C49, C61.
* **C75 custom header formats** - Model the formats of check_equal.py and custom_header.py and the scripts; show that the formats meet the hypotheses of C61, C67, C71 (which therefore must allow redefined fields), that stored integers determine the bytes, and that opening depends on three fields of the binary header only.
* **C76 mixed arithmetic** - Model the operators with ints and floats on either side, and `sum`; specify IEEE rounding by nearness (`Spec/IbmArith.lean`); sums by induction with all partial sums multiples of one unit.
* **C77 comparison with ints** - The int is converted to a float first; rounding is monotone, so the answer can be wrong only if the rounded int equals the value.
* **C78 rounding** - Show that the nearest integer of an IBM number is one; decimal rounding as in CPython, for every number of digits.
* **C79 remainders, floor division** - `fmod` of two doubles (two IBM numbers) is a double (an IBM number); a quotient of 24 bit numbers keeps a distance from the next integer, with a double between.
* **C80 reading every trace** - traces lie end to end (C43), so all but the last lie within the file; induction over the loop of the script.
* **C81 a file that grows** - what succeeds on a file gives the same on the file with bytes appended, shown for each reading function; the chain of traces of a file is a prefix of that of a longer file. Appending happens between calls, not within one.
* **C82 threads** - the calls that read are split into operations on the file object (proved to be the same function as the call); invariant over schedules: the answers so far, the answer the pending operations would give alone, and those of the calls to come are the answers of the list of calls. A bound on the number of steps by the number of operations left. A schedule for a shared file object that goes wrong.
* **C83 headers and garbage collection** - a model with addresses, weak references that compare by address and callbacks; refinement of the world in which objects live forever, step by step: the entries are those of the living objects.
* **C84 processes that share a cache directory** - create_reader split into its operations on the cache file (proved to come to the same as the whole, for any sizes of blocks); invariants over schedules with kills: every file under the name of the cache file holds some bytes of the pickle, with zeros elsewhere; every byte is right or some process has still to write it. A bound on the operations of a process. Assumed of pickling: such torn files do not load. POSIX semantics of removing a file that is open.
* **C85 updating a file in place** - a program that seeks and writes; induction over the sequence of updates with the invariant that the traces are where they were and hold the bytes they were given last; reading depends only on those bytes (reel headers: only on the bytes before the first trace), so that readers can be compared.
* **C86 replacing the reel headers of a file in place** - the same kind of program; what reads a part of the file depends only on the bytes between the position at which it begins and the one it reaches, so that the parts that are not overwritten are read as before; decoding a textual header is decoding each of its bytes, so that a mixture of two texts decodes to the mixture.
* **C87 saving an inline section** and **C88 extracting a trace header field (segpy_numpy example scripts)** - the scripts as programs on an open file with exit status and saved elements; from the extraction theorems C64 and C65, the facts about opened files (C71, C49), and a lemma that a list of readings fails if one of them does.
* **C89 appending traces to a file** - a program that seeks to the end and writes; the chain of traces of the file is continued by the one of the appended bytes, or of the first `k` of them, whose traces are known from C47/C48; the longer file opens because only its traces differ (C85).
* **C90 writing selected traces of a file** - the selection writes the same bytes as the dataset of the same traces numbered from zero (induction over the list), which is consistent if these traces can be read (as in C67), so that C47 applies.
* **C91 slices and set methods of SortedFrozenSet** - a specification of the positions a slice selects, written from the language reference; the computed range of indices contains exactly these; the methods reduce to the operators of C19.
* **C92 trace_length_bytes** - induction over the chain of traces of an opened file.
* **C93 decimal form of a revision number** - arithmetic; false for a second byte of ten or more, so partial.
* **C94 command lines of the example scripts** - a file system in which several names may lead to the same file; `main` as a function to an exit status and a file system, and C67-C70 and C80 for the contents. False if input and output are the same file, so partial.
* **C95 builders in use, catalogs as mappings** - the builder as a list that each `create` sorts in place; since it stays a permutation of what was added, C21-C24 apply to every call. The mixin methods of `Mapping` over `__iter__` and `__getitem__`.
* **C96 the bytes of a copy** - from C67, C68 and C75: decoding and encoding are injective on everything but NaN samples and bytes no field covers, so equal contents mean equal bytes; file lengths by induction over the chain of traces.
* **C97 which files open** - a description of sound files in terms of their bytes; one direction from C55, C61 and C71, the other by running each reading function on what the description provides (C51, C62); exceptions by inversion of every step.
* **C98 the byte order of a file** - the sample format code of an opened file is one of five numbers (C71); none of them read backwards in two or four bytes is another of them.
* **C99 command lines of the scripts that only read** - `main` as a function to an exit status (and a file system, for timeslice.py); C72-C75 say what happens after a reader has been made, C97 when one is made; the description of a file in C97 is shown to be unique.
* **C100 constructing, pickling and copying IBM floats** - `bytes(b)` for the kinds of arguments it accepts; `__reduce_ex__` as inherited from `object`. Expected false: `__new__` requires an argument.
* **C101 files that are not empty, or not at their beginning** - the same model, from any contents and position: every part of `write_segy` writes bytes that do not depend on the file, so two overwritings describe the result. Expected false: `write_extended_textual_headers` and `read_extended_textual_headers` seek to byte 3600 of the file.
* **C102 stopping through the progress callback** - `Model/Progress.lean` repeats `create_reader` and `write_segy` with a callback that may raise, and may move the file, at each report; proved by a relation between runs with and without it, over the loop of `catalog_traces`, and by induction on the traces written.
* **C103 repr and str of IBM floats** - `Model/IbmText.lean`, text as lists of characters, printing of floats as a parameter; the literals of all 256 bytes are evaluated, and cancelled one after the other.
* **C104 headers and the SEG Y standard** - `Spec/Standard.lean` has the tables of the standard; each entry is matched with a field by evaluation, and the theorems about packing, unpacking (C27, C29) and opening files are specialised to them. Expected false of the entry of six bytes and of negative numbers: negations.
* **C105 powers of IBM floats** - `Model/IbmPow.lean` has the cases that CPython decides; C's `pow` and the complex power are parameters. Truncating a double next to the exact power gives an IBM float next to it, because IBM floats are doubles.

## How a property is stated

A theorem named `Cnn_...` in `lean/Verif/Props/` states (part of) property Cnn of `properties.jsonl`. Statements use the
modelled API functions and the specification predicates of `lean/Verif/Spec/`; those define what the English says
(values of byte strings, tilings of a file, tables of numbers to traces, what a dataset contains) without calling the
functions under proof. `MANIFEST.json` lists all theorems of a property; where the code does not have the property, the
theorems named `..._fails`, `..._wrong...`, `..._lost` and the like prove that with a witness or for all inputs, and
the theorem named `..._partial` keeps what is true. Each theorem is followed by `example`s in which its hypotheses are
met by concrete data.

## Trusted base

* Lean 4.33.0's kernel, and Mathlib's definitions where statements use them (`ℚ`, `List` functions, `Finset`, `⌊ ⌋`).
* The axioms `propext`, `Classical.choice` and `Quot.sound` and no others. `AXIOMS.md` lists for every theorem in
  `MANIFEST.json` which of them it depends on (`tools/axioms.py` regenerates it from `#print axioms`). There is no
  `sorry`, `native_decide`, `bv_decide` or axiom of this project. `decide +kernel` evaluates in the kernel.
* That the model is the code: established by reading, function by function. Every definition under `Model/` cites the
  lines it models. `/repo` was never run.
* That the model of Python under `Py/` is Python, in particular the points listed next.
* Three tables were produced by scripts in `tools/` and are committed as source: the header formats
  (`Model/Formats.lean`, extracted from the text of `binary_reel_header.py` and `trace_header.py`), the standard textual
  header (`Model/Template.lean`), and code page 037 (`Py/Cp037.lean`, from the codec of a Python interpreter).

## The Python that is modelled

* CPython 3.7 or later. This matters for PEP 479: a `next` that runs out inside a generator raises `RuntimeError`. The
  package names 3.5 and later; with 3.5 or 3.6 C16 and C51 would turn out differently.
* Assertions are enabled.
* Exceptions are values of type `Err`, one constructor for each class that occurs. Messages and tracebacks are not
  modelled.
* Integers are unbounded. Floats are binary64: finite rationals, negative zero, infinities and one NaN; each operation
  is the exact one followed by rounding to nearest even, as IEEE 754 and CPython have it. NaN payloads and signs are not
  modelled, except that the packing of binary32 NaNs is a fixed pattern.
* `struct`, `array`, `int.from_bytes`, `range`, `slice`, `bisect`, `textwrap` (as far as used), `str` methods used, the
  codecs `ascii` and `cp037`, and `ABC` instantiation are modelled under `Py/` or next to their use.
* A file handle is its contents and a position (`FileH`), and code that uses it a state transformer (`FileM`). Seeking
  beyond the end is allowed; a short read returns what there is; there are no read errors. Writing is to a file, or for
  C48 to a device that fails at byte k. Nothing else touches the file meanwhile.
* Loops that need not end have fuel; exhausting it is the outcome `nonTermination`, which theorems exclude or exhibit.
* Threads are modelled where they call readers (C82), processes where they share a cache file (C84); elsewhere programs
  are sequential.

## What is modelled

| source | model | not modelled |
| --- | --- | --- |
| `segpy/ibm_float.py` | `Model/IbmObject.lean`, `Model/IbmText.lean`, `Model/IbmFloat.lean`, `Model/IbmArith.lean`, `Model/IbmPow.lean` | C's `pow` and the complex power, on which `__pow__` and `__rpow__` rest (parameters) |
| `segpy/ibm_float_packer.py` | `Model/Samples.lean` | the optional C++ packer: only the Python packer is the model |
| `segpy/util.py` | `Model/Util.lean`, `Model/Cache.lean` (hashing) | `now_millis`, name and docstring helpers, `filename_from_handle`, `almost_equal` |
| `segpy/sorted_frozen_set.py`, `segpy/reversed_sequence_view.py` | `Model/SortedFrozenSet.lean`, `Model/SetMethods.lean` | `__repr__`; items that cannot be compared |
| `segpy/catalog.py` | `Model/Catalog.lean`, `Model/Builder.lean` | `__repr__`; catalogs of keys that are neither integers nor pairs of integers |
| `segpy/datatypes.py`, `segpy/field_types.py`, `segpy/header.py` | `Model/Header.lean`, `Model/HeaderWorld.lean`, `Model/HeaderMemory.lean` | field types based on floats (never declared); fields named like methods; attributes of objects that are not fields (that assigning to `ordered_field_names` or `copy` hides the method) |
| `segpy/packer.py` | `Model/Packer.lean` | identity of classes beyond name and fields |
| `segpy/binary_reel_header.py`, `segpy/trace_header.py`, `segpy/revisions.py` | `Model/Formats.lean`, `Model/Scan.lean` and `Model/ReelSizes.lean` (revisions) | |
| `segpy/encoding.py` | `Model/Encoding.lean`, `Py/Text.lean` | |
| `segpy/textual_reel_header.py` | `Model/Template.lean` | |
| `segpy/toolkit.py` | `Model/TextHeader.lean`, `Model/Samples.lean`, `Model/Scan.lean`, `Model/Progress.lean`, `Model/ReelSizes.lean`; programs that use its functions on an open file: `Model/Update.lean`, `Model/Append.lean` | `write_trace_samples` for arrays (unused) |
| `segpy/reader.py`, `segpy/dataset.py` | `Model/Reader.lean`, `Model/Cache.lean`, `Model/SharedCache.lean`, `Model/Copy.lean`, `Model/Subset.lean`, `Model/Threads.lean` | `heading` text |
| `segpy/writer.py` | `Model/Writer.lean` | |
| `segpy-ext/segpy_numpy` | `Model/Numpy.lean`, `Model/NumpyScripts.lean` | numpy beyond what is listed in those files; command line parsing |
| `segpy/cli.py`, `examples/report.py` | `Model/Cli.lean`, `Model/ReadScripts.lean` | docopt, logging, the labels printed |
| `examples/check_equal.py`, `custom_header.py` | `Model/CustomFormats.lean`, `Model/ReadScripts.lean` | the file names, printing |
| `examples/timeslice.py`, `trace_positions.py` | `Model/Examples.lean`, `Model/ReadScripts.lean` | argparse, other element types than the default, `np.save` |
| `examples/timed_reader.py` | `Model/TimedReader.lean`, `Model/Scripts.lean` | the times measured, printing |
| `examples/loadsave.py`, `convert_sample_type.py`, `scale_samples.py`, `scale_source_coords.py` | `Model/Copy.lean`, `Model/Transform.lean`, `Model/Scripts.lean` (`main`) | printing |

Not modelled at all: `__repr__` and `__str__` methods other than those of `IBMFloat`, packaging, tests.

Idealisations beyond that:

* `pickle`: loading what was dumped gives an equal object where `__reduce__`/`__getstate__` allow (the model of headers
  follows those methods, which is how C33 fails); anything else in a cache file raises or is some other object.
* SHA1 is an arbitrary function of the bytes it is fed; theorems that need that two feeds do not collide say so.
* The cache directory and the data files are one map from paths to contents; symbolic links and permissions are not
  modelled. Concurrent processes are modelled where they use one cache file and the data file does not change (C84), and
  where the data file grows (C81); in the other theorems opening a file is one step.
* The progress callback returns and does not touch the file, except in C102, where it may raise and, when reading, move the position of the file.

## What the proofs found

Behaviour of the code that contradicts its documentation or a reasonable expectation, each proved in Lean:

| property | finding | theorem |
| --- | --- | --- |
| C06 | `IBMFloat` equality: 0 ≠ -0; some tiny unequal values are equal, so `==` is not transitive | `C06_not_complete`, `C06_not_sound`, `C06_not_transitive` |
| C09 | `floor` and `ceil` of an integral `IBMFloat` are off by one | `C09_ceil_floor_wrong_on_integers` |
| C16 | sequence helpers raise `RuntimeError` on empty input | `C16_empty_raises` |
| C20 | a reversed view of a reversed view cannot be iterated | `C20_nested_iter_fails` |
| C26 | fields before the start of a header are accepted and misplaced | `C26_before_start_accepted` |
| C28 | headers declared out of offset order do not survive packing | `C28_out_of_order_fails` |
| C30 | sub-formats of formats without a declared length expect another buffer | `C30_undeclared_length_fails`, `C30_overridden_length_fails` |
| C33 | pickling a `TraceHeaderRev1` loses the inherited fields; so does `copy.deepcopy`, which takes the same path (`copy.copy` does not) | `C33_derived_format_fails` |
| C38 | blank lines of extended headers are lost | `C38_blank_lines_lost` |
| C43 | a signed number of samples can make cataloguing run forever | `C43_may_not_terminate` |
| C44 | progress exceeds 1 in every successful run | `C44_exceeds_one` |
| C51 | a file without traces cannot be opened | `C51_no_empty_reader` |
| C52, C56 | the cache ignores the dimensionality, and other ways of getting a wrong reader from it | `C52_*_fails`, `C56_*_fail` |
| C54 | a complete trace header with an inadmissible value is reported as end of file | `C54_zeros_reported_as_truncated` |
| C55 | revision numbers 1 and 100 are documented variants but refused | `C55_variants_refused` |
| C58, C59, C64, C65, C66 | numpy extension: single numbers refused, non-square arrays, short traces, fields out of order, `extract_trace` | `C58_*_fails` and so on |
| C60 | no file can be catalogued with `TraceHeaderRev0` | `C60_rev0_fails` |
| C69 | scaling by 1.0 changes the greatest binary32 numbers and makes numbers of NaNs | `C69_by_one_changes` |
| C73 | `timeslice.py` raises `KeyError` instead of `DimensionalityError` | `C73_timeslice` |
| C75 | bytes 223 and 224 of a trace header belong to no field (the six byte source energy direction is declared with four), so they are lost when a file is copied even with the custom format of check_equal.py, whose comparison passes | `C75_custom_trace_header` |
| C104 | trace headers with negative numbers in entries like the datum elevation at the receiver group, which the standard allows, are refused; sample format 4 is, too | `C104_refused_fails`, `C104_accepts_partial` |
| C105 | `x ** y` for a negative IBM float and a fractional exponent raises `TypeError` if the imaginary part of the complex power underflows to zero and the real part does not (as for bases near -1e-78 and exponents near 4.15) | `C105_complex` |
| C75 | check_equal.py fails on files with NaN samples | `C75_nan_fails` |
| C76 | a float divided by an `IBMFloat` gives an `IBMFloat` (all other mixed operations give a float), losing precision or raising `OverflowError` | `C76_float_by_ibm`, `C76_rtruediv_fails` |
| C77 | for large ints none of `x < n`, `x == n`, `x > n` may hold, while `x <= n` and `x >= n` do | `C77_compare_fails` |
| C78 | `round(x)` is an `IBMFloat`, not an int | `C78_round` |
| C79 | `x // y` is not the integer part of large quotients and does not fit `x % y` | `C79_floordiv_fails` |
| C82 | two threads that use one reader can get wrong samples without an exception (`seek` and `read` are not one operation) | `C82_shared_file_fails` |
| C32 | `copy` and constructors accept the names of methods and layout constants as keywords, where TypeError is documented | `C32_other_names_fail` |
| C84 | if several processes open a file at the same time, `create_reader` may raise FileNotFoundError although the file is there: between `exists()` and `open()` another process may remove the cache file | `C84_race_fails` |
| C63 | the progress reported by `write_segy` is the trace number divided by the number of traces, and exceeds 1 if the dataset consists of selected traces with larger numbers | `C63_above_one_fails` |
| C87 | `extract_inline.py` saves nothing unless `--null` is given (`tofile` of a masked array), and a short trace makes it fail, or, if it has one sample, is filled with copies of it | `C87_masked_fails`, `C87_short_fails` |
| C88 | `extract_trace_header_field.py` passes the null value as inline numbers, so that `--null` always fails, and never writes its output file | `C88_null_fails`, `C88_unsaved_fails` |
| C93 | `integer_to_decimal_revision` is not the binary-coded decimal it is said to be: 0x0110 becomes 2.6, and 0x010A and 0x0200 both become 2.0 (it is only used in an error message) | `C93_decimal_fails` |
| C94 | `loadsave.py a a` (and `scale_samples.py`, `scale_source_coords.py`; `convert_sample_type.py` with two names of one file) empties `a` and fails: the output is opened, which empties it, before the input is read | `C94_same_file_fails` |
| C100 | `IBMFloat(4)` is 0 | `C100_four_fails` |
| C100 | an `IBMFloat` can be pickled but not unpickled, and cannot be copied; so the samples of a file of IBM floats cannot be passed to another process | `C100_pickle_fails`, `C100_dumped_fails`, `C100_samples_partial` |
| C101 | `write_segy` to a file that is not at its beginning overwrites part of the headers it has just written with the traces | `C101_written_at`, `C101_appended_fails` |
| C101 | `write_segy` over a longer file leaves its end, which may then be read as further traces | `C101_leftover_fails`, `C101_leftover_read_fails` |
| C101 | `create_reader` given a file positioned at the reel header, after other data, reads traces from byte 3600 of the file; with caching it ignores the position | `C101_read_at`, `C101_label_fails`, `C101_cached` |

## Testing the theorems

`seeded/LOG.jsonl` records edits of the model (one realistic bug each), built in a scratch copy, with the theorems and
lemmas that then fail to build. An edit that left everything provable although a claim had become false led to a
stronger theorem (field `tightened`).
