{
 "C06": [
  "partial",
  "The full claim is false: C06_not_sound, C06_not_complete and C06_not_transitive exhibit counterexamples. C06_eq_iff_partial proves it outside the two defective cases (zeros of different sign; two magnitudes below the normal range with different exponents)."
 ],
 "C09": [
  "partial",
  "trunc/int proved in full. ceil/floor are wrong on exact integers (C09_ceil_floor_wrong_on_integers); proved for all non-integers."
 ],
 "C16": [
  "partial",
  "The claim is false under Python >= 3.7 (C16_empty_raises proves that every one of these functions raises RuntimeError on an empty sequence). C16_nonempty_partial proves that no non-empty input raises."
 ],
 "C20": [
  "partial",
  "Proved for views of lists (the only use in the package). A view of a view cannot be iterated (C20_nested_iter_fails), so the claim for arbitrary nesting is false for iteration; indexing, length and membership are proved for every nesting."
 ],
 "C57": [
  "proved",
  "intervals_partially_overlap is stated for non-empty intervals. C57_is_sorted_key_ignored and C57_duplicates_unsorted delimit is_sorted (range shortcut ignores key) and contains_duplicates (adjacent only)."
 ],
 "C26": [
  "partial",
  "Acceptance is characterised in full (C26_accepts_iff, C26_errors). 'All within the stated length' holds at the upper end (C26_within_partial) and is false at the lower: a field before START_OFFSET_IN_BYTES is accepted and misplaced (C26_before_start_accepted)."
 ],
 "C27": [
  "proved",
  "For formats none of whose fields begins before the start (see C26_before_start_accepted for the others)."
 ],
 "C28": [
  "partial",
  "Proved for formats declared in offset order and for all formats with coincident fields; false for other formats declared out of order (C28_out_of_order_fails)."
 ],
 "C30": [
  "partial",
  "Proved when the format declares its length and no class overrides the layout attributes of its superclass; otherwise the sub-format expects another buffer length (C30_undeclared_length_fails, C30_overridden_length_fails)."
 ],
 "C33": [
  "partial",
  "False for derived formats such as TraceHeaderRev1 (C33_derived_format_fails). Proved exactly which fields survive (C33_pickle_partial), hence full equality for single-class formats."
 ],
 "C38": [
  "partial",
  "Page shape, stop page, wrapping and acceptance are proved in full. 'Loses no text' is false for blank lines (C38_blank_lines_lost: the formatter drops empty lines); C38_text_kept_partial proves that every non-empty line is kept, in order, wrapped at 78."
 ],
 "C39": [
  "proved",
  "C39_premature_stop shows what happens with count -1 when an earlier page starts with the stop stanza."
 ],
 "C43": [
  "partial",
  "Proved for every trace header format in which the number of samples cannot be negative (Cataloguable; C43_rev1_cataloguable shows that TraceHeaderRev1 is one): C43_indexes, C43_tiles, C43_bad_header, C43_no_traces, C43_traces, C43_terminates. For a custom format with a signed number of samples the loop need not end: C43_may_not_terminate."
 ],
 "C44": [
  "partial",
  "The claim is false of every successful run: C44_exceeds_one (values 9/8 and 21/16 are reported before the final 1). C44_reading_partial proves it for the values reported while the file is read, if the last trace is complete."
 ],
 "C54": [
  "partial",
  "A complete header with an inadmissible field also raises EOFError (C54_zeros_reported_as_truncated). C54_read_header_partial characterises exactly when a header is returned and when EOFError is raised."
 ],
 "C60": [
  "partial",
  "False for TraceHeaderRev0: C60_rev0_fails proves that no file can be catalogued with it. The TraceHeaderRev1 half is C43_rev1_cataloguable with C43_indexes."
 ],
 "C51": [
  "partial",
  "False: C51_no_empty_reader proves that every opened reader has at least one trace, and C51_opens_partial that a readable file without traces raises RuntimeError. What C51_opens_partial keeps is that every file with readable headers, a known revision and at least one trace opens and is described by the reader."
 ],
 "C55": [
  "partial",
  "False for the variants 1 and 100: C55_variants_refused proves that create_reader raises ValueError for every revision number but 0 and 256 with the package's binary header format. C55_canonical_partial proves that the canonical revision is reported whenever a file opens, with any binary header format."
 ],
 "C45": [
  "proved",
  "C45_subrange, C45_invalid and C45_reads; the numbers read are those the bytes stand for, whichever the native byte order."
 ],
 "C49": [
  "proved",
  "C49_finds also covers readers whose dimensionality was forced although numbers are duplicated: they find nothing, and list_numbers raise RuntimeError."
 ],
 "C47": [
  "proved",
  "Consistent (Spec/Writer.lean) spells out the datasets meant: encodable text, valid headers in regular formats (no overlapping fields; the shipped ones are: exampleConsistent), honest page and sample counts, samples that fit, at least one trace. A sample is read back as what its format can represent of it (StoredAs), exactly for integers."
 ],
 "C48": [
  "proved",
  "A crash at byte k is modelled as a device that takes k bytes and then raises OSError. C48_dataset_raises covers a dataset that raises, or holds a sample that does not fit, in the middle; C48_encoding_refused that nothing is written with an unsupported encoding."
 ],
 "C52": [
  "partial",
  "Proved for every history: outcome and answers with the cache are those without it, for binary headers declared in one class, calls not sharing a cache file with a different dimensionality or another still existing file of changed contents, and no collision of the hash function. False in general; the failing cases are C52_*_fails. C52_data_files says that no opening changes a data file, at any point of any history."
 ],
 "C53": [
  "proved",
  "Any cache file that raises when loaded is as good as none, is removed and is replaced. A pickle is modelled by what loading it yields; a pickle of something else raises TypeError as documented."
 ],
 "C56": [
  "partial",
  "Feed characterised exactly; contents determined for fixed arguments, and contents and arguments for the calls create_reader makes. False for arbitrary argument lists (C56_arguments_fail, C56_contents_fail)."
 ],
 "C58": [
  "partial",
  "Ascending ranges: exact characterisation of is_range_superset_of_range and of ensure_superset for lists, ranges and slices. The English property is false of the code: a range of one number is refused unless its step suits (C58_single_element_fails, C58_single_number_fails), empty ranges are never contained or raise IndexError (C58_empty_fails), selecting nothing raises RuntimeError (C58_none_fails)."
 ],
 "C59": [
  "partial",
  "C59_iff: the mapping is a bijection exactly if the array is square or empty, so the property is false of the code for all other shapes (C59_not_square_fails); besides, ArrayDataset3d cannot be instantiated (C59_no_instance_fails)."
 ],
 "C64": [
  "partial",
  "Proved for traces that have all the samples asked for and selections that are not refused by mistake (C58). The full property is false of the code: too short traces raise ValueError or have their only sample repeated (C64_short_trace_fails), slices that go backwards are refused (C64_reversed_slice_fails)."
 ],
 "C65": [
  "partial",
  "Proved for one or more distinct fields of signed type given in the order of their offsets. Otherwise the property is false of the code: fields in another order get each other's values (C65_order_fails), unsigned fields and no fields are refused (C65_unsigned_fails, C65_none_fails)."
 ],
 "C66": [
  "partial",
  "False of the code: extract_trace always raises on plain and 3D readers (C66_plain_fails, C66_3d_fails), and on 2D readers it takes the trace index for a CDP number as well (C66_2d_index_fails). Proved where the number is both (C66_2d_partial)."
 ],
 "C67": [
  "proved",
  "Bytes of headers that belong to no field are not copied (C67_unassigned_lost); the property does not ask for that."
 ],
 "C68": [
  "proved",
  "Model of the example script with its limits; the conversion of binary32 is to the nearest even number. C68_float32_overflow, C68_not_ibm and C68_unknown_format are the cases that raise."
 ],
 "C69": [
  "partial",
  "Scaling and the exceptions are proved in full (C69_scale, C69_raises). That scaling by one changes nothing is proved for integers, IBM floats and binary32 numbers up to 3.402823e38 (C69_by_one_partial); it is false of the code for the greatest binary32 numbers and for NaNs, which become that limit (C69_by_one_changes)."
 ],
 "C70": [
  "proved",
  "With the default formats, as in the script. C70_scale characterises success, C70_raises the exceptions."
 ],
 "C71": [
  "proved",
  "C71_sample_format relates the sample format to the code in the binary header."
 ],
 "C72": [
  "proved",
  "A print is modelled as the value printed, without its label; opening is without a cache, which makes no difference by C52 as far as that holds."
 ],
 "C73": [
  "proved",
  "The default element type; the null value is given as an element of the array. A survey that is not three-dimensional is refused with KeyError instead of the intended DimensionalityError, because formatting its message fails."
 ],
 "C74": [
  "proved",
  ""
 ],
 "C75": [
  "partial",
  "Everything but two clauses. Two bytes of the custom trace header remain unassigned, because TraceHeaderRev1 has only four of the six bytes of the source energy direction (C75_custom_trace_header), so that they are not copied; and the comparison of samples fails for files that contain NaN (C75_nan_fails)."
 ],
 "C76": [
  "partial",
  "All operations but one for all operands. A float divided by an IBMFloat gives an IBMFloat, less precise and out of range sooner (C76_float_by_ibm, C76_rtruediv_fails); only for ints is it the float nearest to the quotient (C76_rtruediv_partial). Powers are not modelled."
 ],
 "C77": [
  "partial",
  "Proved unless the value of x is the double nearest to n without being n, or n is too large for a float (C77_compare_partial); false of the code in those cases (C77_compare_fails). Holds for all ints of at most 53 bits (C77_small_ints)."
 ],
 "C78": [
  "proved",
  "round(x) is an IBMFloat, not an int as for floats."
 ],
 "C79": [
  "partial",
  "Remainders in full; they can equal the divisor after rounding (C79_mod_equals_divisor). Floor division for quotients below 2 ** 28 and numbers of IBM precision; it is false for greater quotients (C79_floordiv_fails)."
 ],
 "C32": [
  "partial",
  "TypeError is raised only for names that are no attributes at all (C32_raises_partial): the names of methods and layout constants such as copy or LENGTH_IN_BYTES are accepted and change no field (C32_other_names_fail). The other parts are proved in full."
 ],
 "C84": [
  "partial",
  "Processes may also get FileNotFoundError (C84_race_fails): a process removes a cache file it cannot load while another is between checking that it exists and opening it. Everything else is proved."
 ],
 "C85": [
  "proved",
  "The file is opened at position 0. C85_crash is about samples; a torn header may hold inadmissible values."
 ],
 "C86": [
  "proved",
  "C86_text: replacing the text. C86_text_crash: the device fails after k bytes. C86_binary: replacing the binary header; sample format and number of extended headers must stay the same and the revision must be a known one (all fields of the format are compared). C86_kept: whatever comes of it, for any text, header and device, a reader that is open finds the traces as they were. The encoding with which the file is opened again must be the one in which the text was written, or be guessed to be (usedEncoding)."
 ],
 "C87": [
  "partial",
  "C87_inline_partial describes the program with a null value on every file, except when a trace of the inline has a single sample and the longest trace more. The full property is false of the code: without a null value nothing is ever saved, because numpy does not write masked arrays to files (C87_masked_fails); short traces are not padded: a single sample is repeated, and other short traces make the program fail (C87_short_fails)."
 ],
 "C88": [
  "partial",
  "C88_field_partial: the function extract_header_field without a null value, for a field of a signed type with admissible values (see C65). The full property is false of the code: the null value is passed in the place of the inline numbers, so that it always makes the program fail (C88_null_fails), and the output file is never written (C88_unsaved_fails)."
 ],
 "C89": [
  "proved",
  "The file is opened at position 0. A file with bytes after its last trace is outside the claim: the new traces are not found there (example in Props/Append.lean)."
 ],
 "C90": [
  "proved",
  "The file is opened at position 0."
 ],
 "C63": [
  "partial",
  "C63_progress_partial: for datasets that number their traces from zero. The full property is false of the code: the progress reported is the trace number divided by the number of traces, which exceeds 1 for a dataset of selected traces (C63_above_one_fails)."
 ],
 "C91": [
  "proved",
  "Items of any linearly ordered type; an argument is any list of items or a set made by the constructor."
 ],
 "C92": [
  "proved",
  "For header formats with 240 byte trace headers that files can be catalogued by; whether the last trace is complete is a hypothesis of the count only."
 ],
 "C93": [
  "partial",
  "True of revision numbers whose second byte is less than ten, in particular of the two known ones. False otherwise, proved: 0x0110 becomes 2.6, and 0x010A and 0x0200 both become 2.0."
 ],
 "C94": [
  "partial",
  "True if the names of the input and of the output do not lead to the same file; then the status is 0 exactly if all of the input can be read and transformed (C94_loadsave_partial, C94_status_partial). False otherwise, proved (C94_same_file_fails): opening the output empties the file before it is read, whatever was in it; only convert_sample_type.py compares the names, and not the files. That work is done on two file objects even if both names lead to the same file is a simplification that makes no difference, as nothing is written then."
 ],
 "C95": [
  "proved",
  "create() of a builder without entries raises RuntimeError (C16, C23_empty_raises), which C95 states as well. Keys and values are integers or, for keys, pairs of integers. The mixin methods are those of collections.abc.Mapping in CPython's Lib/_collections_abc.py."
 ],
 "C96": [
  "proved",
  "Sequel to C67 and C75, which speak of what readers show. Which bytes a NaN is stored as is not modelled (the payload of a NaN is not part of a value), so C96_bytes says only that such samples stay NaNs; C96_identical and C96_again ask that no sample be one."
 ],
 "C97": [
  "proved",
  "C97_opens is an equivalence; C97_raises says what is raised otherwise. The file is read from its beginning, and caching is disabled (for caches see C52 and C53). Encodings other than ASCII and EBCDIC (cp037) are not modelled."
 ],
 "C98": [
  "proved",
  "For any file and any two calls with different byte orders; that the second call ends as well is C97_raises. If the sample format had one byte, as a customised format may declare, nothing would distinguish the byte orders."
 ],
 "C99": [
  "proved",
  "C99_unique: the description of a file is determined by its bytes. argparse (trace_positions.py, timeslice.py) is not modelled, nor the option --dtype; np.save is any function from arrays to bytes, and printing and writing are assumed to succeed."
 ],
 "C100": [
  "partial",
  "False: IBMFloat(4) is the number 0, because bytes(4) is four zero bytes (C100_four_fails), and no IBMFloat can be unpickled or copied, because __new__ requires an argument that pickle and copy do not pass (C100_pickle_fails). C100_constructs_partial characterises what is accepted; C100_samples_partial says that the samples can be pickled exactly if the sample format is not IBM or there are none. pickle and copy are modelled as object.__reduce_ex__ specifies."
 ],
 "C101": [
  "partial",
  "False: the first 3600 bytes are written at the position of the file, everything else at byte 3600 (C101_written_at, C101_appended_fails); the old end of a longer file stays (C101_leftover_fails) and may be read as further traces (C101_leftover_read, C101_leftover_read_fails); reading after a label finds other traces (C101_label_fails, C101_read_at), and with caching the position is ignored (C101_cached). C101_written_partial: from the beginning of a file that is not longer than what is written the result is that for an empty file. The binary reel header is assumed to take 400 bytes."
 ],
 "C102": [
  "proved",
  "C102_read compares create_reader with and without a callback that may raise and move the position of the file; C102_first_raise says what raising first means; C102_cancelled_not_cached is about the cache, and C102_cancelled_history carries what is proved of all cache histories over to those in which calls are stopped; C102_last_report: without an exception before the last report the files end up as without the callback; C102_write_same holds for every dataset and file, C102_write for consistent datasets written to a new file. A callback is a function of the reports made so far; callbacks that write to the file, or move its position while it is written, are not covered."
 ],
 "C103": [
  "proved",
  "Text is a list of characters. What Python prints for a float is a parameter; C103_str assumes of it only that different numbers are printed differently. Subclasses of IBMFloat, whose name would be printed instead, are not modelled."
 ],
 "C104": [
  "partial",
  "The tables in Spec/Standard.lean are those of the standard, written independently of the code. Two parts are false of the code: of the six bytes of source_energy_direction only four are read or written (C104_energy_direction_fails), and some headers that the standard allows are refused, those with sample format 4 and with negative numbers in entries that segpy takes for non-negative, like the datum elevation at the receiver group (C104_refused_fails). C104_accepts_partial says exactly which are accepted. For the rest C104_read_partial, C104_written_partial and C104_reader_partial are complete. TraceHeaderRev0 cannot be used to open files (C60)."
 ],
 "C105": [
  "proved",
  "CPython's case analysis of pow on floats is modelled; C's pow (for positive bases) and the complex power (for negative bases and fractional exponents) are parameters. C105_integer, C105_exact and C105_float assume of C's pow with integral exponents that it is off by less than one unit in the last place (AccuratePow, which a library that rounds correctly is shown to meet); nothing is assumed of the complex power, and nothing is claimed about the accuracy of fractional exponents. The three-argument pow, which __pow__ does not take, is not modelled."
 ]
}