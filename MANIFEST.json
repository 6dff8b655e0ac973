{
 "claims": [
  {
   "property": "C01",
   "status": "proved",
   "theorems": [
    "Segpy.Props.C01_decode_exact",
    "Segpy.Props.C01_wrong_length"
   ],
   "note": ""
  },
  {
   "property": "C02",
   "status": "proved",
   "theorems": [
    "Segpy.Props.C02_roundtrip_value",
    "Segpy.Props.C02_roundtrip_bits"
   ],
   "note": ""
  },
  {
   "property": "C03",
   "status": "proved",
   "theorems": [
    "Segpy.Props.C03_truncates",
    "Segpy.Props.C03_relative_error"
   ],
   "note": ""
  },
  {
   "property": "C04",
   "status": "proved",
   "theorems": [
    "Segpy.Props.C04_outcomes",
    "Segpy.Props.C04_without_underflow"
   ],
   "note": ""
  },
  {
   "property": "C05",
   "status": "proved",
   "theorems": [
    "Segpy.Props.C05_monotone",
    "Segpy.Props.C05_odd"
   ],
   "note": ""
  },
  {
   "property": "C06",
   "status": "partial",
   "theorems": [
    "Segpy.Props.C06_total",
    "Segpy.Props.C06_complete_partial",
    "Segpy.Props.C06_eq_iff_partial",
    "Segpy.Props.C06_not_sound",
    "Segpy.Props.C06_not_complete",
    "Segpy.Props.C06_not_transitive",
    "Segpy.Props.C06_refl_symm"
   ],
   "note": "The full claim is false: C06_not_sound, C06_not_complete and C06_not_transitive exhibit counterexamples. C06_eq_iff_partial proves it outside the two defective cases (zeros of different sign; two magnitudes below the normal range with different exponents)."
  },
  {
   "property": "C07",
   "status": "proved",
   "theorems": [
    "Segpy.Props.C07_order",
    "Segpy.Props.C07_order_float",
    "Segpy.Props.C07_order_special",
    "Segpy.Props.C07_bool"
   ],
   "note": ""
  },
  {
   "property": "C08",
   "status": "proved",
   "theorems": [
    "Segpy.Props.C08_normalize",
    "Segpy.Props.C08_try_normalize"
   ],
   "note": ""
  },
  {
   "property": "C09",
   "status": "partial",
   "theorems": [
    "Segpy.Props.C09_trunc",
    "Segpy.Props.C09_ceil_floor_partial",
    "Segpy.Props.C09_ceil_floor_wrong_on_integers"
   ],
   "note": "trunc/int proved in full. ceil/floor are wrong on exact integers (C09_ceil_floor_wrong_on_integers); proved for all non-integers."
  },
  {
   "property": "C10",
   "status": "proved",
   "theorems": [
    "Segpy.Props.C10_neg_abs",
    "Segpy.Props.C10_neg_neg"
   ],
   "note": ""
  },
  {
   "property": "C11",
   "status": "proved",
   "theorems": [
    "Segpy.Props.C11_frexp",
    "Segpy.Props.C11_ldexp_frexp",
    "Segpy.Props.C11_ldexp_rejects"
   ],
   "note": ""
  },
  {
   "property": "C12",
   "status": "proved",
   "theorems": [
    "Segpy.Props.C12_ratio",
    "Segpy.Props.C12_eq_float",
    "Segpy.Props.C12_eq_rational"
   ],
   "note": ""
  },
  {
   "property": "C13",
   "status": "proved",
   "theorems": [
    "Segpy.Props.C13_mul",
    "Segpy.Props.C13_add",
    "Segpy.Props.C13_sub",
    "Segpy.Props.C13_add_exact",
    "Segpy.Props.C13_div",
    "Segpy.Props.C13_div_error",
    "Segpy.Props.C13_comm",
    "Segpy.Props.C13_cancel",
    "Segpy.Props.C13_add_zero",
    "Segpy.Props.C13_floordiv"
   ],
   "note": ""
  },
  {
   "property": "C14",
   "status": "proved",
   "theorems": [
    "Segpy.Props.C14_reverse",
    "Segpy.Props.C14_involution"
   ],
   "note": ""
  },
  {
   "property": "C15",
   "status": "proved",
   "theorems": [
    "Segpy.Props.C15_list",
    "Segpy.Props.C15_iterator",
    "Segpy.Props.C15_iterator_none_fails",
    "Segpy.Props.C15_range"
   ],
   "note": ""
  },
  {
   "property": "C16",
   "status": "partial",
   "theorems": [
    "Segpy.Props.C16_empty_raises",
    "Segpy.Props.C16_nonempty_partial"
   ],
   "note": "The claim is false under Python >= 3.7 (C16_empty_raises proves that every one of these functions raises RuntimeError on an empty sequence). C16_nonempty_partial proves that no non-empty input raises."
  },
  {
   "property": "C17",
   "status": "proved",
   "theorems": [
    "Segpy.Props.C17_batched",
    "Segpy.Props.C17_padded",
    "Segpy.Props.C17_rejects"
   ],
   "note": ""
  },
  {
   "property": "C18",
   "status": "proved",
   "theorems": [
    "Segpy.Props.C18_tile",
    "Segpy.Props.C18_interleave",
    "Segpy.Props.C18_rejects"
   ],
   "note": ""
  },
  {
   "property": "C19",
   "status": "proved",
   "theorems": [
    "Segpy.Props.C19_construct",
    "Segpy.Props.C19_len",
    "Segpy.Props.C19_contains",
    "Segpy.Props.C19_index",
    "Segpy.Props.C19_count",
    "Segpy.Props.C19_eq",
    "Segpy.Props.C19_operators",
    "Segpy.Props.C19_comparisons",
    "Segpy.Props.C19_mul"
   ],
   "note": ""
  },
  {
   "property": "C20",
   "status": "partial",
   "theorems": [
    "Segpy.Props.C20_len_get",
    "Segpy.Props.C20_contains_count",
    "Segpy.Props.C20_iter",
    "Segpy.Props.C20_nested_iter_fails",
    "Segpy.Props.C20_index"
   ],
   "note": "Proved for views of lists (the only use in the package). A view of a view cannot be iterated (C20_nested_iter_fails), so the claim for arbitrary nesting is false for iteration; indexing, length and membership are proved for every nesting."
  },
  {
   "property": "C21",
   "status": "proved",
   "theorems": [
    "Segpy.Props.C21_refines",
    "Segpy.Props.C21_iteration"
   ],
   "note": ""
  },
  {
   "property": "C22",
   "status": "proved",
   "theorems": [
    "Segpy.Props.C22_refines",
    "Segpy.Props.C22_corners"
   ],
   "note": ""
  },
  {
   "property": "C23",
   "status": "proved",
   "theorems": [
    "Segpy.Props.C23_duplicates_int",
    "Segpy.Props.C23_duplicates_pair",
    "Segpy.Props.C23_empty_raises"
   ],
   "note": ""
  },
  {
   "property": "C24",
   "status": "proved",
   "theorems": [
    "Segpy.Props.C24_order_int",
    "Segpy.Props.C24_order_pair"
   ],
   "note": ""
  },
  {
   "property": "C25",
   "status": "proved",
   "theorems": [
    "Segpy.Props.C25_key_last",
    "Segpy.Props.C25_key_first"
   ],
   "note": ""
  },
  {
   "property": "C26",
   "status": "partial",
   "theorems": [
    "Segpy.Props.C26_compatible",
    "Segpy.Props.C26_accepts_iff",
    "Segpy.Props.C26_errors",
    "Segpy.Props.C26_within_partial",
    "Segpy.Props.C26_before_start_accepted"
   ],
   "note": "Acceptance is characterised in full (C26_accepts_iff, C26_errors). 'All within the stated length' holds at the upper end (C26_within_partial) and is false at the lower: a field before START_OFFSET_IN_BYTES is accepted and misplaced (C26_before_start_accepted)."
  },
  {
   "property": "C27",
   "status": "proved",
   "theorems": [
    "Segpy.Props.C27_layout",
    "Segpy.Props.C27_pack_iff",
    "Segpy.Props.C27_wrong_class"
   ],
   "note": "For formats none of whose fields begins before the start (see C26_before_start_accepted for the others)."
  },
  {
   "property": "C28",
   "status": "partial",
   "theorems": [
    "Segpy.Props.C28_round_trip_partial",
    "Segpy.Props.C28_out_of_order_fails"
   ],
   "note": "Proved for formats declared in offset order and for all formats with coincident fields; false for other formats declared out of order (C28_out_of_order_fails)."
  },
  {
   "property": "C29",
   "status": "proved",
   "theorems": [
    "Segpy.Props.C29_unpack",
    "Segpy.Props.C29_repack"
   ],
   "note": ""
  },
  {
   "property": "C30",
   "status": "partial",
   "theorems": [
    "Segpy.Props.C30_sub_format_partial",
    "Segpy.Props.C30_sub_unpack_partial",
    "Segpy.Props.C30_undeclared_length_fails",
    "Segpy.Props.C30_overridden_length_fails"
   ],
   "note": "Proved when the format declares its length and no class overrides the layout attributes of its superclass; otherwise the sub-format expects another buffer length (C30_undeclared_length_fails, C30_overridden_length_fails)."
  },
  {
   "property": "C31",
   "status": "proved",
   "theorems": [
    "Segpy.Props.C31_admissible",
    "Segpy.Props.C31_failed_assignment",
    "Segpy.Props.C31_assignment",
    "Segpy.Props.C31_isolation",
    "Segpy.Props.C31_refines_make",
    "Segpy.Props.C31_refines_copy",
    "Segpy.Props.C31_int_types",
    "Segpy.Props.C31_enum_types"
   ],
   "note": ""
  },
  {
   "property": "C32",
   "status": "partial",
   "theorems": [
    "Segpy.Props.C32_copy",
    "Segpy.Props.C32_raises_partial",
    "Segpy.Props.C32_other_names_fail",
    "Segpy.Props.C32_original_untouched"
   ],
   "note": "TypeError is raised only for names that are no attributes at all (C32_raises_partial): the names of methods and layout constants such as copy or LENGTH_IN_BYTES are accepted and change no field (C32_other_names_fail). The other parts are proved in full."
  },
  {
   "property": "C33",
   "status": "partial",
   "theorems": [
    "Segpy.Props.C33_pickle_partial",
    "Segpy.Props.C33_pickle_single_class_partial",
    "Segpy.Props.C33_derived_format_fails"
   ],
   "note": "False for derived formats such as TraceHeaderRev1 (C33_derived_format_fails). Proved exactly which fields survive (C33_pickle_partial), hence full equality for single-class formats."
  },
  {
   "property": "C34",
   "status": "proved",
   "theorems": [
    "Segpy.Props.C34_shipped_formats",
    "Segpy.Props.C34_shipped_storable",
    "Segpy.Props.C34_enum_types",
    "Segpy.Props.C34_fields_made"
   ],
   "note": ""
  },
  {
   "property": "C35",
   "status": "proved",
   "theorems": [
    "Segpy.Props.C35_encode_iff",
    "Segpy.Props.C35_decode_encode",
    "Segpy.Props.C35_encode_decode",
    "Segpy.Props.C35_ebcdic_total",
    "Segpy.Props.C35_ascii_iff"
   ],
   "note": ""
  },
  {
   "property": "C36",
   "status": "proved",
   "theorems": [
    "Segpy.Props.C36_write",
    "Segpy.Props.C36_unsupported",
    "Segpy.Props.C36_short",
    "Segpy.Props.C36_read_ebcdic"
   ],
   "note": ""
  },
  {
   "property": "C37",
   "status": "proved",
   "theorems": [
    "Segpy.Props.C37_guess",
    "Segpy.Props.C37_supported",
    "Segpy.Props.C37_recognises"
   ],
   "note": ""
  },
  {
   "property": "C38",
   "status": "partial",
   "theorems": [
    "Segpy.Props.C38_pages",
    "Segpy.Props.C38_stop_page",
    "Segpy.Props.C38_splitlines",
    "Segpy.Props.C38_blank_lines_lost",
    "Segpy.Props.C38_text_kept_partial",
    "Segpy.Props.C38_writable",
    "Segpy.Props.C38_unsupported"
   ],
   "note": "Page shape, stop page, wrapping and acceptance are proved in full. 'Loses no text' is false for blank lines (C38_blank_lines_lost: the formatter drops empty lines); C38_text_kept_partial proves that every non-empty line is kept, in order, wrapped at 78."
  },
  {
   "property": "C39",
   "status": "proved",
   "theorems": [
    "Segpy.Props.C39_round_trip",
    "Segpy.Props.C39_until_end_terminates",
    "Segpy.Props.C39_premature_stop"
   ],
   "note": "C39_premature_stop shows what happens with count -1 when an earlier page starts with the stop stanza."
  },
  {
   "property": "C40",
   "status": "proved",
   "theorems": [
    "Segpy.Props.C40_all_or_nothing",
    "Segpy.Props.C40_unsupported"
   ],
   "note": ""
  },
  {
   "property": "C41",
   "status": "proved",
   "theorems": [
    "Segpy.Props.C41_format",
    "Segpy.Props.C41_unknown_field",
    "Segpy.Props.C41_unknown_revision",
    "Segpy.Props.C41_parse",
    "Segpy.Props.C41_parse_rejects",
    "Segpy.Props.C41_round_trip",
    "Segpy.Props.C41_every_field_has_a_placeholder"
   ],
   "note": ""
  },
  {
   "property": "C42",
   "status": "proved",
   "theorems": [
    "Segpy.Props.C42_int_accepts",
    "Segpy.Props.C42_int_error",
    "Segpy.Props.C42_int_round_trip",
    "Segpy.Props.C42_int_unpack",
    "Segpy.Props.C42_unpack_rejects",
    "Segpy.Props.C42_format_codes",
    "Segpy.Props.C42_float32_accepts",
    "Segpy.Props.C42_float32_round_trip",
    "Segpy.Props.C42_float32_converts",
    "Segpy.Props.C42_float32_huge",
    "Segpy.Props.C42_float32_exact",
    "Segpy.Props.C42_float32_decodes",
    "Segpy.Props.C42_ibm_accepts",
    "Segpy.Props.C42_ibm_round_trip",
    "Segpy.Props.C42_ibm_exact",
    "Segpy.Props.C42_stored",
    "Segpy.Props.C42_read_back",
    "Segpy.Props.C42_write_read",
    "Segpy.Props.C42_read_short"
   ],
   "note": ""
  },
  {
   "property": "C43",
   "status": "partial",
   "theorems": [
    "Segpy.Props.C43_rev1_cataloguable",
    "Segpy.Props.C43_tiles",
    "Segpy.Props.C43_indexes",
    "Segpy.Props.C43_traces",
    "Segpy.Props.C43_bad_header",
    "Segpy.Props.C43_no_traces",
    "Segpy.Props.C43_terminates",
    "Segpy.Props.C43_may_not_terminate"
   ],
   "note": "Proved for every trace header format in which the number of samples cannot be negative (Cataloguable; C43_rev1_cataloguable shows that TraceHeaderRev1 is one): C43_indexes, C43_tiles, C43_bad_header, C43_no_traces, C43_traces, C43_terminates. For a custom format with a signed number of samples the loop need not end: C43_may_not_terminate."
  },
  {
   "property": "C44",
   "status": "partial",
   "theorems": [
    "Segpy.Props.C44_exceeds_one",
    "Segpy.Props.C44_reading_partial"
   ],
   "note": "The claim is false of every successful run: C44_exceeds_one (values 9/8 and 21/16 are reported before the final 1). C44_reading_partial proves it for the values reported while the file is read, if the last trace is complete."
  },
  {
   "property": "C45",
   "status": "proved",
   "theorems": [
    "Segpy.Props.C45_subrange",
    "Segpy.Props.C45_invalid",
    "Segpy.Props.C45_reads"
   ],
   "note": "C45_subrange, C45_invalid and C45_reads; the numbers read are those the bytes stand for, whichever the native byte order."
  },
  {
   "property": "C46",
   "status": "proved",
   "theorems": [
    "Segpy.Props.C46_history"
   ],
   "note": ""
  },
  {
   "property": "C47",
   "status": "proved",
   "theorems": [
    "Segpy.Props.C47_round_trip"
   ],
   "note": "Consistent (Spec/Writer.lean) spells out the datasets meant: encodable text, valid headers in regular formats (no overlapping fields; the shipped ones are: exampleConsistent), honest page and sample counts, samples that fit, at least one trace. A sample is read back as what its format can represent of it (StoredAs), exactly for integers."
  },
  {
   "property": "C48",
   "status": "proved",
   "theorems": [
    "Segpy.Props.C48_prefix",
    "Segpy.Props.C48_encoding_refused",
    "Segpy.Props.C48_dataset_raises"
   ],
   "note": "A crash at byte k is modelled as a device that takes k bytes and then raises OSError. C48_dataset_raises covers a dataset that raises, or holds a sample that does not fit, in the middle; C48_encoding_refused that nothing is written with an unsupported encoding."
  },
  {
   "property": "C49",
   "status": "proved",
   "theorems": [
    "Segpy.Props.C49_finds"
   ],
   "note": "C49_finds also covers readers whose dimensionality was forced although numbers are duplicated: they find nothing, and list_numbers raise RuntimeError."
  },
  {
   "property": "C50",
   "status": "proved",
   "theorems": [
    "Segpy.Props.C50_dimensionality",
    "Segpy.Props.C50_forced",
    "Segpy.Props.C50_refused"
   ],
   "note": ""
  },
  {
   "property": "C51",
   "status": "partial",
   "theorems": [
    "Segpy.Props.C51_opens_partial",
    "Segpy.Props.C51_no_empty_reader"
   ],
   "note": "False: C51_no_empty_reader proves that every opened reader has at least one trace, and C51_opens_partial that a readable file without traces raises RuntimeError. What C51_opens_partial keeps is that every file with readable headers, a known revision and at least one trace opens and is described by the reader."
  },
  {
   "property": "C52",
   "status": "partial",
   "theorems": [
    "Segpy.Props.C52_disabled",
    "Segpy.Props.C52_transparent_partial",
    "Segpy.Props.C52_one_file_partial",
    "Segpy.Props.C52_anonymous",
    "Segpy.Props.C52_data_files",
    "Segpy.Props.C52_dimensionality_fails",
    "Segpy.Props.C52_derived_header_fails",
    "Segpy.Props.C52_copied_file_fails",
    "Segpy.Props.C52_directory_fails",
    "Segpy.Props.C52_forced_fails"
   ],
   "note": "Proved for every history: outcome and answers with the cache are those without it, for binary headers declared in one class, calls not sharing a cache file with a different dimensionality or another still existing file of changed contents, and no collision of the hash function. False in general; the failing cases are C52_*_fails. C52_data_files says that no opening changes a data file, at any point of any history."
  },
  {
   "property": "C53",
   "status": "proved",
   "theorems": [
    "Segpy.Props.C53_unusable",
    "Segpy.Props.C53_removed",
    "Segpy.Props.C53_repaired",
    "Segpy.Props.C53_not_a_reader"
   ],
   "note": "Any cache file that raises when loaded is as good as none, is removed and is replaced. A pickle is modelled by what loading it yields; a pickle of something else raises TypeError as documented."
  },
  {
   "property": "C54",
   "status": "partial",
   "theorems": [
    "Segpy.Props.C54_read_header_partial",
    "Segpy.Props.C54_zeros_reported_as_truncated"
   ],
   "note": "A complete header with an inadmissible field also raises EOFError (C54_zeros_reported_as_truncated). C54_read_header_partial characterises exactly when a header is returned and when EOFError is raised."
  },
  {
   "property": "C55",
   "status": "partial",
   "theorems": [
    "Segpy.Props.C55_canonical_partial",
    "Segpy.Props.C55_variants_refused"
   ],
   "note": "False for the variants 1 and 100: C55_variants_refused proves that create_reader raises ValueError for every revision number but 0 and 256 with the package's binary header format. C55_canonical_partial proves that the canonical revision is reported whenever a file opens, with any binary header format."
  },
  {
   "property": "C56",
   "status": "partial",
   "theorems": [
    "Segpy.Props.C56_feed",
    "Segpy.Props.C56_position",
    "Segpy.Props.C56_block_size",
    "Segpy.Props.C56_contents_partial",
    "Segpy.Props.C56_create_reader",
    "Segpy.Props.C56_arguments_fail",
    "Segpy.Props.C56_contents_fail"
   ],
   "note": "Feed characterised exactly; contents determined for fixed arguments, and contents and arguments for the calls create_reader makes. False for arbitrary argument lists (C56_arguments_fail, C56_contents_fail)."
  },
  {
   "property": "C57",
   "status": "proved",
   "theorems": [
    "Segpy.Props.C57_overlap",
    "Segpy.Props.C57_overlap_symm",
    "Segpy.Props.C57_stride",
    "Segpy.Props.C57_round_up",
    "Segpy.Props.C57_minmax",
    "Segpy.Props.C57_duplicates",
    "Segpy.Props.C57_duplicates_unsorted",
    "Segpy.Props.C57_is_sorted",
    "Segpy.Props.C57_is_sorted_key_ignored",
    "Segpy.Props.C57_contiguous",
    "Segpy.Props.C57_cmp_sgn",
    "Segpy.Props.C57_all_equal",
    "Segpy.Props.C57_first_last",
    "Segpy.Props.C57_roundrobin"
   ],
   "note": "intervals_partially_overlap is stated for non-empty intervals. C57_is_sorted_key_ignored and C57_duplicates_unsorted delimit is_sorted (range shortcut ignores key) and contains_duplicates (adjacent only)."
  },
  {
   "property": "C58",
   "status": "partial",
   "theorems": [
    "Segpy.Props.C58_range_partial",
    "Segpy.Props.C58_single_element_fails",
    "Segpy.Props.C58_empty_fails",
    "Segpy.Props.C58_ensure_list_partial",
    "Segpy.Props.C58_single_number_fails",
    "Segpy.Props.C58_none_fails",
    "Segpy.Props.C58_ensure_range_partial",
    "Segpy.Props.C58_ensure_slice",
    "Segpy.Props.C58_negative_step_differs"
   ],
   "note": "Ascending ranges: exact characterisation of is_range_superset_of_range and of ensure_superset for lists, ranges and slices. The English property is false of the code: a range of one number is refused unless its step suits (C58_single_element_fails, C58_single_number_fails), empty ranges are never contained or raise IndexError (C58_empty_fails), selecting nothing raises RuntimeError (C58_none_fails)."
  },
  {
   "property": "C59",
   "status": "partial",
   "theorems": [
    "Segpy.Props.C59_iff",
    "Segpy.Props.C59_square_partial",
    "Segpy.Props.C59_not_square_fails",
    "Segpy.Props.C59_no_instance_fails",
    "Segpy.Props.C59_incomplete_fails"
   ],
   "note": "C59_iff: the mapping is a bijection exactly if the array is square or empty, so the property is false of the code for all other shapes (C59_not_square_fails); besides, ArrayDataset3d cannot be instantiated (C59_no_instance_fails)."
  },
  {
   "property": "C60",
   "status": "partial",
   "theorems": [
    "Segpy.Props.C60_rev0_fails"
   ],
   "note": "False for TraceHeaderRev0: C60_rev0_fails proves that no file can be catalogued with it. The TraceHeaderRev1 half is C43_rev1_cataloguable with C43_indexes."
  },
  {
   "property": "C61",
   "status": "proved",
   "theorems": [
    "Segpy.Props.C61_describes",
    "Segpy.Props.C61_trace_header",
    "Segpy.Props.C61_trace_header_refused",
    "Segpy.Props.C61_unique"
   ],
   "note": ""
  },
  {
   "property": "C62",
   "status": "proved",
   "theorems": [
    "Segpy.Props.C62_read_binary"
   ],
   "note": ""
  },
  {
   "property": "C63",
   "status": "partial",
   "theorems": [
    "Segpy.Props.C63_above_one_fails",
    "Segpy.Props.C63_progress_partial"
   ],
   "note": "C63_progress_partial: for datasets that number their traces from zero. The full property is false of the code: the progress reported is the trace number divided by the number of traces, which exceeds 1 for a dataset of selected traces (C63_above_one_fails)."
  },
  {
   "property": "C64",
   "status": "partial",
   "theorems": [
    "Segpy.Props.C64_inline_partial",
    "Segpy.Props.C64_xline_partial",
    "Segpy.Props.C64_timeslice_partial",
    "Segpy.Props.C64_ibm_exact",
    "Segpy.Props.C64_short_trace_fails",
    "Segpy.Props.C64_reversed_slice_fails"
   ],
   "note": "Proved for traces that have all the samples asked for and selections that are not refused by mistake (C58). The full property is false of the code: too short traces raise ValueError or have their only sample repeated (C64_short_trace_fails), slices that go backwards are refused (C64_reversed_slice_fails)."
  },
  {
   "property": "C65",
   "status": "partial",
   "theorems": [
    "Segpy.Props.C65_trace_headers_partial",
    "Segpy.Props.C65_field_3d_partial",
    "Segpy.Props.C65_order_fails",
    "Segpy.Props.C65_unsigned_fails",
    "Segpy.Props.C65_none_fails"
   ],
   "note": "Proved for one or more distinct fields of signed type given in the order of their offsets. Otherwise the property is false of the code: fields in another order get each other's values (C65_order_fails), unsigned fields and no fields are refused (C65_unsigned_fails, C65_none_fails)."
  },
  {
   "property": "C66",
   "status": "partial",
   "theorems": [
    "Segpy.Props.C66_plain_fails",
    "Segpy.Props.C66_3d_fails",
    "Segpy.Props.C66_2d_partial",
    "Segpy.Props.C66_2d_index_fails"
   ],
   "note": "False of the code: extract_trace always raises on plain and 3D readers (C66_plain_fails, C66_3d_fails), and on 2D readers it takes the trace index for a CDP number as well (C66_2d_index_fails). Proved where the number is both (C66_2d_partial)."
  },
  {
   "property": "C67",
   "status": "proved",
   "theorems": [
    "Segpy.Props.C67_copy",
    "Segpy.Props.C67_copy_default",
    "Segpy.Props.C67_unassigned_lost"
   ],
   "note": "Bytes of headers that belong to no field are not copied (C67_unassigned_lost); the property does not ask for that."
  },
  {
   "property": "C68",
   "status": "proved",
   "theorems": [
    "Segpy.Props.C68_convert",
    "Segpy.Props.C68_float32_overflow",
    "Segpy.Props.C68_not_ibm",
    "Segpy.Props.C68_unknown_format"
   ],
   "note": "Model of the example script with its limits; the conversion of binary32 is to the nearest even number. C68_float32_overflow, C68_not_ibm and C68_unknown_format are the cases that raise."
  },
  {
   "property": "C69",
   "status": "partial",
   "theorems": [
    "Segpy.Props.C69_scale",
    "Segpy.Props.C69_raises",
    "Segpy.Props.C69_by_one_partial",
    "Segpy.Props.C69_by_one_changes"
   ],
   "note": "Scaling and the exceptions are proved in full (C69_scale, C69_raises). That scaling by one changes nothing is proved for integers, IBM floats and binary32 numbers up to 3.402823e38 (C69_by_one_partial); it is false of the code for the greatest binary32 numbers and for NaNs, which become that limit (C69_by_one_changes)."
  },
  {
   "property": "C70",
   "status": "proved",
   "theorems": [
    "Segpy.Props.C70_scale",
    "Segpy.Props.C70_raises"
   ],
   "note": "With the default formats, as in the script. C70_scale characterises success, C70_raises the exceptions."
  },
  {
   "property": "C71",
   "status": "proved",
   "theorems": [
    "Segpy.Props.C71_reel_headers",
    "Segpy.Props.C71_sample_format"
   ],
   "note": "C71_sample_format relates the sample format to the code in the binary header."
  },
  {
   "property": "C72",
   "status": "proved",
   "theorems": [
    "Segpy.Props.C72_metadata",
    "Segpy.Props.C72_report"
   ],
   "note": "A print is modelled as the value printed, without its label; opening is without a cache, which makes no difference by C52 as far as that holds."
  },
  {
   "property": "C73",
   "status": "proved",
   "theorems": [
    "Segpy.Props.C73_timeslice"
   ],
   "note": "The default element type; the null value is given as an element of the array. A survey that is not three-dimensional is refused with KeyError instead of the intended DimensionalityError, because formatting its message fails."
  },
  {
   "property": "C74",
   "status": "proved",
   "theorems": [
    "Segpy.Props.C74_trace_positions"
   ],
   "note": ""
  },
  {
   "property": "C75",
   "status": "partial",
   "theorems": [
    "Segpy.Props.C75_custom_trace_header",
    "Segpy.Props.C75_headers_copied",
    "Segpy.Props.C75_check_equal_partial",
    "Segpy.Props.C75_custom_binary_header",
    "Segpy.Props.C75_uint16_accepts",
    "Segpy.Props.C75_uint16_opens",
    "Segpy.Props.C75_uint16_reads",
    "Segpy.Props.C75_standard_refuses",
    "Segpy.Props.C75_custom_report",
    "Segpy.Props.C75_nan_fails"
   ],
   "note": "Everything but two clauses. Two bytes of the custom trace header remain unassigned, because TraceHeaderRev1 has only four of the six bytes of the source energy direction (C75_custom_trace_header), so that they are not copied; and the comparison of samples fails for files that contain NaN (C75_nan_fails)."
  },
  {
   "property": "C76",
   "status": "partial",
   "theorems": [
    "Segpy.Props.C76_add",
    "Segpy.Props.C76_comm",
    "Segpy.Props.C76_sub",
    "Segpy.Props.C76_mul",
    "Segpy.Props.C76_truediv",
    "Segpy.Props.C76_rtruediv_partial",
    "Segpy.Props.C76_float_by_ibm",
    "Segpy.Props.C76_rtruediv_fails",
    "Segpy.Props.C76_int",
    "Segpy.Props.C76_special",
    "Segpy.Props.C76_sum",
    "Segpy.Props.C76_sum_exact"
   ],
   "note": "All operations but one for all operands. A float divided by an IBMFloat gives an IBMFloat, less precise and out of range sooner (C76_float_by_ibm, C76_rtruediv_fails); only for ints is it the float nearest to the quotient (C76_rtruediv_partial). Powers are not modelled."
  },
  {
   "property": "C77",
   "status": "partial",
   "theorems": [
    "Segpy.Props.C77_compare_partial",
    "Segpy.Props.C77_small_ints",
    "Segpy.Props.C77_compare_fails"
   ],
   "note": "Proved unless the value of x is the double nearest to n without being n, or n is too large for a float (C77_compare_partial); false of the code in those cases (C77_compare_fails). Holds for all ints of at most 53 bits (C77_small_ints)."
  },
  {
   "property": "C78",
   "status": "proved",
   "theorems": [
    "Segpy.Props.C78_round",
    "Segpy.Props.C78_round_digits",
    "Segpy.Props.C78_round_zero_digits"
   ],
   "note": "round(x) is an IBMFloat, not an int as for floats."
  },
  {
   "property": "C79",
   "status": "partial",
   "theorems": [
    "Segpy.Props.C79_mod",
    "Segpy.Props.C79_mod_ibm",
    "Segpy.Props.C79_mod_exact",
    "Segpy.Props.C79_mod_range",
    "Segpy.Props.C79_mod_equals_divisor",
    "Segpy.Props.C79_floordiv_partial",
    "Segpy.Props.C79_divmod_partial",
    "Segpy.Props.C79_floordiv_fails"
   ],
   "note": "Remainders in full; they can equal the divisor after rounding (C79_mod_equals_divisor). Floor division for quotients below 2 ** 28 and numbers of IBM precision; it is false for greater quotients (C79_floordiv_fails)."
  },
  {
   "property": "C80",
   "status": "proved",
   "theorems": [
    "Segpy.Props.C80_every_trace",
    "Segpy.Props.C80_read_traces"
   ],
   "note": ""
  },
  {
   "property": "C81",
   "status": "proved",
   "theorems": [
    "Segpy.Props.C81_reading",
    "Segpy.Props.C81_reopening"
   ],
   "note": ""
  },
  {
   "property": "C82",
   "status": "proved",
   "theorems": [
    "Segpy.Props.C82_split_samples",
    "Segpy.Props.C82_split_header",
    "Segpy.Props.C82_own_files",
    "Segpy.Props.C82_shared_calls",
    "Segpy.Props.C82_shared_file_fails"
   ],
   "note": ""
  },
  {
   "property": "C83",
   "status": "proved",
   "theorems": [
    "Segpy.Props.C83_fields",
    "Segpy.Props.C83_outcomes",
    "Segpy.Props.C83_new_header",
    "Segpy.Props.C83_no_leaks",
    "Segpy.Props.C83_forget"
   ],
   "note": ""
  },
  {
   "property": "C84",
   "status": "partial",
   "theorems": [
    "Segpy.Props.C84_alone",
    "Segpy.Props.C84_results_partial",
    "Segpy.Props.C84_race_fails",
    "Segpy.Props.C84_complete_cache",
    "Segpy.Props.C84_finishes",
    "Segpy.Props.C84_cache_left"
   ],
   "note": "Processes may also get FileNotFoundError (C84_race_fails): a process removes a cache file it cannot load while another is between checking that it exists and opening it. Everything else is proved."
  },
  {
   "property": "C85",
   "status": "proved",
   "theorems": [
    "Segpy.Props.C85_updates",
    "Segpy.Props.C85_refused",
    "Segpy.Props.C85_crash"
   ],
   "note": "The file is opened at position 0. C85_crash is about samples; a torn header may hold inadmissible values."
  },
  {
   "property": "C86",
   "status": "proved",
   "theorems": [
    "Segpy.Props.C86_text",
    "Segpy.Props.C86_text_crash",
    "Segpy.Props.C86_binary",
    "Segpy.Props.C86_kept"
   ],
   "note": "C86_text: replacing the text. C86_text_crash: the device fails after k bytes. C86_binary: replacing the binary header; sample format and number of extended headers must stay the same and the revision must be a known one (all fields of the format are compared). C86_kept: whatever comes of it, for any text, header and device, a reader that is open finds the traces as they were. The encoding with which the file is opened again must be the one in which the text was written, or be guessed to be (usedEncoding)."
  },
  {
   "property": "C87",
   "status": "partial",
   "theorems": [
    "Segpy.Props.C87_inline_partial",
    "Segpy.Props.C87_masked_fails",
    "Segpy.Props.C87_short_fails"
   ],
   "note": "C87_inline_partial describes the program with a null value on every file, except when a trace of the inline has a single sample and the longest trace more. The full property is false of the code: without a null value nothing is ever saved, because numpy does not write masked arrays to files (C87_masked_fails); short traces are not padded: a single sample is repeated, and other short traces make the program fail (C87_short_fails)."
  },
  {
   "property": "C88",
   "status": "partial",
   "theorems": [
    "Segpy.Props.C88_field_partial",
    "Segpy.Props.C88_null_fails",
    "Segpy.Props.C88_unsaved_fails"
   ],
   "note": "C88_field_partial: the function extract_header_field without a null value, for a field of a signed type with admissible values (see C65). The full property is false of the code: the null value is passed in the place of the inline numbers, so that it always makes the program fail (C88_null_fails), and the output file is never written (C88_unsaved_fails)."
  },
  {
   "property": "C89",
   "status": "proved",
   "theorems": [
    "Segpy.Props.C89_appends",
    "Segpy.Props.C89_crash"
   ],
   "note": "The file is opened at position 0. A file with bytes after its last trace is outside the claim: the new traces are not found there (example in Props/Append.lean)."
  },
  {
   "property": "C90",
   "status": "proved",
   "theorems": [
    "Segpy.Props.C90_select"
   ],
   "note": "The file is opened at position 0."
  },
  {
   "property": "C91",
   "status": "proved",
   "theorems": [
    "Segpy.Props.C91_slice",
    "Segpy.Props.C91_slice_between",
    "Segpy.Props.C91_slice_backwards",
    "Segpy.Props.C91_methods",
    "Segpy.Props.C91_construct_mul",
    "Segpy.Props.C91_reversed"
   ],
   "note": "Items of any linearly ordered type; an argument is any list of items or a set made by the constructor."
  },
  {
   "property": "C92",
   "status": "proved",
   "theorems": [
    "Segpy.Props.C92_equal_lengths",
    "Segpy.Props.C92_sizes"
   ],
   "note": "For header formats with 240 byte trace headers that files can be catalogued by; whether the last trace is complete is a hypothesis of the count only."
  },
  {
   "property": "C93",
   "status": "partial",
   "theorems": [
    "Segpy.Props.C93_decimal_partial",
    "Segpy.Props.C93_known",
    "Segpy.Props.C93_decimal_fails"
   ],
   "note": "True of revision numbers whose second byte is less than ten, in particular of the two known ones. False otherwise, proved: 0x0110 becomes 2.6, and 0x010A and 0x0200 both become 2.0."
  },
  {
   "property": "C94",
   "status": "partial",
   "theorems": [
    "Segpy.Props.C94_loadsave_usage",
    "Segpy.Props.C94_loadsave_partial",
    "Segpy.Props.C94_convert_usage",
    "Segpy.Props.C94_convert_partial",
    "Segpy.Props.C94_scale_usage",
    "Segpy.Props.C94_scale_samples_partial",
    "Segpy.Props.C94_scale_coordinates_partial",
    "Segpy.Props.C94_status_partial",
    "Segpy.Props.C94_timed_reader",
    "Segpy.Props.C94_same_file_fails"
   ],
   "note": "True if the names of the input and of the output do not lead to the same file; then the status is 0 exactly if all of the input can be read and transformed (C94_loadsave_partial, C94_status_partial). False otherwise, proved (C94_same_file_fails): opening the output empties the file before it is read, whatever was in it; only convert_sample_type.py compares the names, and not the files. That work is done on two file objects even if both names lead to the same file is a simplification that makes no difference, as nothing is written then."
  },
  {
   "property": "C95",
   "status": "proved",
   "theorems": [
    "Segpy.Props.C95_history_int",
    "Segpy.Props.C95_history_pair",
    "Segpy.Props.C95_mapping",
    "Segpy.Props.C95_items_sorted",
    "Segpy.Props.C95_equal",
    "Segpy.Props.C95_rebuild",
    "Segpy.Props.C95_init"
   ],
   "note": "create() of a builder without entries raises RuntimeError (C16, C23_empty_raises), which C95 states as well. Keys and values are integers or, for keys, pairs of integers. The mixin methods are those of collections.abc.Mapping in CPython's Lib/_collections_abc.py."
  },
  {
   "property": "C96",
   "status": "proved",
   "theorems": [
    "Segpy.Props.C96_bytes",
    "Segpy.Props.C96_identical",
    "Segpy.Props.C96_again"
   ],
   "note": "Sequel to C67 and C75, which speak of what readers show. Which bytes a NaN is stored as is not modelled (the payload of a NaN is not part of a value), so C96_bytes says only that such samples stay NaNs; C96_identical and C96_again ask that no sample be one."
  },
  {
   "property": "C97",
   "status": "proved",
   "theorems": [
    "Segpy.Props.C97_opens",
    "Segpy.Props.C97_raises",
    "Segpy.Props.C97_default_format"
   ],
   "note": "C97_opens is an equivalence; C97_raises says what is raised otherwise. The file is read from its beginning, and caching is disabled (for caches see C52 and C53). Encodings other than ASCII and EBCDIC (cp037) are not modelled."
  },
  {
   "property": "C98",
   "status": "proved",
   "theorems": [
    "Segpy.Props.C98_byte_order",
    "Segpy.Props.C98_default"
   ],
   "note": "For any file and any two calls with different byte orders; that the second call ends as well is C97_raises. If the sample format had one byte, as a customised format may declare, nothing would distinguish the byte orders."
  },
  {
   "property": "C99",
   "status": "proved",
   "theorems": [
    "Segpy.Props.C99_unique",
    "Segpy.Props.C99_report",
    "Segpy.Props.C99_custom_format",
    "Segpy.Props.C99_custom_header",
    "Segpy.Props.C99_trace_positions",
    "Segpy.Props.C99_timeslice"
   ],
   "note": "C99_unique: the description of a file is determined by its bytes. argparse (trace_positions.py, timeslice.py) is not modelled, nor the option --dtype; np.save is any function from arrays to bytes, and printing and writing are assumed to succeed."
  },
  {
   "property": "C100",
   "status": "partial",
   "theorems": [
    "Segpy.Props.C100_constructs_partial",
    "Segpy.Props.C100_four_fails",
    "Segpy.Props.C100_pickle_fails",
    "Segpy.Props.C100_dumped_fails",
    "Segpy.Props.C100_samples_partial"
   ],
   "note": "False: IBMFloat(4) is the number 0, because bytes(4) is four zero bytes (C100_four_fails), and no IBMFloat can be unpickled or copied, because __new__ requires an argument that pickle and copy do not pass (C100_pickle_fails). C100_constructs_partial characterises what is accepted; C100_samples_partial says that the samples can be pickled exactly if the sample format is not IBM or there are none. pickle and copy are modelled as object.__reduce_ex__ specifies."
  },
  {
   "property": "C101",
   "status": "partial",
   "theorems": [
    "Segpy.Props.C101_label_fails",
    "Segpy.Props.C101_same_outcome",
    "Segpy.Props.C101_written_at",
    "Segpy.Props.C101_written_over",
    "Segpy.Props.C101_written_partial",
    "Segpy.Props.C101_leftover_fails",
    "Segpy.Props.C101_leftover_read",
    "Segpy.Props.C101_leftover_read_fails",
    "Segpy.Props.C101_appended_fails",
    "Segpy.Props.C101_cached",
    "Segpy.Props.C101_read_at"
   ],
   "note": "False: the first 3600 bytes are written at the position of the file, everything else at byte 3600 (C101_written_at, C101_appended_fails); the old end of a longer file stays (C101_leftover_fails) and may be read as further traces (C101_leftover_read, C101_leftover_read_fails); reading after a label finds other traces (C101_label_fails, C101_read_at), and with caching the position is ignored (C101_cached). C101_written_partial: from the beginning of a file that is not longer than what is written the result is that for an empty file. The binary reel header is assumed to take 400 bytes."
  },
  {
   "property": "C102",
   "status": "proved",
   "theorems": [
    "Segpy.Props.C102_read",
    "Segpy.Props.C102_first_raise",
    "Segpy.Props.C102_cancelled_not_cached",
    "Segpy.Props.C102_cancelled_history",
    "Segpy.Props.C102_last_report",
    "Segpy.Props.C102_write_same",
    "Segpy.Props.C102_write"
   ],
   "note": "C102_read compares create_reader with and without a callback that may raise and move the position of the file; C102_first_raise says what raising first means; C102_cancelled_not_cached is about the cache, and C102_cancelled_history carries what is proved of all cache histories over to those in which calls are stopped; C102_last_report: without an exception before the last report the files end up as without the callback; C102_write_same holds for every dataset and file, C102_write for consistent datasets written to a new file. A callback is a function of the reports made so far; callbacks that write to the file, or move its position while it is written, are not covered."
  },
  {
   "property": "C103",
   "status": "proved",
   "theorems": [
    "Segpy.Props.C103_repr",
    "Segpy.Props.C103_repr_identifies",
    "Segpy.Props.C103_str"
   ],
   "note": "Text is a list of characters. What Python prints for a float is a parameter; C103_str assumes of it only that different numbers are printed differently. Subclasses of IBMFloat, whose name would be printed instead, are not modelled."
  },
  {
   "property": "C104",
   "status": "partial",
   "theorems": [
    "Segpy.Props.C104_read_partial",
    "Segpy.Props.C104_written_partial",
    "Segpy.Props.C104_accepts_partial",
    "Segpy.Props.C104_reader_partial",
    "Segpy.Props.C104_energy_direction_fails",
    "Segpy.Props.C104_refused_fails"
   ],
   "note": "The tables in Spec/Standard.lean are those of the standard, written independently of the code. Two parts are false of the code: of the six bytes of source_energy_direction only four are read or written (C104_energy_direction_fails), and some headers that the standard allows are refused, those with sample format 4 and with negative numbers in entries that segpy takes for non-negative, like the datum elevation at the receiver group (C104_refused_fails). C104_accepts_partial says exactly which are accepted. For the rest C104_read_partial, C104_written_partial and C104_reader_partial are complete. TraceHeaderRev0 cannot be used to open files (C60)."
  },
  {
   "property": "C105",
   "status": "proved",
   "theorems": [
    "Segpy.Props.C105_zero",
    "Segpy.Props.C105_base_zero",
    "Segpy.Props.C105_integer",
    "Segpy.Props.C105_exact",
    "Segpy.Props.C105_positive",
    "Segpy.Props.C105_float",
    "Segpy.Props.C105_complex",
    "Segpy.Props.C105_kind"
   ],
   "note": "CPython's case analysis of pow on floats is modelled; C's pow (for positive bases) and the complex power (for negative bases and fractional exponents) are parameters. C105_integer, C105_exact and C105_float assume of C's pow with integral exponents that it is off by less than one unit in the last place (AccuratePow, which a library that rounds correctly is shown to meet); nothing is assumed of the complex power, and nothing is claimed about the accuracy of fractional exponents. The three-argument pow, which __pow__ does not take, is not modelled."
  }
 ]
}