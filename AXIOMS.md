# Axioms the theorems depend on

Generated by `tools/axioms.py` from `#print axioms`.

## propext, Classical.choice, Quot.sound (375 theorems)

* `Segpy.Props.C01_decode_exact`
* `Segpy.Props.C02_roundtrip_value`
* `Segpy.Props.C02_roundtrip_bits`
* `Segpy.Props.C03_truncates`
* `Segpy.Props.C03_relative_error`
* `Segpy.Props.C04_outcomes`
* `Segpy.Props.C04_without_underflow`
* `Segpy.Props.C05_monotone`
* `Segpy.Props.C05_odd`
* `Segpy.Props.C06_total`
* `Segpy.Props.C06_complete_partial`
* `Segpy.Props.C06_eq_iff_partial`
* `Segpy.Props.C06_not_sound`
* `Segpy.Props.C06_not_complete`
* `Segpy.Props.C06_refl_symm`
* `Segpy.Props.C07_order`
* `Segpy.Props.C07_order_float`
* `Segpy.Props.C07_order_special`
* `Segpy.Props.C07_bool`
* `Segpy.Props.C08_normalize`
* `Segpy.Props.C08_try_normalize`
* `Segpy.Props.C09_trunc`
* `Segpy.Props.C09_ceil_floor_partial`
* `Segpy.Props.C09_ceil_floor_wrong_on_integers`
* `Segpy.Props.C10_neg_abs`
* `Segpy.Props.C10_neg_neg`
* `Segpy.Props.C11_frexp`
* `Segpy.Props.C11_ldexp_frexp`
* `Segpy.Props.C11_ldexp_rejects`
* `Segpy.Props.C12_ratio`
* `Segpy.Props.C12_eq_float`
* `Segpy.Props.C12_eq_rational`
* `Segpy.Props.C13_mul`
* `Segpy.Props.C13_add`
* `Segpy.Props.C13_sub`
* `Segpy.Props.C13_add_exact`
* `Segpy.Props.C13_div`
* `Segpy.Props.C13_div_error`
* `Segpy.Props.C13_comm`
* `Segpy.Props.C13_cancel`
* `Segpy.Props.C13_add_zero`
* `Segpy.Props.C13_floordiv`
* `Segpy.Props.C14_reverse`
* `Segpy.Props.C14_involution`
* `Segpy.Props.C15_list`
* `Segpy.Props.C15_iterator`
* `Segpy.Props.C15_range`
* `Segpy.Props.C17_batched`
* `Segpy.Props.C17_padded`
* `Segpy.Props.C18_tile`
* `Segpy.Props.C19_construct`
* `Segpy.Props.C19_len`
* `Segpy.Props.C19_contains`
* `Segpy.Props.C19_index`
* `Segpy.Props.C19_count`
* `Segpy.Props.C19_eq`
* `Segpy.Props.C19_operators`
* `Segpy.Props.C19_comparisons`
* `Segpy.Props.C20_len_get`
* `Segpy.Props.C20_index`
* `Segpy.Props.C21_refines`
* `Segpy.Props.C21_iteration`
* `Segpy.Props.C22_refines`
* `Segpy.Props.C23_duplicates_int`
* `Segpy.Props.C23_duplicates_pair`
* `Segpy.Props.C23_empty_raises`
* `Segpy.Props.C24_order_int`
* `Segpy.Props.C24_order_pair`
* `Segpy.Props.C25_key_last`
* `Segpy.Props.C25_key_first`
* `Segpy.Props.C26_compatible`
* `Segpy.Props.C26_accepts_iff`
* `Segpy.Props.C26_errors`
* `Segpy.Props.C26_within_partial`
* `Segpy.Props.C27_layout`
* `Segpy.Props.C27_pack_iff`
* `Segpy.Props.C28_round_trip_partial`
* `Segpy.Props.C29_unpack`
* `Segpy.Props.C29_repack`
* `Segpy.Props.C30_sub_format_partial`
* `Segpy.Props.C30_sub_unpack_partial`
* `Segpy.Props.C31_enum_types`
* `Segpy.Props.C32_raises_partial`
* `Segpy.Props.C34_shipped_storable`
* `Segpy.Props.C35_ascii_iff`
* `Segpy.Props.C36_write`
* `Segpy.Props.C37_guess`
* `Segpy.Props.C37_supported`
* `Segpy.Props.C37_recognises`
* `Segpy.Props.C38_pages`
* `Segpy.Props.C38_stop_page`
* `Segpy.Props.C38_blank_lines_lost`
* `Segpy.Props.C38_text_kept_partial`
* `Segpy.Props.C38_writable`
* `Segpy.Props.C38_unsupported`
* `Segpy.Props.C39_round_trip`
* `Segpy.Props.C39_until_end_terminates`
* `Segpy.Props.C39_premature_stop`
* `Segpy.Props.C40_all_or_nothing`
* `Segpy.Props.C41_format`
* `Segpy.Props.C41_unknown_field`
* `Segpy.Props.C41_unknown_revision`
* `Segpy.Props.C41_parse`
* `Segpy.Props.C41_parse_rejects`
* `Segpy.Props.C41_round_trip`
* `Segpy.Props.C41_every_field_has_a_placeholder`
* `Segpy.Props.C42_int_accepts`
* `Segpy.Props.C42_int_error`
* `Segpy.Props.C42_int_round_trip`
* `Segpy.Props.C42_int_unpack`
* `Segpy.Props.C42_unpack_rejects`
* `Segpy.Props.C42_float32_accepts`
* `Segpy.Props.C42_float32_round_trip`
* `Segpy.Props.C42_float32_converts`
* `Segpy.Props.C42_float32_huge`
* `Segpy.Props.C42_float32_exact`
* `Segpy.Props.C42_float32_decodes`
* `Segpy.Props.C42_ibm_accepts`
* `Segpy.Props.C42_ibm_round_trip`
* `Segpy.Props.C42_ibm_exact`
* `Segpy.Props.C42_stored`
* `Segpy.Props.C42_read_back`
* `Segpy.Props.C42_write_read`
* `Segpy.Props.C42_read_short`
* `Segpy.Props.C43_tiles`
* `Segpy.Props.C43_indexes`
* `Segpy.Props.C43_traces`
* `Segpy.Props.C43_bad_header`
* `Segpy.Props.C43_no_traces`
* `Segpy.Props.C43_terminates`
* `Segpy.Props.C43_may_not_terminate`
* `Segpy.Props.C44_exceeds_one`
* `Segpy.Props.C44_reading_partial`
* `Segpy.Props.C45_subrange`
* `Segpy.Props.C45_invalid`
* `Segpy.Props.C45_reads`
* `Segpy.Props.C46_history`
* `Segpy.Props.C47_round_trip`
* `Segpy.Props.C48_prefix`
* `Segpy.Props.C48_encoding_refused`
* `Segpy.Props.C48_dataset_raises`
* `Segpy.Props.C49_finds`
* `Segpy.Props.C50_dimensionality`
* `Segpy.Props.C50_forced`
* `Segpy.Props.C50_refused`
* `Segpy.Props.C51_opens_partial`
* `Segpy.Props.C51_no_empty_reader`
* `Segpy.Props.C52_disabled`
* `Segpy.Props.C52_transparent_partial`
* `Segpy.Props.C52_one_file_partial`
* `Segpy.Props.C52_anonymous`
* `Segpy.Props.C52_data_files`
* `Segpy.Props.C52_dimensionality_fails`
* `Segpy.Props.C52_derived_header_fails`
* `Segpy.Props.C52_copied_file_fails`
* `Segpy.Props.C52_directory_fails`
* `Segpy.Props.C52_forced_fails`
* `Segpy.Props.C53_unusable`
* `Segpy.Props.C53_removed`
* `Segpy.Props.C53_repaired`
* `Segpy.Props.C53_not_a_reader`
* `Segpy.Props.C54_read_header_partial`
* `Segpy.Props.C54_zeros_reported_as_truncated`
* `Segpy.Props.C55_canonical_partial`
* `Segpy.Props.C55_variants_refused`
* `Segpy.Props.C56_feed`
* `Segpy.Props.C56_position`
* `Segpy.Props.C56_contents_partial`
* `Segpy.Props.C56_create_reader`
* `Segpy.Props.C56_arguments_fail`
* `Segpy.Props.C56_contents_fail`
* `Segpy.Props.C57_stride`
* `Segpy.Props.C57_round_up`
* `Segpy.Props.C57_duplicates`
* `Segpy.Props.C57_is_sorted`
* `Segpy.Props.C57_first_last`
* `Segpy.Props.C57_roundrobin`
* `Segpy.Props.C58_range_partial`
* `Segpy.Props.C58_empty_fails`
* `Segpy.Props.C58_ensure_list_partial`
* `Segpy.Props.C58_single_number_fails`
* `Segpy.Props.C58_ensure_range_partial`
* `Segpy.Props.C58_ensure_slice`
* `Segpy.Props.C59_iff`
* `Segpy.Props.C59_square_partial`
* `Segpy.Props.C59_incomplete_fails`
* `Segpy.Props.C60_rev0_fails`
* `Segpy.Props.C61_describes`
* `Segpy.Props.C61_trace_header`
* `Segpy.Props.C61_trace_header_refused`
* `Segpy.Props.C61_unique`
* `Segpy.Props.C62_read_binary`
* `Segpy.Props.C63_above_one_fails`
* `Segpy.Props.C63_progress_partial`
* `Segpy.Props.C64_inline_partial`
* `Segpy.Props.C64_xline_partial`
* `Segpy.Props.C64_timeslice_partial`
* `Segpy.Props.C64_ibm_exact`
* `Segpy.Props.C64_short_trace_fails`
* `Segpy.Props.C64_reversed_slice_fails`
* `Segpy.Props.C65_trace_headers_partial`
* `Segpy.Props.C65_field_3d_partial`
* `Segpy.Props.C65_order_fails`
* `Segpy.Props.C65_unsigned_fails`
* `Segpy.Props.C65_none_fails`
* `Segpy.Props.C66_plain_fails`
* `Segpy.Props.C66_3d_fails`
* `Segpy.Props.C66_2d_partial`
* `Segpy.Props.C66_2d_index_fails`
* `Segpy.Props.C67_copy`
* `Segpy.Props.C67_copy_default`
* `Segpy.Props.C67_unassigned_lost`
* `Segpy.Props.C68_convert`
* `Segpy.Props.C68_float32_overflow`
* `Segpy.Props.C68_not_ibm`
* `Segpy.Props.C68_unknown_format`
* `Segpy.Props.C69_scale`
* `Segpy.Props.C69_raises`
* `Segpy.Props.C69_by_one_partial`
* `Segpy.Props.C69_by_one_changes`
* `Segpy.Props.C70_scale`
* `Segpy.Props.C70_raises`
* `Segpy.Props.C71_reel_headers`
* `Segpy.Props.C71_sample_format`
* `Segpy.Props.C72_metadata`
* `Segpy.Props.C72_report`
* `Segpy.Props.C73_timeslice`
* `Segpy.Props.C74_trace_positions`
* `Segpy.Props.C75_custom_trace_header`
* `Segpy.Props.C75_headers_copied`
* `Segpy.Props.C75_check_equal_partial`
* `Segpy.Props.C75_custom_binary_header`
* `Segpy.Props.C75_uint16_accepts`
* `Segpy.Props.C75_uint16_opens`
* `Segpy.Props.C75_uint16_reads`
* `Segpy.Props.C75_standard_refuses`
* `Segpy.Props.C75_custom_report`
* `Segpy.Props.C75_nan_fails`
* `Segpy.Props.C76_add`
* `Segpy.Props.C76_comm`
* `Segpy.Props.C76_sub`
* `Segpy.Props.C76_mul`
* `Segpy.Props.C76_truediv`
* `Segpy.Props.C76_rtruediv_partial`
* `Segpy.Props.C76_float_by_ibm`
* `Segpy.Props.C76_rtruediv_fails`
* `Segpy.Props.C76_int`
* `Segpy.Props.C76_special`
* `Segpy.Props.C76_sum`
* `Segpy.Props.C76_sum_exact`
* `Segpy.Props.C77_compare_partial`
* `Segpy.Props.C77_small_ints`
* `Segpy.Props.C77_compare_fails`
* `Segpy.Props.C78_round`
* `Segpy.Props.C78_round_digits`
* `Segpy.Props.C78_round_zero_digits`
* `Segpy.Props.C79_mod`
* `Segpy.Props.C79_mod_ibm`
* `Segpy.Props.C79_mod_exact`
* `Segpy.Props.C79_mod_range`
* `Segpy.Props.C79_mod_equals_divisor`
* `Segpy.Props.C79_floordiv_partial`
* `Segpy.Props.C79_divmod_partial`
* `Segpy.Props.C79_floordiv_fails`
* `Segpy.Props.C80_every_trace`
* `Segpy.Props.C80_read_traces`
* `Segpy.Props.C81_reading`
* `Segpy.Props.C81_reopening`
* `Segpy.Props.C82_split_samples`
* `Segpy.Props.C82_split_header`
* `Segpy.Props.C82_own_files`
* `Segpy.Props.C82_shared_calls`
* `Segpy.Props.C82_shared_file_fails`
* `Segpy.Props.C83_fields`
* `Segpy.Props.C83_outcomes`
* `Segpy.Props.C83_new_header`
* `Segpy.Props.C83_no_leaks`
* `Segpy.Props.C83_forget`
* `Segpy.Props.C84_alone`
* `Segpy.Props.C84_results_partial`
* `Segpy.Props.C84_race_fails`
* `Segpy.Props.C84_complete_cache`
* `Segpy.Props.C84_finishes`
* `Segpy.Props.C84_cache_left`
* `Segpy.Props.C85_updates`
* `Segpy.Props.C85_refused`
* `Segpy.Props.C85_crash`
* `Segpy.Props.C86_text`
* `Segpy.Props.C86_text_crash`
* `Segpy.Props.C86_binary`
* `Segpy.Props.C86_kept`
* `Segpy.Props.C87_inline_partial`
* `Segpy.Props.C87_masked_fails`
* `Segpy.Props.C87_short_fails`
* `Segpy.Props.C88_field_partial`
* `Segpy.Props.C88_null_fails`
* `Segpy.Props.C88_unsaved_fails`
* `Segpy.Props.C89_appends`
* `Segpy.Props.C89_crash`
* `Segpy.Props.C90_select`
* `Segpy.Props.C91_slice`
* `Segpy.Props.C91_slice_between`
* `Segpy.Props.C91_slice_backwards`
* `Segpy.Props.C91_methods`
* `Segpy.Props.C91_construct_mul`
* `Segpy.Props.C92_equal_lengths`
* `Segpy.Props.C93_decimal_partial`
* `Segpy.Props.C93_known`
* `Segpy.Props.C93_decimal_fails`
* `Segpy.Props.C94_loadsave_usage`
* `Segpy.Props.C94_loadsave_partial`
* `Segpy.Props.C94_convert_usage`
* `Segpy.Props.C94_convert_partial`
* `Segpy.Props.C94_scale_usage`
* `Segpy.Props.C94_scale_samples_partial`
* `Segpy.Props.C94_scale_coordinates_partial`
* `Segpy.Props.C94_status_partial`
* `Segpy.Props.C94_timed_reader`
* `Segpy.Props.C94_same_file_fails`
* `Segpy.Props.C95_history_int`
* `Segpy.Props.C95_history_pair`
* `Segpy.Props.C95_mapping`
* `Segpy.Props.C95_items_sorted`
* `Segpy.Props.C95_equal`
* `Segpy.Props.C95_rebuild`
* `Segpy.Props.C96_bytes`
* `Segpy.Props.C96_identical`
* `Segpy.Props.C96_again`
* `Segpy.Props.C97_opens`
* `Segpy.Props.C97_raises`
* `Segpy.Props.C97_default_format`
* `Segpy.Props.C98_byte_order`
* `Segpy.Props.C98_default`
* `Segpy.Props.C99_unique`
* `Segpy.Props.C99_report`
* `Segpy.Props.C99_custom_header`
* `Segpy.Props.C99_trace_positions`
* `Segpy.Props.C99_timeslice`
* `Segpy.Props.C100_four_fails`
* `Segpy.Props.C100_samples_partial`
* `Segpy.Props.C101_label_fails`
* `Segpy.Props.C101_same_outcome`
* `Segpy.Props.C101_written_at`
* `Segpy.Props.C101_written_over`
* `Segpy.Props.C101_written_partial`
* `Segpy.Props.C101_leftover_fails`
* `Segpy.Props.C101_leftover_read`
* `Segpy.Props.C101_leftover_read_fails`
* `Segpy.Props.C101_appended_fails`
* `Segpy.Props.C101_cached`
* `Segpy.Props.C101_read_at`
* `Segpy.Props.C102_read`
* `Segpy.Props.C102_first_raise`
* `Segpy.Props.C102_cancelled_not_cached`
* `Segpy.Props.C102_cancelled_history`
* `Segpy.Props.C102_last_report`
* `Segpy.Props.C102_write_same`
* `Segpy.Props.C102_write`
* `Segpy.Props.C103_repr`
* `Segpy.Props.C103_repr_identifies`
* `Segpy.Props.C103_str`
* `Segpy.Props.C104_read_partial`
* `Segpy.Props.C104_written_partial`
* `Segpy.Props.C104_accepts_partial`
* `Segpy.Props.C104_reader_partial`
* `Segpy.Props.C104_energy_direction_fails`
* `Segpy.Props.C104_refused_fails`
* `Segpy.Props.C105_zero`
* `Segpy.Props.C105_base_zero`
* `Segpy.Props.C105_integer`
* `Segpy.Props.C105_exact`
* `Segpy.Props.C105_positive`
* `Segpy.Props.C105_float`
* `Segpy.Props.C105_complex`
* `Segpy.Props.C105_kind`

## propext, Quot.sound (46 theorems)

* `Segpy.Props.C15_iterator_none_fails`
* `Segpy.Props.C16_empty_raises`
* `Segpy.Props.C18_interleave`
* `Segpy.Props.C22_corners`
* `Segpy.Props.C26_before_start_accepted`
* `Segpy.Props.C27_wrong_class`
* `Segpy.Props.C28_out_of_order_fails`
* `Segpy.Props.C30_undeclared_length_fails`
* `Segpy.Props.C30_overridden_length_fails`
* `Segpy.Props.C31_admissible`
* `Segpy.Props.C31_failed_assignment`
* `Segpy.Props.C31_assignment`
* `Segpy.Props.C31_isolation`
* `Segpy.Props.C31_refines_make`
* `Segpy.Props.C31_refines_copy`
* `Segpy.Props.C31_int_types`
* `Segpy.Props.C32_copy`
* `Segpy.Props.C32_other_names_fail`
* `Segpy.Props.C32_original_untouched`
* `Segpy.Props.C33_pickle_partial`
* `Segpy.Props.C33_pickle_single_class_partial`
* `Segpy.Props.C33_derived_format_fails`
* `Segpy.Props.C34_shipped_formats`
* `Segpy.Props.C34_fields_made`
* `Segpy.Props.C35_encode_iff`
* `Segpy.Props.C35_decode_encode`
* `Segpy.Props.C35_encode_decode`
* `Segpy.Props.C35_ebcdic_total`
* `Segpy.Props.C36_short`
* `Segpy.Props.C36_read_ebcdic`
* `Segpy.Props.C38_splitlines`
* `Segpy.Props.C43_rev1_cataloguable`
* `Segpy.Props.C56_block_size`
* `Segpy.Props.C57_overlap`
* `Segpy.Props.C57_minmax`
* `Segpy.Props.C57_contiguous`
* `Segpy.Props.C57_cmp_sgn`
* `Segpy.Props.C57_all_equal`
* `Segpy.Props.C58_single_element_fails`
* `Segpy.Props.C58_none_fails`
* `Segpy.Props.C58_negative_step_differs`
* `Segpy.Props.C59_not_square_fails`
* `Segpy.Props.C91_reversed`
* `Segpy.Props.C95_init`
* `Segpy.Props.C100_constructs_partial`
* `Segpy.Props.C100_dumped_fails`

## propext (14 theorems)

* `Segpy.Props.C01_wrong_length`
* `Segpy.Props.C06_not_transitive`
* `Segpy.Props.C16_nonempty_partial`
* `Segpy.Props.C18_rejects`
* `Segpy.Props.C19_mul`
* `Segpy.Props.C20_contains_count`
* `Segpy.Props.C36_unsupported`
* `Segpy.Props.C40_unsupported`
* `Segpy.Props.C42_format_codes`
* `Segpy.Props.C57_overlap_symm`
* `Segpy.Props.C57_is_sorted_key_ignored`
* `Segpy.Props.C59_no_instance_fails`
* `Segpy.Props.C92_sizes`
* `Segpy.Props.C100_pickle_fails`

## none (6 theorems)

* `Segpy.Props.C17_rejects`
* `Segpy.Props.C20_iter`
* `Segpy.Props.C20_nested_iter_fails`
* `Segpy.Props.C34_enum_types`
* `Segpy.Props.C57_duplicates_unsorted`
* `Segpy.Props.C99_custom_format`
