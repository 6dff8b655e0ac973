import Verif.Spec.Packer

/-!
# The headers of the SEG Y standard

The tables of the binary file header and of the trace header in *SEG Y rev 1, Data Exchange format* (SEG Technical Standards
Committee, May 2002), with the names that segpy gives to the entries; those of the trace header up to byte 180 are already
in the standard of 1975.  All entries are two's complement integers.  Bytes are numbered as in the standard: from 3201 in
the binary header and from 1 in a trace header.
-/

namespace Segpy.Spec

/-- The entries of the binary file header: name, first and last byte. -/
def standardBinaryHeader : List (String × Nat × Nat) := [
    ("job_id_num", 3201, 3204),
    ("line_num", 3205, 3208),
    ("reel_num", 3209, 3212),
    ("data_traces_per_ensemble", 3213, 3214),
    ("auxiliary_traces_per_ensemble", 3215, 3216),
    ("sample_interval", 3217, 3218),
    ("original_field_sample_interval", 3219, 3220),
    ("num_samples", 3221, 3222),
    ("original_field_num_samples", 3223, 3224),
    ("data_sample_format", 3225, 3226),
    ("ensemble_fold", 3227, 3228),
    ("trace_sorting", 3229, 3230),
    ("vertical_sum_code", 3231, 3232),
    ("sweep_frequency_at_start", 3233, 3234),
    ("sweep_frequency_at_end", 3235, 3236),
    ("sweep_length", 3237, 3238),
    ("sweep_type", 3239, 3240),
    ("sweep_trace_number", 3241, 3242),
    ("sweep_trace_taper_length_at_start", 3243, 3244),
    ("sweep_trace_taper_length_at_end", 3245, 3246),
    ("taper_type", 3247, 3248),
    ("correlated_data_traces", 3249, 3250),
    ("binary_gain_recovered", 3251, 3252),
    ("amplitude_recovery_method", 3253, 3254),
    ("measurement_system", 3255, 3256),
    ("impulse_signal_polarity", 3257, 3258),
    ("vibratory_polarity_code", 3259, 3260),
    ("format_revision_num", 3501, 3502),
    ("fixed_length_trace_flag", 3503, 3504),
    ("num_extended_textual_headers", 3505, 3506)]

/-- The entries of the trace header in the standard of 1975. -/
def standardTraceHeader0 : List (String × Nat × Nat) := [
    ("line_sequence_num", 1, 4),
    ("file_sequence_num", 5, 8),
    ("field_record_num", 9, 12),
    ("trace_num", 13, 16),
    ("energy_source_point_num", 17, 20),
    ("ensemble_num", 21, 24),
    ("ensemble_trace_num", 25, 28),
    ("trace_identification_code", 29, 30),
    ("num_vertically_summed_traces", 31, 32),
    ("num_horizontally_stacked_traces", 33, 34),
    ("data_use", 35, 36),
    ("doc_nreceiver_offset", 37, 40),
    ("receiver_group_elevation", 41, 44),
    ("surface_elevation_at_source", 45, 48),
    ("source_depth_below_surface", 49, 52),
    ("datum_elevation_at_receiver_group", 53, 56),
    ("datum_elevation_at_source", 57, 60),
    ("water_depth_at_source", 61, 64),
    ("water_depth_at_group", 65, 68),
    ("elevation_scalar", 69, 70),
    ("xy_scalar", 71, 72),
    ("source_x", 73, 76),
    ("source_y", 77, 80),
    ("group_x", 81, 84),
    ("group_y", 85, 88),
    ("coordinate_units", 89, 90),
    ("weathering_velocity", 91, 92),
    ("subweathering_velocity", 93, 94),
    ("uphole_time_at_source", 95, 96),
    ("uphole_time_at_group", 97, 98),
    ("source_static_correction", 99, 100),
    ("group_static_correction", 101, 102),
    ("total_static", 103, 104),
    ("lag_time_a", 105, 106),
    ("lag_time_b", 107, 108),
    ("delay_recording_time", 109, 110),
    ("mute_start_time", 111, 112),
    ("mute_end_time", 113, 114),
    ("num_samples", 115, 116),
    ("sample_interval", 117, 118),
    ("gain_type_of_field_instruments", 119, 120),
    ("instrument_gain_constant", 121, 122),
    ("instrument_initial_gain", 123, 124),
    ("correlated", 125, 126),
    ("sweep_frequency_at_start", 127, 128),
    ("sweep_frequency_at_end", 129, 130),
    ("sweep_length", 131, 132),
    ("sweep_type", 133, 134),
    ("sweep_trace_taper_length_at_start", 135, 136),
    ("sweep_trace_taper_length_at_end", 137, 138),
    ("taper_type", 139, 140),
    ("alias_filter_frequency", 141, 142),
    ("alias_filter_slope", 143, 144),
    ("notch_filter_frequency", 145, 146),
    ("notch_filter_slope", 147, 148),
    ("low_cut_frequency", 149, 150),
    ("high_cut_frequency", 151, 152),
    ("low_cut_slope", 153, 154),
    ("high_cut_slope", 155, 156),
    ("year_recorded", 157, 158),
    ("day_of_year", 159, 160),
    ("hour_of_day", 161, 162),
    ("minute_of_hour", 163, 164),
    ("second_of_minute", 165, 166),
    ("time_basis_code", 167, 168),
    ("trace_weighting_factor", 169, 170),
    ("geophone_group_num_roll_switch_position_one", 171, 172),
    ("geophone_group_num_first_trace_original_field", 173, 174),
    ("geophone_group_num_last_trace_original_field", 175, 176),
    ("gap_size", 177, 178),
    ("over_travel", 179, 180)]

/-- The entries of the trace header in revision 1. -/
def standardTraceHeader1 : List (String × Nat × Nat) := standardTraceHeader0 ++ [
    ("cdp_x", 181, 184),
    ("cdp_y", 185, 188),
    ("inline_number", 189, 192),
    ("crossline_number", 193, 196),
    ("shotpoint_number", 197, 200),
    ("shotpoint_scalar", 201, 202),
    ("trace_unit", 203, 204),
    ("transduction_constant_mantissa", 205, 208),
    ("transduction_constant_exponent", 209, 210),
    ("transduction_units", 211, 212),
    ("device_trace_identifier", 213, 214),
    ("time_scalar", 215, 216),
    ("source_type", 217, 218),
    ("source_energy_direction", 219, 224),
    ("source_measurement_mantissa", 225, 228),
    ("source_measurement_exponent", 229, 230),
    ("source_measurement_unit", 231, 232)]

/-- The bytes from `first` to `last`, both included, of a header the first byte of which has number `start`. -/
def numberedBytes (start : Nat) (header : Bytes) (first last : Nat) : Bytes :=
  (header.drop (first - start)).take (last + 1 - first)

/-- The integer that bytes are the two's complement form of. -/
def twosComplement (e : Endian) (bs : Bytes) : Int :=
  if 2 * bytesNat e bs < 2 ^ (8 * bs.length) then (bytesNat e bs : Int) else bytesNat e bs - 2 ^ (8 * bs.length)

/-- A header of the standard, with what segpy accepts in it. -/
structure HeaderTable where
  /-- the number of the first byte -/
  start : Nat
  length : Nat
  entries : List (String × Nat × Nat)
  /-- the entries of two bytes that hold a code, the number of their first byte, and the codes that the standard defines -/
  codes : List (String × Nat × List Int)
  /-- other entries of two bytes that have a least and a greatest value, and the number of their first byte -/
  bounds : List (String × Nat × Int × Int)
  /-- the entries that segpy does not accept negative numbers in -/
  nonnegative : List String

/-- The number in the bytes from `first` to `last` of a header. -/
def HeaderTable.number (H : HeaderTable) (e : Endian) (header : Bytes) (first last : Nat) : Int :=
  twosComplement e (numberedBytes H.start header first last)

/-- Scalars for elevations, coordinates and times. -/
def standardScalars : List Int := [1, 10, 100, 1000, 10000, -1, -10, -100, -1000, -10000]

def binaryTable : HeaderTable where
  start := 3201
  length := 400
  entries := standardBinaryHeader
  codes := [
    ("data_sample_format", 3225, [1, 2, 3, 4, 5, 8]),
    ("trace_sorting", 3229, [-1, 0, 1, 2, 3, 4, 5, 6, 7, 8, 9]),
    ("sweep_type", 3239, [1, 2, 3, 4]),
    ("taper_type", 3247, [1, 2, 3]),
    ("correlated_data_traces", 3249, [1, 2]),
    ("binary_gain_recovered", 3251, [1, 2]),
    ("amplitude_recovery_method", 3253, [1, 2, 3, 4]),
    ("measurement_system", 3255, [1, 2]),
    ("impulse_signal_polarity", 3257, [1, 2]),
    ("vibratory_polarity_code", 3259, [1, 2, 3, 4, 5, 6, 7, 8]),
    ("format_revision_num", 3501, [0, 0x0100]),
    ("fixed_length_trace_flag", 3503, [0, 1])]
  bounds := [("num_extended_textual_headers", 3505, -1, 32767)]
  nonnegative := ["line_num", "data_traces_per_ensemble", "auxiliary_traces_per_ensemble", "sample_interval",
    "original_field_sample_interval", "num_samples", "original_field_num_samples", "ensemble_fold", "vertical_sum_code",
    "sweep_frequency_at_start", "sweep_frequency_at_end", "sweep_length", "sweep_trace_taper_length_at_start",
    "sweep_trace_taper_length_at_end"]

def traceTable0 : HeaderTable where
  start := 1
  length := 240
  entries := standardTraceHeader0
  codes := [
    ("data_use", 35, [1, 2]),
    ("elevation_scalar", 69, standardScalars),
    ("xy_scalar", 71, standardScalars),
    ("coordinate_units", 89, [1, 2, 3, 4]),
    ("correlated", 125, [1, 2]),
    ("sweep_type", 133, [1, 2, 3, 4]),
    ("taper_type", 139, [1, 2, 3]),
    ("time_basis_code", 167, [1, 2, 3, 4]),
    ("over_travel", 179, [1, 2])]
  bounds := [
    ("day_of_year", 159, 0, 366),
    ("hour_of_day", 161, 0, 24),
    ("minute_of_hour", 163, 0, 60),
    ("second_of_minute", 165, 0, 60)]
  nonnegative := ["ensemble_trace_num", "num_vertically_summed_traces", "num_horizontally_stacked_traces",
    "source_depth_below_surface", "datum_elevation_at_receiver_group", "weathering_velocity", "subweathering_velocity",
    "uphole_time_at_source", "uphole_time_at_group", "mute_start_time", "mute_end_time", "num_samples",
    "gain_type_of_field_instruments", "sweep_frequency_at_start", "sweep_frequency_at_end", "sweep_length",
    "sweep_trace_taper_length_at_start", "sweep_trace_taper_length_at_end", "alias_filter_frequency",
    "notch_filter_frequency", "low_cut_frequency", "high_cut_frequency", "trace_weighting_factor", "gap_size"]

def traceTable1 : HeaderTable where
  start := 1
  length := 240
  entries := standardTraceHeader1
  codes := traceTable0.codes ++ [
    ("trace_unit", 203, [-1, 0, 1, 2, 3, 4, 5, 6, 7, 8, 9]),
    ("transduction_units", 211, [-1, 0, 1, 2, 3, 4, 5, 6, 7, 8, 9]),
    ("time_scalar", 215, standardScalars),
    ("source_measurement_unit", 231, [-1, 0, 1, 2, 3, 4, 5, 6])]
  bounds := traceTable0.bounds ++ [("source_type", 217, -32768, 9)]
  nonnegative := traceTable0.nonnegative

/-- The codes of an entry that segpy accepts: those of the standard except code 4, fixed point with gain, for samples; and
zero, for unknown, except where it would be the sample format, the use of the data or whether they are correlated. -/
def acceptedCodes (name : String) (codes : List Int) : List Int :=
  if name = "data_sample_format" then codes.filter (· ≠ 4)
  else if name = "data_use" ∨ name = "correlated" then codes
  else 0 :: codes

end Segpy.Spec
