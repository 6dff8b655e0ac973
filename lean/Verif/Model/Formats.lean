import Verif.Model.Header

/-!
# The shipped field types and header formats

Generated by `tools/extract_formats.py` from the text of datatypes.py, revisions.py, field_types.py,
binary_reel_header.py and trace_header.py.  Do not edit.  Documentation strings are left out.
-/

namespace Segpy

/-- The values of `DataSampleFormat`, datatypes.py:11-25: IBM = 1, INT32 = 2, INT16 = 3, FLOAT32 = 5, INT8 = 8. -/
def enumDataSampleFormat : List Int := [1, 2, 3, 5, 8]

/-- The values of `SegYRevision`, revisions.py:18-20: REVISION_0 = 0, REVISION_1 = 256. -/
def enumSegYRevision : List Int := [0, 256]

/-- The values of `TraceSorting`, binary_reel_header.py:15-39: OTHER = -1, UNKNOWN = 0, AS_RECORDED = 1, CDP_ENSEMBLE = 2, SINGLE_FOLD_CONTINUOUS_PROFILE = 3, HORIZONTALLY_STACKED = 4, COMMON_SOURCE_POINT = 5, COMMON_RECEIVER_POINT = 6, COMMON_OFFSET_POINT = 7, COMMON_MIDPOINT = 8, COMMON_CONVERSION_POINT = 9. -/
def enumTraceSorting : List Int := [-1, 0, 1, 2, 3, 4, 5, 6, 7, 8, 9]

/-- The values of `CorrelatedDataTraces`, binary_reel_header.py:47-54: UNKNOWN = 0, NO = 1, YES = 2. -/
def enumCorrelatedDataTraces : List Int := [0, 1, 2]

/-- The values of `BinaryGainRecovered`, binary_reel_header.py:62-69: UNKNOWN = 0, YES = 1, NO = 2. -/
def enumBinaryGainRecovered : List Int := [0, 1, 2]

/-- The values of `AmplitudeRecoveryMethod`, binary_reel_header.py:77-88: UNKNOWN = 0, NONE = 1, SPHERICAL_DIVERGENCE = 2, AGC = 3, OTHER = 4. -/
def enumAmplitudeRecoveryMethod : List Int := [0, 1, 2, 3, 4]

/-- The values of `MeasurementSystem`, binary_reel_header.py:96-105: UNKNOWN = 0, METERS = 1, FEET = 2. -/
def enumMeasurementSystem : List Int := [0, 1, 2]

/-- The values of `ImpulseSignalPolarity`, binary_reel_header.py:113-120: UNKNOWN = 0, INCREASE_GIVES_NEGATIVE_ON_TAPE = 1, INCREASE_GIVES_POSITIVE_ON_TAPE = 2. -/
def enumImpulseSignalPolarity : List Int := [0, 1, 2]

/-- The values of `VibratoryPolarityCode`, binary_reel_header.py:128-147: UNKNOWN = 0, FROM_337_5_TO_22_5 = 1, FROM_22_5_TO_67_5 = 2, FROM_67_5_TO_112_5 = 3, FROM_112_5_TO_157_5 = 4, FROM_157_5_TO_202_5 = 5, FROM_202_5_TO_247_5 = 6, FROM_247_5_TO_292_5 = 7, FROM_292_5_TO_337_5 = 8. -/
def enumVibratoryPolarityCode : List Int := [0, 1, 2, 3, 4, 5, 6, 7, 8]

/-- The values of `FixedLengthTraceFlag`, binary_reel_header.py:155-166: VARIABLE_LENGTH = 0, FIXED_LENGTH = 1. -/
def enumFixedLengthTraceFlag : List Int := [0, 1]

/-- The values of `DataUse`, trace_header.py:7-12: PRODUCTION = 1, TEST = 2. -/
def enumDataUse : List Int := [1, 2]

/-- The values of `ScalarFactor`, trace_header.py:20-39: UNKNOWN = 0, POS_1 = 1, POS_10 = 10, POS_100 = 100, POS_1000 = 1000, POS_10000 = 10000, NEG_1 = -1, NEG_10 = -10, NEG_100 = -100, NEG_1000 = -1000, NEG_10000 = -10000. -/
def enumScalarFactor : List Int := [0, 1, 10, 100, 1000, 10000, -1, -10, -100, -1000, -10000]

/-- The values of `CoordinateUnits`, trace_header.py:47-58: UNKNOWN = 0, LENGTH = 1, SECONDS_OF_ARC = 2, DECIMAL_DEGREES = 3, DMS = 4. -/
def enumCoordinateUnits : List Int := [0, 1, 2, 3, 4]

/-- The values of `Correlated`, trace_header.py:66-69: NO = 1, YES = 2. -/
def enumCorrelated : List Int := [1, 2]

/-- The values of `SweepType`, trace_header.py:77-88: UNKNOWN = 0, LINEAR = 1, PARABOLIC = 2, EXPONENTIAL = 3, OTHER = 4. -/
def enumSweepType : List Int := [0, 1, 2, 3, 4]

/-- The values of `TaperType`, trace_header.py:96-105: UNKNOWN = 0, LINEAR = 1, COS_SQUARED = 2, OTHER = 3. -/
def enumTaperType : List Int := [0, 1, 2, 3]

/-- The values of `TimeBasisCode`, trace_header.py:145-154: UNKNOWN = 0, LOCAL = 1, GMT = 2, OTHER = 3, UTC = 4. -/
def enumTimeBasisCode : List Int := [0, 1, 2, 3, 4]

/-- The values of `OverTravel`, trace_header.py:162-169: UNKNOWN = 0, DOWN = 1, UP = 2. -/
def enumOverTravel : List Int := [0, 1, 2]

/-- The values of `SampleUnit`, trace_header.py:177-200: OTHER = -1, UNKNOWN = 0, PASCAL = 1, VOLTS = 2, MILLIVOLTS = 3, AMPERES = 4, METERS = 5, METERS_PER_SECOND = 6, METERS_PER_SECOND_SQUARED = 7, NEWTON = 8, WATT = 9. -/
def enumSampleUnit : List Int := [-1, 0, 1, 2, 3, 4, 5, 6, 7, 8, 9]

/-- The values of `SourceMeasurementUnit`, trace_header.py:228-249: OTHER = -1, UNKNOWN = 0, JOULE = 1, KILOWATT = 2, PASCAL = 3, BAR = 4, BAR_METER = 4, NEWTON = 5, KILOGRAMS = 6. -/
def enumSourceMeasurementUnit : List Int := [-1, 0, 1, 2, 3, 4, 5, 6]

/-- `Int16`, field_types.py:48-52. -/
def vtInt16 : ValueType := .mkInt "Int16" .int16 none none

/-- `NNInt16`, field_types.py:55-59. -/
def vtNNInt16 : ValueType := .mkInt "NNInt16" .nnint16 none none

/-- `Int32`, field_types.py:62-66. -/
def vtInt32 : ValueType := .mkInt "Int32" .int32 none none

/-- `NNInt32`, field_types.py:69-73. -/
def vtNNInt32 : ValueType := .mkInt "NNInt32" .nnint32 none none

/-- `DataSampleFormatField`, binary_reel_header.py:10-12. -/
def vtDataSampleFormatField : ValueType := ⟨"DataSampleFormatField", .int16, IntType.int16.limitMin, IntType.int16.limitMax, some enumDataSampleFormat⟩

/-- `TraceSortingField`, binary_reel_header.py:42-44. -/
def vtTraceSortingField : ValueType := ⟨"TraceSortingField", .int16, IntType.int16.limitMin, IntType.int16.limitMax, some enumTraceSorting⟩

/-- `CorrelatedDataTracesField`, binary_reel_header.py:57-59. -/
def vtCorrelatedDataTracesField : ValueType := ⟨"CorrelatedDataTracesField", .int16, IntType.int16.limitMin, IntType.int16.limitMax, some enumCorrelatedDataTraces⟩

/-- `BinaryGainRecoveredField`, binary_reel_header.py:72-74. -/
def vtBinaryGainRecoveredField : ValueType := ⟨"BinaryGainRecoveredField", .int16, IntType.int16.limitMin, IntType.int16.limitMax, some enumBinaryGainRecovered⟩

/-- `AmplitudeRecoveryMethodField`, binary_reel_header.py:91-93. -/
def vtAmplitudeRecoveryMethodField : ValueType := ⟨"AmplitudeRecoveryMethodField", .int16, IntType.int16.limitMin, IntType.int16.limitMax, some enumAmplitudeRecoveryMethod⟩

/-- `MeasurementSystemField`, binary_reel_header.py:108-110. -/
def vtMeasurementSystemField : ValueType := ⟨"MeasurementSystemField", .int16, IntType.int16.limitMin, IntType.int16.limitMax, some enumMeasurementSystem⟩

/-- `ImpulseSignalPolarityField`, binary_reel_header.py:123-125. -/
def vtImpulseSignalPolarityField : ValueType := ⟨"ImpulseSignalPolarityField", .int16, IntType.int16.limitMin, IntType.int16.limitMax, some enumImpulseSignalPolarity⟩

/-- `VibratoryPolarityCodeField`, binary_reel_header.py:150-152. -/
def vtVibratoryPolarityCodeField : ValueType := ⟨"VibratoryPolarityCodeField", .int16, IntType.int16.limitMin, IntType.int16.limitMax, some enumVibratoryPolarityCode⟩

/-- `FixedLengthTraceFlagField`, binary_reel_header.py:169-171. -/
def vtFixedLengthTraceFlagField : ValueType := ⟨"FixedLengthTraceFlagField", .int16, IntType.int16.limitMin, IntType.int16.limitMax, some enumFixedLengthTraceFlag⟩

/-- `NumExtendedTextualHeadersField`, binary_reel_header.py:174-177. -/
def vtNumExtendedTextualHeadersField : ValueType := .mkInt "NumExtendedTextualHeadersField" .int16 (some (-1)) none

/-- `FormatRevisionNumField`, binary_reel_header.py:180-182. -/
def vtFormatRevisionNumField : ValueType := ⟨"FormatRevisionNumField", .int16, IntType.int16.limitMin, IntType.int16.limitMax, some enumSegYRevision⟩

/-- `DataUseField`, trace_header.py:15-17. -/
def vtDataUseField : ValueType := ⟨"DataUseField", .int16, IntType.int16.limitMin, IntType.int16.limitMax, some enumDataUse⟩

/-- `ScalarFactorField`, trace_header.py:42-44. -/
def vtScalarFactorField : ValueType := ⟨"ScalarFactorField", .int16, IntType.int16.limitMin, IntType.int16.limitMax, some enumScalarFactor⟩

/-- `CoordinateUnitsField`, trace_header.py:61-63. -/
def vtCoordinateUnitsField : ValueType := ⟨"CoordinateUnitsField", .int16, IntType.int16.limitMin, IntType.int16.limitMax, some enumCoordinateUnits⟩

/-- `CorrelatedField`, trace_header.py:72-74. -/
def vtCorrelatedField : ValueType := ⟨"CorrelatedField", .int16, IntType.int16.limitMin, IntType.int16.limitMax, some enumCorrelated⟩

/-- `SweepTypeField`, trace_header.py:91-93. -/
def vtSweepTypeField : ValueType := ⟨"SweepTypeField", .int16, IntType.int16.limitMin, IntType.int16.limitMax, some enumSweepType⟩

/-- `TaperTypeField`, trace_header.py:108-110. -/
def vtTaperTypeField : ValueType := ⟨"TaperTypeField", .int16, IntType.int16.limitMin, IntType.int16.limitMax, some enumTaperType⟩

/-- `DayOfYearField`, trace_header.py:113-121. -/
def vtDayOfYearField : ValueType := .mkInt "DayOfYearField" .int16 (some 0) (some 366)

/-- `HourOfDayField`, trace_header.py:124-128. -/
def vtHourOfDayField : ValueType := .mkInt "HourOfDayField" .int16 (some 0) (some 24)

/-- `MinuteOfHourField`, trace_header.py:131-135. -/
def vtMinuteOfHourField : ValueType := .mkInt "MinuteOfHourField" .int16 (some 0) (some 60)

/-- `SecondOfMinute`, trace_header.py:138-142. -/
def vtSecondOfMinute : ValueType := .mkInt "SecondOfMinute" .int16 (some 0) (some 60)

/-- `TimeBasisCodeField`, trace_header.py:157-159. -/
def vtTimeBasisCodeField : ValueType := ⟨"TimeBasisCodeField", .int16, IntType.int16.limitMin, IntType.int16.limitMax, some enumTimeBasisCode⟩

/-- `OverTravelField`, trace_header.py:172-174. -/
def vtOverTravelField : ValueType := ⟨"OverTravelField", .int16, IntType.int16.limitMin, IntType.int16.limitMax, some enumOverTravel⟩

/-- `SampleUnitField`, trace_header.py:203-205. -/
def vtSampleUnitField : ValueType := ⟨"SampleUnitField", .int16, IntType.int16.limitMin, IntType.int16.limitMax, some enumSampleUnit⟩

/-- `SourceTypeField`, trace_header.py:208-225. -/
def vtSourceTypeField : ValueType := .mkInt "SourceTypeField" .int16 none (some 9)

/-- `SourceMeasurementUnitField`, trace_header.py:252-254. -/
def vtSourceMeasurementUnitField : ValueType := ⟨"SourceMeasurementUnitField", .int16, IntType.int16.limitMin, IntType.int16.limitMax, some enumSourceMeasurementUnit⟩

/-- The calls of `IntEnumFieldMeta.__new__` (field_types.py:84-93) in the modules, and the types made. -/
def enumFieldTypes : List (String × List Int × IntType × ValueType) := [
  ("DataSampleFormatField", enumDataSampleFormat, .int16, vtDataSampleFormatField),
  ("TraceSortingField", enumTraceSorting, .int16, vtTraceSortingField),
  ("CorrelatedDataTracesField", enumCorrelatedDataTraces, .int16, vtCorrelatedDataTracesField),
  ("BinaryGainRecoveredField", enumBinaryGainRecovered, .int16, vtBinaryGainRecoveredField),
  ("AmplitudeRecoveryMethodField", enumAmplitudeRecoveryMethod, .int16, vtAmplitudeRecoveryMethodField),
  ("MeasurementSystemField", enumMeasurementSystem, .int16, vtMeasurementSystemField),
  ("ImpulseSignalPolarityField", enumImpulseSignalPolarity, .int16, vtImpulseSignalPolarityField),
  ("VibratoryPolarityCodeField", enumVibratoryPolarityCode, .int16, vtVibratoryPolarityCodeField),
  ("FixedLengthTraceFlagField", enumFixedLengthTraceFlag, .int16, vtFixedLengthTraceFlagField),
  ("FormatRevisionNumField", enumSegYRevision, .int16, vtFormatRevisionNumField),
  ("DataUseField", enumDataUse, .int16, vtDataUseField),
  ("ScalarFactorField", enumScalarFactor, .int16, vtScalarFactorField),
  ("CoordinateUnitsField", enumCoordinateUnits, .int16, vtCoordinateUnitsField),
  ("CorrelatedField", enumCorrelated, .int16, vtCorrelatedField),
  ("SweepTypeField", enumSweepType, .int16, vtSweepTypeField),
  ("TaperTypeField", enumTaperType, .int16, vtTaperTypeField),
  ("TimeBasisCodeField", enumTimeBasisCode, .int16, vtTimeBasisCodeField),
  ("OverTravelField", enumOverTravel, .int16, vtOverTravelField),
  ("SampleUnitField", enumSampleUnit, .int16, vtSampleUnitField),
  ("SourceMeasurementUnitField", enumSourceMeasurementUnit, .int16, vtSourceMeasurementUnitField)]

/-- The class statement of `BinaryReelHeader`, binary_reel_header.py:185-361. -/
def levelBinaryReelHeader : Level where
  name := "BinaryReelHeader"
  start_offset := (some 3201)
  length_in_bytes := (some 400)
  fields := [
    ⟨"job_id_num", vtInt32, 3201, 0⟩,  -- 190-192
    ⟨"line_num", vtNNInt32, 3205, 0⟩,  -- 194-197
    ⟨"reel_num", vtInt32, 3209, 0⟩,  -- 199-202
    ⟨"data_traces_per_ensemble", vtNNInt16, 3213, 0⟩,  -- 204-207
    ⟨"auxiliary_traces_per_ensemble", vtNNInt16, 3215, 0⟩,  -- 209-212
    ⟨"sample_interval", vtNNInt16, 3217, 0⟩,  -- 214-217
    ⟨"original_field_sample_interval", vtNNInt16, 3219, 0⟩,  -- 219-222
    ⟨"num_samples", vtNNInt16, 3221, 0⟩,  -- 224-229
    ⟨"original_field_num_samples", vtNNInt16, 3223, 0⟩,  -- 231-234
    ⟨"data_sample_format", vtDataSampleFormatField, 3225, 5⟩,  -- 236-239
    ⟨"ensemble_fold", vtNNInt16, 3227, 0⟩,  -- 241-245
    ⟨"trace_sorting", vtTraceSortingField, 3229, 0⟩,  -- 247-249
    ⟨"vertical_sum_code", vtNNInt16, 3231, 0⟩,  -- 251-258
    ⟨"sweep_frequency_at_start", vtNNInt16, 3233, 0⟩,  -- 260-263
    ⟨"sweep_frequency_at_end", vtNNInt16, 3235, 0⟩,  -- 265-268
    ⟨"sweep_length", vtNNInt16, 3237, 0⟩,  -- 270-273
    ⟨"sweep_type", vtSweepTypeField, 3239, 0⟩,  -- 275-278
    ⟨"sweep_trace_number", vtInt16, 3241, 0⟩,  -- 280-283
    ⟨"sweep_trace_taper_length_at_start", vtNNInt16, 3243, 0⟩,  -- 285-288
    ⟨"sweep_trace_taper_length_at_end", vtNNInt16, 3245, 0⟩,  -- 290-293
    ⟨"taper_type", vtTaperTypeField, 3247, 0⟩,  -- 295-298
    ⟨"correlated_data_traces", vtCorrelatedDataTracesField, 3249, 0⟩,  -- 300-303
    ⟨"binary_gain_recovered", vtBinaryGainRecoveredField, 3251, 0⟩,  -- 305-308
    ⟨"amplitude_recovery_method", vtAmplitudeRecoveryMethodField, 3253, 0⟩,  -- 310-313
    ⟨"measurement_system", vtMeasurementSystemField, 3255, 0⟩,  -- 315-318
    ⟨"impulse_signal_polarity", vtImpulseSignalPolarityField, 3257, 0⟩,  -- 320-323
    ⟨"vibratory_polarity_code", vtVibratoryPolarityCodeField, 3259, 0⟩,  -- 325-329
    ⟨"format_revision_num", vtFormatRevisionNumField, 3501, 256⟩,  -- 331-338
    ⟨"fixed_length_trace_flag", vtFixedLengthTraceFlagField, 3503, 0⟩,  -- 340-343
    ⟨"num_extended_textual_headers", vtNumExtendedTextualHeadersField, 3505, 0⟩]  -- 345-361

/-- `BinaryReelHeader`, binary_reel_header.py:185-361. -/
def fmtBinaryReelHeader : Format := [levelBinaryReelHeader]

/-- The class statement of `TraceHeaderRev0`, trace_header.py:257-665. -/
def levelTraceHeaderRev0 : Level where
  name := "TraceHeaderRev0"
  start_offset := (some 1)
  length_in_bytes := (some 240)
  fields := [
    ⟨"line_sequence_num", vtInt32, 1, 0⟩,  -- 262-266
    ⟨"file_sequence_num", vtInt32, 5, 0⟩,  -- 268-270
    ⟨"field_record_num", vtInt32, 9, 0⟩,  -- 272-274
    ⟨"trace_num", vtInt32, 13, 0⟩,  -- 276-278
    ⟨"energy_source_point_num", vtInt32, 17, 0⟩,  -- 280-284
    ⟨"ensemble_num", vtInt32, 21, 0⟩,  -- 286-288
    ⟨"ensemble_trace_num", vtNNInt32, 25, 0⟩,  -- 290-292
    ⟨"trace_identification_code", vtInt16, 29, 0⟩,  -- 294-296
    ⟨"num_vertically_summed_traces", vtNNInt16, 31, 1⟩,  -- 298-300
    ⟨"num_horizontally_stacked_traces", vtNNInt16, 33, 1⟩,  -- 302-304
    ⟨"data_use", vtDataUseField, 35, 1⟩,  -- 306-308
    ⟨"doc_nreceiver_offset", vtInt32, 37, 0⟩,  -- 310-313
    ⟨"receiver_group_elevation", vtInt32, 41, 0⟩,  -- 315-319
    ⟨"surface_elevation_at_source", vtInt32, 45, 0⟩,  -- 321-323
    ⟨"source_depth_below_surface", vtNNInt32, 49, 0⟩,  -- 325-327
    ⟨"datum_elevation_at_receiver_group", vtNNInt32, 53, 0⟩,  -- 329-331
    ⟨"datum_elevation_at_source", vtInt32, 57, 0⟩,  -- 333-335
    ⟨"water_depth_at_source", vtInt32, 61, 0⟩,  -- 337-339
    ⟨"water_depth_at_group", vtInt32, 65, 0⟩,  -- 341-344
    ⟨"elevation_scalar", vtScalarFactorField, 69, 1⟩,  -- 346-356
    ⟨"xy_scalar", vtScalarFactorField, 71, 1⟩,  -- 358-364
    ⟨"source_x", vtInt32, 73, 0⟩,  -- 366-374
    ⟨"source_y", vtInt32, 77, 0⟩,  -- 376-384
    ⟨"group_x", vtInt32, 81, 0⟩,  -- 386-394
    ⟨"group_y", vtInt32, 85, 0⟩,  -- 396-404
    ⟨"coordinate_units", vtCoordinateUnitsField, 89, 0⟩,  -- 406-409
    ⟨"weathering_velocity", vtNNInt16, 91, 0⟩,  -- 411-414
    ⟨"subweathering_velocity", vtNNInt16, 93, 0⟩,  -- 416-419
    ⟨"uphole_time_at_source", vtNNInt16, 95, 0⟩,  -- 421-424
    ⟨"uphole_time_at_group", vtNNInt16, 97, 0⟩,  -- 426-429
    ⟨"source_static_correction", vtInt16, 99, 0⟩,  -- 431-434
    ⟨"group_static_correction", vtInt16, 101, 0⟩,  -- 436-439
    ⟨"total_static", vtInt16, 103, 0⟩,  -- 441-445
    ⟨"lag_time_a", vtInt16, 105, 0⟩,  -- 447-455
    ⟨"lag_time_b", vtInt16, 107, 0⟩,  -- 457-462
    ⟨"delay_recording_time", vtInt16, 109, 0⟩,  -- 464-475
    ⟨"mute_start_time", vtNNInt16, 111, 0⟩,  -- 477-480
    ⟨"mute_end_time", vtNNInt16, 113, 0⟩,  -- 482-485
    ⟨"num_samples", vtNNInt16, 115, 0⟩,  -- 487-490
    ⟨"sample_interval", vtInt16, 117, 0⟩,  -- 492-505
    ⟨"gain_type_of_field_instruments", vtNNInt16, 119, 0⟩,  -- 507-510
    ⟨"instrument_gain_constant", vtInt16, 121, 0⟩,  -- 512-515
    ⟨"instrument_initial_gain", vtInt16, 123, 0⟩,  -- 517-521
    ⟨"correlated", vtCorrelatedField, 125, 1⟩,  -- 523-526
    ⟨"sweep_frequency_at_start", vtNNInt16, 127, 0⟩,  -- 528-531
    ⟨"sweep_frequency_at_end", vtNNInt16, 129, 0⟩,  -- 533-536
    ⟨"sweep_length", vtNNInt16, 131, 0⟩,  -- 538-541
    ⟨"sweep_type", vtSweepTypeField, 133, 0⟩,  -- 543-546
    ⟨"sweep_trace_taper_length_at_start", vtNNInt16, 135, 0⟩,  -- 548-551
    ⟨"sweep_trace_taper_length_at_end", vtNNInt16, 137, 0⟩,  -- 553-556
    ⟨"taper_type", vtTaperTypeField, 139, 0⟩,  -- 558-561
    ⟨"alias_filter_frequency", vtNNInt16, 141, 0⟩,  -- 563-566
    ⟨"alias_filter_slope", vtInt16, 143, 0⟩,  -- 568-571
    ⟨"notch_filter_frequency", vtNNInt16, 145, 0⟩,  -- 573-576
    ⟨"notch_filter_slope", vtInt16, 147, 0⟩,  -- 578-581
    ⟨"low_cut_frequency", vtNNInt16, 149, 0⟩,  -- 583-586
    ⟨"high_cut_frequency", vtNNInt16, 151, 0⟩,  -- 588-591
    ⟨"low_cut_slope", vtInt16, 153, 0⟩,  -- 593-596
    ⟨"high_cut_slope", vtInt16, 155, 0⟩,  -- 598-601
    ⟨"year_recorded", vtInt16, 157, 0⟩,  -- 603-610
    ⟨"day_of_year", vtDayOfYearField, 159, 0⟩,  -- 612-615
    ⟨"hour_of_day", vtHourOfDayField, 161, 0⟩,  -- 617-620
    ⟨"minute_of_hour", vtMinuteOfHourField, 163, 0⟩,  -- 622-625
    ⟨"second_of_minute", vtSecondOfMinute, 165, 0⟩,  -- 627-630
    ⟨"time_basis_code", vtTimeBasisCodeField, 167, 0⟩,  -- 632-635
    ⟨"trace_weighting_factor", vtNNInt16, 169, 0⟩,  -- 637-640
    ⟨"geophone_group_num_roll_switch_position_one", vtInt16, 171, 0⟩,  -- 642-645
    ⟨"geophone_group_num_first_trace_original_field", vtInt16, 173, 0⟩,  -- 647-650
    ⟨"geophone_group_num_last_trace_original_field", vtInt16, 175, 0⟩,  -- 652-655
    ⟨"gap_size", vtNNInt16, 177, 0⟩,  -- 657-660
    ⟨"over_travel", vtOverTravelField, 179, 0⟩]  -- 662-665

/-- `TraceHeaderRev0`, trace_header.py:257-665. -/
def fmtTraceHeaderRev0 : Format := [levelTraceHeaderRev0]

/-- The class statement of `TraceHeaderRev1`, trace_header.py:668-815. -/
def levelTraceHeaderRev1 : Level where
  name := "TraceHeaderRev1"
  start_offset := none
  length_in_bytes := none
  fields := [
    ⟨"cdp_x", vtInt32, 181, 0⟩,  -- 670-675
    ⟨"cdp_y", vtInt32, 185, 0⟩,  -- 677-682
    ⟨"inline_number", vtInt32, 189, 0⟩,  -- 684-690
    ⟨"crossline_number", vtInt32, 193, 0⟩,  -- 692-697
    ⟨"shotpoint_number", vtInt32, 197, 0⟩,  -- 699-706
    ⟨"shotpoint_scalar", vtInt16, 201, 0⟩,  -- 708-716
    ⟨"trace_unit", vtSampleUnitField, 203, 0⟩,  -- 718-721
    ⟨"transduction_constant_mantissa", vtInt32, 205, 0⟩,  -- 723-731
    ⟨"transduction_constant_exponent", vtInt16, 209, 0⟩,  -- 733-740
    ⟨"transduction_units", vtSampleUnitField, 211, 0⟩,  -- 742-748
    ⟨"device_trace_identifier", vtInt16, 213, 0⟩,  -- 750-757
    ⟨"time_scalar", vtScalarFactorField, 215, 0⟩,  -- 759-769
    ⟨"source_type", vtSourceTypeField, 217, 0⟩,  -- 771-774
    ⟨"source_energy_direction", vtInt32, 219, 0⟩,  -- 776-782
    ⟨"source_measurement_mantissa", vtInt32, 225, 0⟩,  -- 784-796
    ⟨"source_measurement_exponent", vtInt16, 229, 0⟩,  -- 798-810
    ⟨"source_measurement_unit", vtSourceMeasurementUnitField, 231, 0⟩]  -- 812-815

/-- `TraceHeaderRev1`, trace_header.py:668-815. -/
def fmtTraceHeaderRev1 : Format := fmtTraceHeaderRev0 ++ [levelTraceHeaderRev1]

end Segpy
