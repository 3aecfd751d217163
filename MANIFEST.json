{
 "claims": [
  {
   "property": "C01",
   "status": "proved",
   "theorems": [
    "Verif.C01_roundtrip",
    "Verif.C01_identical",
    "Verif.C01_roundtrip_file"
   ],
   "note": "Encodable records: scalars before arrays, ASCII NUL-free names and strings, chars 0..127, dimensions at least 1 (slist may be empty), block size below 2^31. 64-bit integer arrays come back with the equivalent dtype longlong/ulonglong."
  },
  {
   "property": "C02",
   "status": "proved",
   "theorems": [
    "Verif.C02_written_passes"
   ],
   "note": ""
  },
  {
   "property": "C03",
   "status": "proved",
   "theorems": [
    "Verif.C03_terminates",
    "Verif.C03_exact"
   ],
   "note": "The fuel of the loop is shown sufficient: no run ever ends for lack of fuel."
  },
  {
   "property": "C04",
   "status": "partial",
   "theorems": [
    "Verif.C04_lossless",
    "Verif.C04_injective_partial",
    "Verif.C04_accepted_injective_partial",
    "Verif.C04_nan_violation"
   ],
   "note": "Losslessness is proved in full (the bytes are an encoding of what was read; hypothesis: no slist array header with a negative dimension). Byte identity of two files with the same field lists is proved for scalars that are no NaN: signalling and quiet NaNs in single precision read alike (C04_nan_violation)."
  },
  {
   "property": "C05",
   "status": "proved",
   "theorems": [
    "Verif.C05_truncation",
    "Verif.C05_truncation_written"
   ],
   "note": ""
  },
  {
   "property": "C06",
   "status": "proved",
   "theorems": [
    "Verif.C06_concat",
    "Verif.C06_concat_accepted",
    "Verif.C06_concat_written"
   ],
   "note": ""
  },
  {
   "property": "C07",
   "status": "partial",
   "theorems": [
    "Verif.C07_identifier_partial",
    "Verif.C07_identifier_violation"
   ],
   "note": "The identifier is never compared, but C07_identifier_violation: an slist with a negative dimension makes the reader compute sizes from the whole buffer, which can include identifier bytes. Proved for accepted files without that."
  },
  {
   "property": "C08",
   "status": "partial",
   "theorems": [
    "Verif.C08_exceptions_partial",
    "Verif.C08_no_struct_error_partial",
    "Verif.C08_violation_index",
    "Verif.C08_violation_unicode",
    "Verif.C08_violation_value",
    "Verif.C08_violation_struct",
    "Verif.C08_violation_overflow",
    "Verif.C08_violation_overflow_slist",
    "Verif.C08_violation_big_slist"
   ],
   "note": "The code violates the full claim; C08_exceptions_partial lists exactly which exceptions occur and C08_violation_* are concrete witnesses for each undocumented one."
  },
  {
   "property": "C09",
   "status": "proved",
   "theorems": [
    "Verif.C09_header",
    "Verif.C09_scalar_code",
    "Verif.C09_array_code"
   ],
   "note": ""
  },
  {
   "property": "C10",
   "status": "proved",
   "theorems": [
    "Verif.C10_integrity",
    "Verif.C10_rewound"
   ],
   "note": ""
  },
  {
   "property": "C11",
   "status": "proved",
   "theorems": [
    "Verif.C11_accepted_passes",
    "Verif.C11_converse_fails"
   ],
   "note": ""
  },
  {
   "property": "C12",
   "status": "proved",
   "theorems": [
    "Verif.SD.C12_darn_again",
    "Verif.SD.C12_darn_fresh",
    "Verif.C12_read_again",
    "Verif.C12_read_file_again"
   ],
   "note": "For DmapRead and for any sequence of read calls on an SDarnRead (C12_darn_*)."
  },
  {
   "property": "C13",
   "status": "partial",
   "theorems": [
    "Verif.C13_char_partial",
    "Verif.C13_negative_violation",
    "Verif.C13_high_violation"
   ],
   "note": "Holds for 0..127; violated for negative values and for 128..255 (witness theorems for all such values)."
  },
  {
   "property": "C14",
   "status": "partial",
   "theorems": [
    "Verif.C14_string_bytes",
    "Verif.C14_string_partial",
    "Verif.C14_survives_iff",
    "Verif.C14_text_violation"
   ],
   "note": "C14_survives_iff decides exactly which strings survive; the full claim is violated."
  },
  {
   "property": "C15",
   "status": "partial",
   "theorems": [
    "Verif.C15_order_partial",
    "Verif.C15_order_violation"
   ],
   "note": "Holds when scalars precede arrays; violated otherwise."
  },
  {
   "property": "C16",
   "status": "partial",
   "theorems": [
    "Verif.C16_only_shapes",
    "Verif.C16_only_shapes_argument",
    "Verif.C16_unchanged_partial",
    "Verif.C16_reversed",
    "Verif.C16_violation"
   ],
   "note": "Holds for one-dimensional arrays; C16_only_shapes bounds the change in general; violated for higher rank."
  },
  {
   "property": "C17",
   "status": "partial",
   "theorems": [
    "Verif.C17_violation",
    "Verif.C17_copies_partial",
    "Verif.C17_copies_read"
   ],
   "note": "The n-th call returns n copies for one-dimensional records; full claim violated."
  },
  {
   "property": "C18",
   "status": "proved",
   "theorems": [
    "Verif.SD.C18_darn_failure",
    "Verif.SD.C18_darn_success",
    "Verif.SD.C18_darn_bad_record",
    "Verif.C18_failure_no_file",
    "Verif.C18_bad_record",
    "Verif.C18_success"
   ],
   "note": "DmapWrite and the six write_X methods of SDarnWrite."
  },
  {
   "property": "C19",
   "status": "partial",
   "theorems": [
    "Verif.C19_leftover",
    "Verif.C19_violation",
    "Verif.C19_clean_partial"
   ],
   "note": "C19_leftover says exactly what remains; the full claim is violated."
  },
  {
   "property": "C20",
   "status": "proved",
   "theorems": [
    "Verif.C20_name_persists",
    "Verif.C20_effective_name"
   ],
   "note": "Proved over any history of write calls."
  },
  {
   "property": "C21",
   "status": "proved",
   "theorems": [
    "Verif.C21_elements",
    "Verif.C21_on_disk"
   ],
   "note": ""
  },
  {
   "property": "C22",
   "status": "partial",
   "theorems": [
    "Verif.C22_own_bytes_partial",
    "Verif.C22_own_bytes_violation"
   ],
   "note": "Holds without slist arrays with a negative dimension; violated otherwise."
  },
  {
   "property": "C23",
   "status": "proved",
   "theorems": [
    "Verif.SD.C23_read",
    "Verif.SD.C23_write",
    "Verif.SD.C23_group_left_out",
    "Verif.SD.C23_field_left_out",
    "Verif.SD.C23_field_left_out_named"
   ],
   "note": "Conforms: every group of the format complete or absent, no unknown field, every field of the listed format. C23_group_left_out: every group, also that of the main fields, can be left out of an accepted record. C23_field_left_out, C23_field_left_out_named: a single field only if it is the only one of its group; otherwise just that field is named."
  },
  {
   "property": "C24",
   "status": "proved",
   "theorems": [
    "Verif.SD.C24_read_fields",
    "Verif.SD.C24_write_fields",
    "Verif.SD.C24_file_rejects",
    "Verif.SD.C24_file_reports",
    "Verif.SD.C24_second_call_number",
    "Verif.SD.C24_write_rejects",
    "Verif.SD.C24_write_reports"
   ],
   "note": "Single checks, whole files and whole record lists; C24_second_call_number: on a second call of the same reader the number counts from the record where the first call stopped."
  },
  {
   "property": "C25",
   "status": "proved",
   "theorems": [
    "Verif.SD.C25_same_records"
   ],
   "note": ""
  },
  {
   "property": "C26",
   "status": "proved",
   "theorems": [
    "Verif.SD.C26_names_unique",
    "Verif.SD.C26_one_format",
    "Verif.SD.C26_same_format",
    "Verif.SD.C26_read_order",
    "Verif.SD.C26_write_order",
    "Verif.SD.C26_grid_in_map",
    "Verif.SD.C26_snd_in_fitacf",
    "Verif.SD.C26_parameters",
    "Verif.SD.C26_own",
    "Verif.SD.C26_counterparts"
   ],
   "note": ""
  },
  {
   "property": "C27",
   "status": "proved",
   "theorems": [
    "Verif.SD.C27_roundtrip",
    "Verif.SD.C27_accepted"
   ],
   "note": "Hypothesis: encodable records (see C01)."
  },
  {
   "property": "C28",
   "status": "proved",
   "theorems": [
    "Verif.SD.C28_read_no_keyError",
    "Verif.SD.C28_write_no_keyError",
    "Verif.SD.C28_file_errors"
   ],
   "note": "A KeyError cannot escape; read and write checks."
  },
  {
   "property": "C29",
   "status": "partial",
   "theorems": [
    "Verif.SD.C29_fresh",
    "Verif.SD.C29_new_records",
    "Verif.SD.C29_one_method_partial",
    "Verif.SD.C29_violation",
    "Verif.SD.C29_violation_other"
   ],
   "note": "Holds on a fresh reader (C29_fresh) and as long as the same method is used; violated after read_records or another read_Y (C29_violation*)."
  },
  {
   "property": "C30",
   "status": "partial",
   "theorems": [
    "Verif.SD.C30_violation",
    "Verif.SD.C30_violation_all",
    "Verif.SD.C30_raises_partial"
   ],
   "note": "The first call raises (C30_raises_partial); repeated calls skip the rejected records silently (C30_violation*)."
  },
  {
   "property": "C31",
   "status": "partial",
   "theorems": [
    "Verif.C31_dict_dmap_dict",
    "Verif.C31_unknown_type",
    "Verif.C31_dmap_dict_dmap_partial",
    "Verif.C31_long_violation"
   ],
   "note": "dict->dmap->dict proved; dmap->dict->dmap proved except for 64-bit integer arrays, where C31_long_violation shows that the conversion back always raises KeyError."
  },
  {
   "property": "C32",
   "status": "proved",
   "theorems": [
    "Verif.C32_codes",
    "Verif.C32_codes_complete",
    "Verif.C32_casts",
    "Verif.C32_cast_value",
    "Verif.C32_accepted_types"
   ],
   "note": ""
  },
  {
   "property": "C33",
   "status": "partial",
   "theorems": [
    "Verif.C33_plain_roundtrip_partial",
    "Verif.C33_nearest",
    "Verif.C33_infinite_violation",
    "Verif.C33_widened"
   ],
   "note": "Proved for dictionaries whose stored form is encodable; the exceptions of C13 to C15 apply otherwise. Python floats are stored as the nearest float32, the even one of two (C33_nearest, stated on the numbers that the bits stand for); those beyond the largest float32 become infinite (C33_infinite_violation)."
  },
  {
   "property": "C34",
   "status": "partial",
   "theorems": [
    "Verif.Bor.C34_site_tables",
    "Verif.Bor.C34_array_tables",
    "Verif.Bor.C34_record_partial",
    "Verif.Bor.C34_record_arrays_partial",
    "Verif.Bor.C34_record_accepts",
    "Verif.Bor.C34_record_missing",
    "Verif.Bor.C34_record_extra",
    "Verif.Bor.C34_record_types_partial",
    "Verif.Bor.C34_record_violation",
    "Verif.Bor.C34_record_escape_violation",
    "Verif.Bor.C34_arrays_partial",
    "Verif.Bor.C34_arrays_typed_partial",
    "Verif.Bor.C34_arrays_accepts",
    "Verif.Bor.C34_arrays_order_partial",
    "Verif.Bor.C34_arrays_violation",
    "Verif.Bor.C34_arrays_ppo_violation"
   ],
   "note": "The checks are characterised exactly and shown to accept every conforming record and array file. Not decided as stated: a numpy scalar passes for an array in a record, an array of strings passes for any array field, and pulse_phase_offset may be two 64-bit integers (C34_*_violation). Mistyped Python objects raise AttributeError."
  },
  {
   "property": "C35",
   "status": "partial",
   "theorems": [
    "Verif.Bor.C35_accepts_partial",
    "Verif.Bor.C35_reports_partial",
    "Verif.Bor.C35_escape_partial",
    "Verif.Bor.C35_violation"
   ],
   "note": "Acceptance is exact; the error lists exactly the bad records unless a record has none of the fields or a mistyped Python object, when a bare exception escapes (C35_escape_partial, C35_violation)."
  },
  {
   "property": "C36",
   "status": "proved",
   "theorems": [
    "Verif.Bor.C36_restructure_unlisted",
    "Verif.Bor.C36_array_reader",
    "Verif.Bor.C36_site_reader",
    "Verif.Bor.C36_writers",
    "Verif.Bor.C36_version",
    "Verif.Bor.C36_unlisted",
    "Verif.Bor.C36_names",
    "Verif.Bor.C36_formats"
   ],
   "note": "For every hash string; for both readers (the version at the root or of the first record selects the format, an unlisted one is rejected, what is accepted conforms to the format) and both writers; BorealisRestructure rejects unlisted versions as well."
  },
  {
   "property": "C37",
   "status": "partial",
   "theorems": [
    "Verif.Bor.C37_classes_partial",
    "Verif.Bor.C37_types",
    "Verif.Bor.C37_dimensions",
    "Verif.Bor.C37_generated",
    "Verif.Bor.C37_generated_types_partial",
    "Verif.Bor.C37_generated_array_types_partial",
    "Verif.Bor.C37_descriptors_violation",
    "Verif.Bor.C37_violation",
    "Verif.Bor.C37_rawrf",
    "Verif.Bor.C37_structures"
   ],
   "note": "Every table of every version, by evaluation of the whole table. pulse_phase_offset is both shared and unshared from v0.6 on (C37_violation), and data_descriptors of v0.7 bfiq is generated with another type than listed (C37_descriptors_violation)."
  },
  {
   "property": "C49",
   "status": "partial",
   "theorems": [
    "Verif.SD.C49_after_read",
    "Verif.SD.C49_parent",
    "Verif.SD.C49_violation"
   ],
   "note": "Holds after read_X and for DmapRead; after read_records of an SDarnRead get_records raises AttributeError (C49_violation)."
  },
  {
   "property": "C50",
   "status": "partial",
   "theorems": [
    "Verif.C50_write_errors_partial",
    "Verif.C50_violation_struct",
    "Verif.C50_violation_value"
   ],
   "note": "The failing record is identified exactly; struct.error, ValueError and others escape (C50_violation_*)."
  },
  {
   "property": "C38",
   "status": "partial",
   "theorems": [
    "Verif.Bor.C38_files_partial",
    "Verif.Bor.C38_partial",
    "Verif.Bor.C38_descriptors_violation",
    "Verif.Bor.C38_ppo_violation",
    "Verif.Bor.C38_text_violation",
    "Verif.Bor.C38_rawrf",
    "Verif.Bor.C38_attribute_types"
   ],
   "note": "For every version and restructurable type, any number of records, any dimensions, in memory (C38_partial) and through files written by BorealisRestructure (C38_files_partial). Not for: zero dimensions other than no blanked samples anywhere, texts over 256 characters, data_descriptors of bfiq v0.7, phase offsets per pulse outside the bounds of FlatPpoOK; each has a violation theorem. Files moreover not for phase offsets per pulse and more beams than in the first record (C60_beams_violation)."
  },
  {
   "property": "C39",
   "status": "partial",
   "theorems": [
    "Verif.Bor.C39_arrays_partial",
    "Verif.Bor.C39_scalars_partial",
    "Verif.Bor.C39_others_partial",
    "Verif.Bor.C39_violation"
   ],
   "note": "Every array field, every index, under the hypotheses of C38 without the uniqueness of names. Violated by empty blanked_samples beside non-empty ones."
  },
  {
   "property": "C40",
   "status": "partial",
   "theorems": [
    "Verif.Bor.C40_names",
    "Verif.Bor.C40_count_partial",
    "Verif.Bor.C40_last",
    "Verif.Bor.C40_violation",
    "Verif.Bor.C40_milliseconds",
    "Verif.Bor.C40_early_name",
    "Verif.Bor.C40_same_name",
    "Verif.Bor.C40_apart_partial",
    "Verif.Bor.C40_float_violation"
   ],
   "note": "Names, last row wins, and exact condition for the number of records, for any successful call on any input and any naming. With the float64 arithmetic of the code: names are milliseconds from November 2004 on, and rows more than a millisecond apart are all kept. The full claim is violated by equal names."
  },
  {
   "property": "C41",
   "status": "partial",
   "theorems": [
    "Verif.Bor.C41_file_partial",
    "Verif.Bor.C41_file_violation",
    "Verif.Bor.C41_sequences",
    "Verif.Bor.C41_lengths",
    "Verif.Bor.C41_ppo_partial",
    "Verif.Bor.C41_shapes",
    "Verif.Bor.C41_ppo_violation"
   ],
   "note": "In memory: sequences and lengths for any records; phase offsets if the first record has some; violated otherwise. Files: all dimensions if no record has more beams than the first; violated otherwise."
  },
  {
   "property": "C42",
   "status": "proved",
   "theorems": [
    "Verif.Bor.C42_samples",
    "Verif.Bor.C42_header",
    "Verif.Bor.C42_scaled"
   ],
   "note": "Samples, offsets and headers of iqdat, for all dimensions below 2 GB and any scaling (C42_samples); with the float32 or float64 arithmetic of NumPy the stored samples are the scaled ones, clipped and rounded towards zero, up to the rounding errors (C42_scaled)."
  },
  {
   "property": "C43",
   "status": "proved",
   "theorems": [
    "Verif.Bor.C43_correlations",
    "Verif.Bor.C43_header",
    "Verif.Bor.C43_scaled",
    "Verif.Bor.C43_root"
   ],
   "note": "Correlations, power and ranges of rawacf, one record per beam, for any scaling (C43_correlations); with the float32 or float64 arithmetic of NumPy the stored numbers are the scaled ones up to the rounding errors (C43_scaled). The square root of the power is the correctly rounded one (C43_root)."
  },
  {
   "property": "C44",
   "status": "partial",
   "theorems": [
    "Verif.Bor.C44_clamp",
    "Verif.Bor.C44_fits",
    "Verif.Bor.C44_version",
    "Verif.Bor.C44_violation_untagged",
    "Verif.Bor.C44_violation_frequency",
    "Verif.Bor.C44_saturation"
   ],
   "note": "All values are in the range of their DMAP types and samples are clamped to the nearest int16 (C44_clamp), those out of range become the largest or smallest one (C44_saturation). Violated for hashes that are not version tags (version bytes -1 under NumPy 1, OverflowError under NumPy 2) and for numbers that do not fit int16, which wrap silently (C44_violation_frequency)."
  },
  {
   "property": "C45",
   "status": "partial",
   "theorems": [
    "Verif.Bor.C45_conforms",
    "Verif.Bor.C45_file",
    "Verif.Bor.C45_bfiq",
    "Verif.Bor.C45_rawacf",
    "Verif.Bor.C45_violation_no_xcfs"
   ],
   "note": "Every record that is converted conforms, and every Borealis record that conforms and is Convertible is converted. Violated for rawacf without xcfs: KeyError, so the conversion fails."
  },
  {
   "property": "C46",
   "status": "partial",
   "theorems": [
    "Verif.Bor.C46_blanked",
    "Verif.Bor.C46_phases",
    "Verif.Bor.C46_rawacf",
    "Verif.Bor.C46_bfiq",
    "Verif.Bor.C46_first",
    "Verif.Bor.C46_violation_no_version",
    "Verif.Bor.C46_violation_zero_length",
    "Verif.Bor.C46_violation_phases",
    "Verif.Bor.C46_phases_float",
    "Verif.Bor.C46_phases_special"
   ],
   "note": "Exactly the two patterns are accepted; everything else with a version and a pulse length is reported as not convertible. Violated for other records: IndexError, ValueError or OverflowError escapes; phase offsets with two dimensions give ValueError. The test of the version never applies, since it compares a string with a number. With NumPy's arithmetic the phase offsets that pass are those that are zero as numbers (C46_phases_float). Infinite and NaN offsets are not convertible (C46_phases_special)."
  },
  {
   "property": "C51",
   "status": "partial",
   "theorems": [
    "Verif.Bor.C51_partial",
    "Verif.Bor.C51_violation"
   ],
   "note": "Holds for one offset per pulse. Violated for offsets per sequence and pulse: pulse_phase_offset_site_fix replaces them by zeros when the file is read."
  },
  {
   "property": "C52",
   "status": "partial",
   "theorems": [
    "Verif.Bor.C52_partial",
    "Verif.Bor.C52_violation",
    "Verif.Bor.C52_float_partial",
    "Verif.Bor.C52_float_violation"
   ],
   "note": "Violated: timestamps are in seconds but are taken as milliseconds for tsc and tus. The partial theorems give the values, also with the float64 arithmetic of the code."
  },
  {
   "property": "C53",
   "status": "partial",
   "theorems": [
    "Verif.Bor.C53_partial",
    "Verif.Bor.C53_violation"
   ],
   "note": "Holds up to v0.6. Violated in v0.7, where the names are bytes and the flag is always 0."
  },
  {
   "property": "C55",
   "status": "partial",
   "theorems": [
    "Verif.Bor.C55_header",
    "Verif.Bor.C55_stations",
    "Verif.Bor.C55_iqdat",
    "Verif.Bor.C55_rawacf",
    "Verif.Bor.C55_numbers",
    "Verif.Bor.C55_separation_partial",
    "Verif.Bor.C55_separation_violation",
    "Verif.Bor.C55_azimuth",
    "Verif.Bor.C55_skip",
    "Verif.Bor.C55_noise",
    "Verif.Bor.C55_antennas",
    "Verif.Bor.C55_comment",
    "Verif.Bor.C55_distance_finite",
    "Verif.Bor.C55_antennas_special",
    "Verif.Bor.C55_noise_special",
    "Verif.Bor.C55_date",
    "Verif.Bor.C55_date_unique"
   ],
   "note": "All header fields, for any floating point operations (C55_header); with those of CPython and NumPy the date is that of the first timestamp in the Gregorian calendar to the nearest microsecond (timestamps from 2^20 to 2^33 seconds, that is until 2242), distances, delays, integration time, noise, beam direction, transmitting antennas and texts are as in the record up to the stated rounding. Violated for the separation of samples: the quotient 1e6 / rate is cut, so that 7 microseconds become 6. Infinite and NaN numbers: C55_distance_finite, C55_antennas_special, C55_noise_special. C55_date does not say which timestamps are refused, nor that dates before 1970 are right."
  },
  {
   "property": "C54",
   "status": "proved",
   "theorems": [
    "Verif.Bor.C54_roundtrip",
    "Verif.Bor.C54_quiet",
    "Verif.Bor.C54_dates"
   ],
   "note": "For both conversions: records that pass the checks and are converted are written by write_iqdat / write_rawacf and read back, field by field. Assumes ASCII texts, a version tag, non-empty tables and data, records below 2 GB (as in the quantifier) and at least rank 3 in NumPy; values of scalars are equal while NumPy types become Python types. The texts of dates are proved to be ASCII for the dates of CPython (C54_dates). Rounding to float32 in the arithmetic of NumPy is proved to give no signalling NaN (C54_quiet)."
  },
  {
   "property": "C48",
   "status": "partial",
   "theorems": [
    "Verif.Bor.C48_exclusive",
    "Verif.Bor.C48_reader",
    "Verif.Bor.C48_accepts_partial",
    "Verif.Bor.C48_root_version_violation",
    "Verif.Bor.C48_report_violation",
    "Verif.Bor.C48_writer_partial",
    "Verif.Bor.C48_named_violation",
    "Verif.Bor.C48_writer_report_violation"
   ],
   "note": "The order and the fallback are exact for every outcome; no file is accepted in both structures; a handler is returned iff one accepts, except for site files with a version at the root (C48_root_version_violation) and records named like the version (C48_named_violation). The failure of the first attempt is never reported (C48_report_violation, C48_writer_report_violation)."
  },
  {
   "property": "C56",
   "status": "partial",
   "theorems": [
    "Verif.Bor.C56_records_detected_partial",
    "Verif.Bor.C56_arrays_detected_partial",
    "Verif.Bor.C56_site_partial",
    "Verif.Bor.C56_site_written_partial",
    "Verif.Bor.C56_array_partial",
    "Verif.Bor.C56_array_written_partial",
    "Verif.Bor.C56_nul_violation",
    "Verif.Bor.C56_scalar_violation",
    "Verif.Bor.C56_ppo_violation",
    "Verif.Bor.C56_pair_violation"
   ],
   "note": "Every version and type, any number of records, any shapes and texts; also without naming the structure. Violated by texts ending in NUL, scalars in place of arrays, phase offsets of another shape than the pulses (C56_*_violation). Arrays without dimensions and names with a slash are excluded."
  },
  {
   "property": "C57",
   "status": "partial",
   "theorems": [
    "Verif.Bor.C57_other_files_partial",
    "Verif.Bor.C57_refused_partial",
    "Verif.Bor.C57_arrays_refused_partial",
    "Verif.Bor.C57_site_kept",
    "Verif.Bor.C57_site_added",
    "Verif.Bor.C57_clash_violation",
    "Verif.Bor.C57_append_violation",
    "Verif.Bor.C57_twice_violation",
    "Verif.Bor.C57_partial_violation",
    "Verif.Bor.C57_array_kept",
    "Verif.Bor.C57_array_clash_violation"
   ],
   "note": "Other files never change, refused data change nothing. Violated: existing content stays, two writes leave what one write of both leaves, equal names raise, failures leave a part."
  },
  {
   "property": "C58",
   "status": "partial",
   "theorems": [
    "Verif.Bor.C58_array_violation",
    "Verif.Bor.C58_site_partial"
   ],
   "note": "Site files: written with the default arguments. Array files: no data at all is written with the default compression (C58_array_violation)."
  },
  {
   "property": "C59",
   "status": "partial",
   "theorems": [
    "Verif.Bor.C59_partial",
    "Verif.Bor.C59_rawrf_read_violation",
    "Verif.Bor.C59_rawrf_write_violation"
   ],
   "note": "Data exist for every version of the three other types; for rawrf no data is written or read in any version."
  },
  {
   "property": "C47",
   "status": "partial",
   "theorems": [
    "Verif.Bor.C47_restructure_arguments",
    "Verif.Bor.C47_same_structure",
    "Verif.Bor.C47_restructure_input",
    "Verif.Bor.C47_alias_violation",
    "Verif.Bor.C47_convert_arguments",
    "Verif.Bor.C47_convert_reasons",
    "Verif.Bor.C47_convert_input",
    "Verif.Bor.C47_convert_alias_violation"
   ],
   "note": "Unknown types and structures and equal names raise and leave every file as it is; restructuring to the structure the file has writes nothing; no file but the output file ever changes, and a failed conversion changes none. Violated for a second name of the input file (alias): it is overwritten."
  },
  {
   "property": "C60",
   "status": "partial",
   "theorems": [
    "Verif.Bor.C60_beams_violation",
    "Verif.Bor.C60_offsets_violation",
    "Verif.Bor.C60_offsets_content_violation",
    "Verif.Bor.C60_root_violation",
    "Verif.Bor.C60_blanked_violation",
    "Verif.Bor.C60_names_violation",
    "Verif.Bor.C60_text_violation",
    "Verif.Bor.C60_offsets_site_violation",
    "Verif.Bor.C60_to_array_partial",
    "Verif.Bor.C60_to_array_content_partial",
    "Verif.Bor.C60_to_site_partial",
    "Verif.Bor.C60_to_site_content_partial"
   ],
   "note": "For files as the writers leave them, both directions: the file written by BorealisRestructure is that of the writer for the data of a reader, up to phase offsets (from array to site: those that the site readers put in). Violated for more beams after the first record, phase offsets of v0.6 and v0.7, other attributes at the root, blanked samples in some records only, rows of the same time, texts stored as Empty."
  },
  {
   "property": "C61",
   "status": "partial",
   "theorems": [
    "Verif.SD.C61_record_partial",
    "Verif.SD.C61_read_partial",
    "Verif.SD.C61_write_partial",
    "Verif.SD.C61_violation"
   ],
   "note": "Any two file types, records with a main field of the type: record, reader and writer. Records without main fields are accepted as two types."
  },
  {
   "property": "C62",
   "status": "partial",
   "theorems": [
    "Verif.Bor.C62_record_partial",
    "Verif.Bor.C62_arrays_partial",
    "Verif.Bor.C62_reader_partial",
    "Verif.Bor.C62_violation"
   ],
   "note": "Records, arrays and the readers, in both structures, all versions and pairs of types but bfiq and antennas_iq of v0.7, which are read as each other."
  },
  {
   "property": "C63",
   "status": "partial",
   "theorems": [
    "Verif.C63_new_writer_partial",
    "Verif.C63_records_partial",
    "Verif.C63_ignored",
    "Verif.C63_violation"
   ],
   "note": "A new object writes the records it is given, for any argument. An object that holds records ignores the argument; a second call repeats the first records."
  },
  {
   "property": "C64",
   "status": "proved",
   "theorems": [
    "Verif.C64_concat",
    "Verif.C64_each",
    "Verif.C64_injective"
   ],
   "note": "Concatenation of lists, of single records, and injectivity up to the NumPy class of 64-bit integers."
  },
  {
   "property": "C65",
   "status": "partial",
   "theorems": [
    "Verif.Bor.C65_partial",
    "Verif.Bor.C65_stable_partial",
    "Verif.Bor.C65_violation"
   ],
   "note": "For arrays made from the records of C38, any number of trips. Other arrays lose their padding."
  },
  {
   "property": "C66",
   "status": "partial",
   "theorems": [
    "Verif.Bor.C66_values",
    "Verif.Bor.C66_structure_partial",
    "Verif.Bor.C66_violation",
    "Verif.Bor.C66_name",
    "Verif.Bor.C66_files_partial",
    "Verif.Bor.C66_files_violation"
   ],
   "note": "Field order, structure of the file and file name; structure for the records of C38, in memory and for a site file and the array file restructured from it (C66_files_partial). Array files of bfiq v0.7 can never be converted; bfiq files of v0.6 with phase offsets per sequence are converted, with zero offsets, from the site file only (C66_files_violation)."
  },
  {
   "property": "C67",
   "status": "partial",
   "theorems": [
    "Verif.Bor.C67_records",
    "Verif.Bor.C67_files_partial",
    "Verif.Bor.C67_written",
    "Verif.Bor.C67_violation"
   ],
   "note": "Records, written bytes, and readers whose first records have the same slice id. With different slice ids the first one is used for all records."
  },
  {
   "property": "C68",
   "status": "partial",
   "theorems": [
    "Verif.C68_far",
    "Verif.C68_near",
    "Verif.C68_across",
    "Verif.C68_around_violation",
    "Verif.C68_number",
    "Verif.C68_before_partial",
    "Verif.C68_again_violation"
   ],
   "note": "Record number for all byte strings, records before for those without negative slist dimension. A second call may succeed with the records before. C68_far, C68_near and C68_across say what a negative cursor gives, by how far it is before the first byte. C68_around_violation: a second call may return a record that is not in the file, read from its end on into its beginning."
  },
  {
   "property": "C69",
   "status": "partial",
   "theorems": [
    "Verif.C69_read_text",
    "Verif.C69_read_repr",
    "Verif.C69_failed_text",
    "Verif.C69_write_text_violation",
    "Verif.Bor.C69_site_names",
    "Verif.Bor.C69_names",
    "Verif.Bor.C69_array_names_partial",
    "Verif.Bor.C69_site_text",
    "Verif.Bor.C69_texts_partial",
    "Verif.Bor.C69_texts_violation"
   ],
   "note": "Texts of readers, record names of both structures (arrays made from records of C38). Two writers have no text; a DMAP writer counts from 0."
  },
  {
   "property": "C70",
   "status": "partial",
   "theorems": [
    "Verif.C70_checks",
    "Verif.C70_words",
    "Verif.C70_agrees",
    "Verif.C70_number_partial",
    "Verif.C70_texts",
    "Verif.C70_same_text",
    "Verif.C70_data_type",
    "Verif.C70_file_violation",
    "Verif.C70_position_violation",
    "Verif.C70_integrity_violation",
    "Verif.C70_integrity_agrees",
    "Verif.C70_true",
    "Verif.C70_integrity_true",
    "Verif.C70_dimension",
    "Verif.C70_shape",
    "Verif.Bor.C70_borealis",
    "Verif.Bor.C70_borealis_words"
   ],
   "note": "Texts of all exceptions of pyDARNio in the DMAP reader, of the checks of SuperDARN records and of Borealis files. Elsewhere: the DMAP writer (C78), conversion (C76), refused arguments and structures (C79), restructuring (C80). CursorError lacks the file and tells a wrong position; the integrity test tells record 0. C70_true: the numbers in texts are as the text says; C70_dimension, C70_shape: which dimension or shape is told. C70_words, C70_borealis_words: the texts in full."
  },
  {
   "property": "C71",
   "status": "partial",
   "theorems": [
    "Verif.C71_same",
    "Verif.C71_bounded",
    "Verif.C71_linear_partial",
    "Verif.C71_linear_violation",
    "Verif.C71_factor_violation"
   ],
   "note": "For all bytes the number of steps is bounded by len*(6*len+8); by 2*len+2 if no slist array has a negative dimension. Violated otherwise: a family of files attains the order of the square. The loops are counted, not the time NumPy needs for views or Python for adding to lists."
  },
  {
   "property": "C72",
   "status": "partial",
   "theorems": [
    "Verif.C72_array",
    "Verif.C72_size_partial",
    "Verif.C72_violation"
   ],
   "note": "Proved for files without an slist array with a negative dimension; C72_violation: an accepted file with one, whose record takes more bytes than the file. C72_array, for all files: the bytes of every array stand in the file one after the other, so no array is bigger than the file."
  },
  {
   "property": "C73",
   "status": "partial",
   "theorems": [
    "Verif.C73_numbers_partial",
    "Verif.C73_violation",
    "Verif.C73_integers",
    "Verif.C73_too_large"
   ],
   "note": "Integer types: nothing but integers that fit is written (C73_integers). Floating point types: the double nearest to the integer, the integer itself below 2^53; for float the single precision number nearest to that double, the integer itself below 2^24 (C73_numbers_partial). Integers from 2^1024 - 2^970 on are refused (C73_too_large). Violated: 2^24 + 1 as a float is stored as 2^24, an integer in a text field as its digits."
  },
  {
   "property": "C74",
   "status": "partial",
   "theorems": [
    "Verif.C74_inside",
    "Verif.C74_separate_partial",
    "Verif.C74_violation"
   ],
   "note": "Proved for files without an slist array with a negative dimension. C74_violation: an accepted file in which slist and another array are views of the same bytes. C74_inside, for all files: every array shows the bytes of the file at its place, which is inside it."
  },
  {
   "property": "C75",
   "status": "partial",
   "theorems": [
    "Verif.Bor.C75_records_partial",
    "Verif.Bor.C75_arrays",
    "Verif.Bor.C75_violation"
   ],
   "note": "Proved: nothing returned uses memory of the caller's, and fields that are not shared fields use memory of their own. C75_violation: pulses is one object in all records made from arrays."
  },
  {
   "property": "C76",
   "status": "partial",
   "theorems": [
    "Verif.Bor.C76_agrees",
    "Verif.Bor.C76_blanked",
    "Verif.Bor.C76_phases",
    "Verif.Bor.C76_told",
    "Verif.Bor.C76_violation_cause",
    "Verif.Bor.C76_violation_file"
   ],
   "note": "Proved for refusals by the check, with the text in full. C76_violation_cause: what goes wrong within the conversion is reported without a record; C76_violation_file: no refusal tells the file. How NumPy shows an array is a parameter."
  },
  {
   "property": "C77",
   "status": "partial",
   "theorems": [
    "Verif.Bor.C77_memory",
    "Verif.Bor.C77_to_site",
    "Verif.Bor.C77_to_array_partial",
    "Verif.Bor.C77_to_array_violation",
    "Verif.Bor.C77_left",
    "Verif.Bor.C77_left_written",
    "Verif.Bor.C77_left_violation"
   ],
   "note": "Proved: in memory and from array to site every failure is a BorealisRestructureError; from site to array a failure before writing leaves the files as they were, and a TypeError becomes a BorealisRestructureError. C77_to_array_violation: ValueError and KeyError come through. C77_left_violation: records before the failing one stay in the output file. C77_left and C77_left_written: what stays are exactly the records before the failing one, as written by the site writer."
  },
  {
   "property": "C78",
   "status": "partial",
   "theorems": [
    "Verif.C78_agrees",
    "Verif.C78_agrees_file",
    "Verif.C78_told_partial",
    "Verif.C78_nothing",
    "Verif.C78_char",
    "Verif.C78_record",
    "Verif.C78_field_violation",
    "Verif.C78_file_violation",
    "Verif.C78_name_violation"
   ],
   "note": "Proved for all records: the text is that of the first field that cannot be written of the first such record, in full, and tells the record without doubt. C78_file_violation, C78_field_violation, C78_name_violation: file and field are not told by every text, and a comma turns the name into a tuple. Exceptions of Python itself have no text of pyDARNio (C50)."
  },
  {
   "property": "C79",
   "status": "partial",
   "theorems": [
    "Verif.Bor.C79_agrees",
    "Verif.Bor.C79_type_partial",
    "Verif.Bor.C79_restructure_type",
    "Verif.Bor.C79_site_violation",
    "Verif.Bor.C79_structure",
    "Verif.Bor.C79_structure_violation",
    "Verif.Bor.C79_overwrite",
    "Verif.Bor.C79_version",
    "Verif.Bor.C79_version_violation",
    "Verif.Bor.C79_no_version_partial",
    "Verif.Bor.C79_no_version_violation",
    "Verif.Bor.C79_convert",
    "Verif.Bor.C79_telling"
   ],
   "note": "Proved: an unknown type is refused with a BorealisFileTypeError by all classes but BorealisSiteWrite, unknown structures, equal names, unknown and missing versions, types that are not converted and missing slice numbers with their exceptions, with full texts, from which argument and file can be read (types and versions without spaces). C79_site_violation, C79_no_version_violation: BorealisSiteWrite raises AttributeError and KeyError. C79_version_violation: KeyError in BorealisRestructure. C79_structure_violation: the file is not told. The text for a missing version, which quotes h5py, is not modelled."
  },
  {
   "property": "C80",
   "status": "partial",
   "theorems": [
    "Verif.Bor.C80_agrees",
    "Verif.Bor.C80_format",
    "Verif.Bor.C80_arrays",
    "Verif.Bor.C80_records",
    "Verif.Bor.C80_unsupported",
    "Verif.Bor.C80_to_site",
    "Verif.Bor.C80_to_array_partial",
    "Verif.Bor.C80_telling"
   ],
   "note": "Proved: in memory, for both directions and both sides, and from array files to site files the text of every failure is given in full and tells file, format, direction and cause, which can be read from it if the file name has no colon. C80_to_array_partial: from site files to array files only a TypeError is told so (C77_to_array_violation: others come through). The text of the cause is a parameter."
  },
  {
   "property": "C81",
   "status": "proved",
   "theorems": [
    "Verif.C81_file",
    "Verif.C81_stream",
    "Verif.C81_same",
    "Verif.C81_refused",
    "Verif.C81_telling",
    "Verif.C81_written",
    "Verif.SD.C81_darn",
    "Verif.SD.C81_darn_written"
   ],
   "note": "For files that can be read. Names with NUL give ValueError, a name given as a stream TypeError, a written stream given as a name ValueError (C81_refused). Directories, permissions and other names of a file are not modelled."
  },
  {
   "property": "C82",
   "status": "partial",
   "theorems": [
    "Verif.C82_sizes",
    "Verif.C82_read_partial",
    "Verif.C82_fields_violation",
    "Verif.SD.C82_kinds",
    "Verif.SD.C82_darn_violation"
   ],
   "note": "Proved: what is written passes the integrity test with one block per record (C82_sizes). C82_read_partial: encodable records can be read. Violated: a record without scalars or without arrays is written, and stops the reader with ZeroByteError (C82_fields_violation); the SuperDARN checks do not tell scalars from arrays (C82_kinds), so every SuperDARN writer writes files that cannot be read (C82_darn_violation)."
  },
  {
   "property": "C83",
   "status": "partial",
   "theorems": [
    "Verif.C83_dmap",
    "Verif.C83_plain_partial",
    "Verif.C83_written",
    "Verif.C83_mixed",
    "Verif.C83_empty_first_violation"
   ],
   "note": "Proved: what is written for any list of records, and when (C83_written); both kinds together are never written (C83_mixed). C83_plain_partial: plain records are converted if the first one has a field. Violated otherwise: after empty records plain ones are refused with DmapTypeError (C83_empty_first_violation). Values that are neither plain values of the model nor DMAP structures are not modelled."
  },
  {
   "property": "C84",
   "status": "partial",
   "theorems": [
    "Verif.C84_again_partial",
    "Verif.C84_bytes_partial",
    "Verif.C84_iff",
    "Verif.C84_violation",
    "Verif.C84_iff_many"
   ],
   "note": "Proved for files without a negative slist dimension whose records are Rewritable (some scalars, then some arrays; ASCII texts; chars below 128; no empty array of chars; dimensions of empty arrays below the size of the new block): the records are written and read as the same (C84_again_partial), and the bytes are the same if the identifiers are the writer's, no name occurs twice in a block and no float scalar is a NaN (C84_bytes_partial). The condition is exact for files of one record without chars above 127 (C84_iff). Violated otherwise, one file for each of five causes (C84_violation). C84_iff_many: the same for any number of records, if what is written has no negative slist dimension."
  },
  {
   "property": "C85",
   "status": "partial",
   "theorems": [
    "Verif.SD.C85_again_partial",
    "Verif.SD.C85_copy_partial",
    "Verif.SD.C85_iff",
    "Verif.SD.C85_violation"
   ],
   "note": "Proved for files without a negative slist dimension whose records have scalars and arrays under different names, ASCII texts, chars below 128 and, if slist is empty, dimensions below the size of the new block (Sound; the other conditions of C84 follow from the formats): the dictionaries are written by the method of the same type and read as the same (C85_again_partial); the new file is a copy if the identifiers are the writer's, no name occurs twice in a block and no float scalar is a NaN (C85_copy_partial). Violated by texts outside ASCII and shared names (C85_violation). If chars are below 128 and what is written has no negative slist dimension either, the condition is exact (C85_iff)."
  },
  {
   "property": "C86",
   "status": "partial",
   "theorems": [
    "Verif.Bor.C86_site_partial",
    "Verif.Bor.C86_site_iff",
    "Verif.Bor.C86_array_partial",
    "Verif.Bor.C86_array_iff",
    "Verif.Bor.C86_site_detected_partial",
    "Verif.Bor.C86_array_detected_partial",
    "Verif.Bor.C86_text_violation",
    "Verif.Bor.C86_scalar_violation"
   ],
   "note": "Exact: among files as h5py opens them (unique names, texts without NUL at the end, arrays as long as their shape), a site file can be copied by reading, writing and reading iff its texts are ASCII and all its arrays are arrays (C86_site_iff); an array file iff its texts are ASCII, and otherwise it cannot be written (C86_array_iff). The copy has the same type, version, names and values, and the file itself is still read as before (C86_site_partial, C86_array_partial). Violated by texts outside ASCII and by numbers in place of arrays (C86_text_violation, C86_scalar_violation). The same holds with BorealisRead and BorealisWrite when no structure is named, if no record is named borealis_git_hash and, for arrays, h5py has the compression given or the default one (C86_site_detected_partial, C86_array_detected_partial)."
  },
  {
   "property": "C87",
   "status": "partial",
   "theorems": [
    "Verif.C87_error_left",
    "Verif.C87_exact",
    "Verif.C87_iff",
    "Verif.C87_apart_partial",
    "Verif.C87_twice_violation",
    "Verif.C87_read_violation"
   ],
   "note": "What is written is exact for all records and all sharing, and so is how the lists are left (C87_exact), also if the write fails (C87_error_left). It is what records without sharing give iff every array finds its list turned an even number of times or has a shape that is the same both ways (C87_iff); so if no array shares its list with an earlier one of more than one dimension (C87_apart_partial). Violated: a record with an array of more than one dimension listed twice (C87_twice_violation), which is read with rows and columns exchanged the second time (C87_read_violation)."
  },
  {
   "property": "C88",
   "status": "partial",
   "theorems": [
    "Verif.SD.C88_darn_prefix",
    "Verif.SD.C88_darn_apart_partial",
    "Verif.SD.C88_darn_violation",
    "Verif.C88_prefix",
    "Verif.C88_apart_partial",
    "Verif.C88_again",
    "Verif.C88_iff",
    "Verif.C88_violation"
   ],
   "note": "In every program the bytes that were returned stay at the beginning of the stream (C88_prefix), and the stream stays as it is as long as only other writers are made and used (C88_apart_partial). Violated by further calls of the same writer: two streams of one writer are one object (C88_violation), every further call succeeds and makes it longer by as much (C88_again), and only a writer without records leaves it as it is (C88_iff). The same for programs with writers of both classes (C88_darn_prefix, C88_darn_apart_partial); a write method of SDarnWrite that succeeds makes the stream longer that its writer returned last (C88_darn_violation)."
  },
  {
   "property": "C89",
   "status": "partial",
   "theorems": [
    "Verif.SD.C89_darn_exact",
    "Verif.SD.C89_darn_violation",
    "Verif.C89_exact",
    "Verif.C89_unchanged_partial",
    "Verif.C89_violation"
   ],
   "note": "Exact for all files without negative slist dimensions and all bytes written into the reader's memory: every array is given with the bytes that are there now, everything else as before (C89_exact); so the second result is that of the file if the bytes under the arrays are unchanged (C89_unchanged_partial). Violated whenever an array was changed (C89_violation). The same for every first call and every sequence of further calls of the read methods of SDarnRead (C89_darn_exact, C89_darn_violation)."
  },
  {
   "property": "C90",
   "status": "partial",
   "theorems": [
    "Verif.C90_agrees",
    "Verif.C90_default_partial",
    "Verif.C90_default_violation",
    "Verif.C90_list_violation",
    "Verif.C90_plain_partial"
   ],
   "note": "In every program: a writer given plain values writes what they were when they were given (C90_plain_partial; arrays changed in place are not in this model, see C93), and as long as nothing is appended to the records of a writer, one made without argument has none (C90_default_partial). Violated: DMAP records appended to the list later are written as well (C90_list_violation), and after appending to the records of a writer made without argument, the next such writer writes what was appended (C90_default_violation). C90_agrees: the writer of this model returns and leaves what that of the other DMAP properties does, and changes no other list. write_dmap and other sequences than lists are not in this model."
  },
  {
   "property": "C91",
   "status": "proved",
   "theorems": [
    "Verif.C91_stream",
    "Verif.C91_read",
    "Verif.C91_first"
   ],
   "note": "What a reader gives after something was written into its own arrays is C89. A stream is any bytes-like argument; that bytearray(stream) copies is the documented behaviour of Python and part of the model."
  },
  {
   "property": "C92",
   "status": "partial",
   "theorems": [
    "Verif.C92_left",
    "Verif.C92_passed_partial",
    "Verif.C92_cut_partial",
    "Verif.C92_violation",
    "Verif.C92_header_violation",
    "Verif.C92_after",
    "Verif.C92_skipped_violation"
   ],
   "note": "Violated: a test that raises leaves the cursor where it stopped (C92_left says exactly where), so read_records goes on from there as if the file began there (C92_after: exactly which results come without an error; no negative slist dimension). With four bytes too many, or eight without a size, it returns no records and no error; records before a header with a bad size are skipped. After a test that returned nothing has changed."
  },
  {
   "property": "C93",
   "status": "partial",
   "theorems": [
    "Verif.C93_now",
    "Verif.C93_unchanged_partial",
    "Verif.C93_dmap",
    "Verif.C93_dmap_exact",
    "Verif.C93_exact",
    "Verif.C93_violation",
    "Verif.C93_again"
   ],
   "note": "Violated: the writer keeps the caller's arrays. C93_now: what is written is what a writer made at the time of writing writes (types and shapes unchanged); C93_exact: it is what was given exactly when the bytes of all arrays in the records are as they were. What holds is C93_unchanged_partial. C93_dmap, C93_dmap_exact: the same with DMAP structures. C93_again: any number of calls with changes in between. Not modelled: Python lists."
  }
 ]
}