{"id": "C01", "title": "DMAP stream round trip", "statement": "Writing a list of records with DmapWrite.write_dmap_stream (or write_dmap) and reading the bytes back with DmapRead.read_records gives exactly the same records: same record order, same field order, names, data types, scalar values, array dimensions, shapes and cell bytes.", "quantifier": "every list of records whose fields are encodable (scalars before arrays, at least one of each, ASCII NUL-free names and strings, in-range numbers, 'c' scalars 0..127, positive dimensions whose product is the cell count, record size below 2^31)", "why_tests_cant": "the space of records (names, types, shapes, values, lengths) is infinite; a codec bug may only show for one length or one combination of neighbours", "anchors": ["pydarnio/dmap/dmap.py: DmapWrite.write_dmap_stream, _dmap_record_to_bytes, dmap_scalar_to_bytes, dmap_array_to_bytes", "pydarnio/dmap/dmap.py: DmapRead.read_records, read_record, read_scalar, read_array, read_data, read_numerical_array"]}
{"id": "C02", "title": "Written streams pass the integrity test", "statement": "Every byte stream produced by DmapWrite from encodable records passes DmapRead.test_initial_data_integrity, and the sum of the block sizes stored in its record headers equals the stream length.", "quantifier": "every non-empty list of encodable records", "why_tests_cant": "unbounded number and size of records", "anchors": ["pydarnio/dmap/dmap.py: DmapRead.test_initial_data_integrity", "pydarnio/dmap/dmap.py: DmapWrite._dmap_record_to_bytes"]}
{"id": "C03", "title": "Reading any byte string terminates and consumes the file exactly", "statement": "DmapRead.read_records on any non-empty byte string terminates, either with an exception or with a list of records; when it returns, the cursor stands exactly at the end of the file and every record occupies exactly the number of bytes its header declares, the declared sizes adding up to the file length.", "quantifier": "every byte string, including corrupt and adversarial ones", "why_tests_cant": "the reader is a while loop driven by attacker-controlled lengths (some of which may move the cursor backwards); no finite set of files shows it cannot loop or stop early", "anchors": ["pydarnio/dmap/dmap.py: DmapRead.read_records, read_record"]}
{"id": "C04", "title": "Reading is lossless on accepted files", "statement": "If read_records accepts a byte string and no array dimension in it is non-positive, then the bytes are exactly the DMAP encoding of the field lists that were read (up to the ignored encoding identifier): nothing in the file is skipped, and two accepted files with the same identifiers and the same field lists are byte-identical.", "quantifier": "every accepted byte string without non-positive dimensions", "why_tests_cant": "requires inverting the decoder over all inputs", "anchors": ["pydarnio/dmap/dmap.py: DmapRead.read_record, read_scalar, read_array, read_data, read_numerical_array"]}
{"id": "C05", "title": "Truncation is always detected", "statement": "If a file consists of whole encoded records and is cut at any byte that is not a record boundary, read_records raises an exception (CursorError or MismatchByteError) instead of returning data; cut at a record boundary it returns exactly the records before the cut.", "quantifier": "every file of encodable records and every cut point (crash point)", "why_tests_cant": "crash points are unbounded: every byte offset of every file", "anchors": ["pydarnio/dmap/dmap.py: DmapRead.read_records, read_record, bytes_check, read_data"]}
{"id": "C06", "title": "Concatenation of streams is concatenation of records", "statement": "Reading the concatenation of two byte streams made of whole encoded records gives the records of the first followed by the records of the second.", "quantifier": "every pair of encoded streams", "why_tests_cant": "all pairs of files", "anchors": ["pydarnio/dmap/dmap.py: DmapRead.read_records"]}
{"id": "C07", "title": "Encoding identifier does not influence the result", "statement": "The four encoding-identifier bytes at the start of a record never influence what read_record returns or raises.", "quantifier": "every byte string, every identifier", "why_tests_cant": "2^32 identifiers times all files", "anchors": ["pydarnio/dmap/dmap.py: DmapRead.read_record, test_initial_data_integrity"]}
{"id": "C08", "title": "Corrupt input raises only the documented DMAP exceptions", "statement": "On any byte string read_records either returns or raises one of the documented DMAP exceptions (CursorError, MismatchByteError, ZeroByteError, NegativeByteError, DmapDataError, DmapDataTypeError). The code violates this: an unterminated string raises IndexError, invalid UTF-8 raises UnicodeDecodeError, an array or field running over the end raises ValueError. The part that holds: the exceptions are exactly those plus IndexError, UnicodeDecodeError, ValueError, struct.error (only after a negative slist dimension) and OverflowError (with NumPy 2, or after a negative slist dimension).", "quantifier": "every byte string", "why_tests_cant": "error behaviour must hold for every corrupt file, and corrupt files cannot be enumerated", "anchors": ["pydarnio/dmap/dmap.py: DmapRead.read_data, read_numerical_array, read_array"]}
{"id": "C09", "title": "Malformed record headers are rejected with the right error", "statement": "A record whose declared block size exceeds the remaining bytes raises MismatchByteError, a zero (negative) block size, scalar count or array count raises ZeroByteError (NegativeByteError), a field count above the block size raises MismatchByteError, an unknown type code raises DmapDataTypeError; none of these returns data.", "quantifier": "every byte string with the given header defect, whatever follows", "why_tests_cant": "the rest of the file is arbitrary", "anchors": ["pydarnio/dmap/dmap.py: DmapRead.read_record, zero_negative_check, bytes_check, check_data_type"]}
{"id": "C10", "title": "Integrity test decides block tiling", "statement": "test_initial_data_integrity succeeds exactly when following the stored block sizes from offset 0 (each positive, each header inside the file) lands exactly on the end of the file; on success the reader is rewound to the start; the final 'total block size' failure branch can never be reached.", "quantifier": "every non-empty byte string", "why_tests_cant": "while loop over arbitrary data", "anchors": ["pydarnio/dmap/dmap.py: DmapRead.test_initial_data_integrity"]}
{"id": "C11", "title": "Whatever can be read passes the integrity test", "statement": "Every file accepted by read_records is accepted by test_initial_data_integrity; the converse fails.", "quantifier": "every byte string", "why_tests_cant": "relates two loops over all inputs", "anchors": ["pydarnio/dmap/dmap.py: DmapRead.test_initial_data_integrity, read_records"]}
{"id": "C12", "title": "Reading twice gives the same records once", "statement": "After a successful read_records (or read_rawacf, ...), calling the same read method again any number of times returns the same list: no record is duplicated or lost.", "quantifier": "every file, every number of repeated calls", "why_tests_cant": "history property over unbounded call sequences", "anchors": ["pydarnio/dmap/dmap.py: DmapRead.read_records", "pydarnio/dmap/superdarn.py: SDarnRead._read_darn_records"]}
{"id": "C13", "title": "'c' scalar values survive a write/read cycle", "statement": "A char (int8) scalar written by DmapWrite is read back with the same value. The code violates this outside 0..127: 128..255 are written as two UTF-8 bytes and negative values raise ValueError. Holds for 0..127.", "quantifier": "every char value and every record containing one", "why_tests_cant": "interaction with every neighbouring field must be considered", "anchors": ["pydarnio/dmap/dmap.py: DmapWrite.dmap_scalar_to_bytes", "pydarnio/dmap/dmap.py: DmapRead.read_data", "pydarnio/utils/conversions.py: dmap2dict"]}
{"id": "C14", "title": "String scalars and names survive a write/read cycle", "statement": "A string value or field name written by DmapWrite is read back unchanged. The code violates this for every string with a non-ASCII character (the byte count is taken from the character count, so the terminator is cut off) and for strings with an embedded NUL. Holds for ASCII NUL-free strings.", "quantifier": "every Unicode string", "why_tests_cant": "all strings", "anchors": ["pydarnio/dmap/dmap.py: DmapWrite.dmap_scalar_to_bytes, dmap_array_to_bytes", "pydarnio/dmap/dmap.py: DmapRead.read_data"]}
{"id": "C15", "title": "Field order of the dictionary does not matter when writing", "statement": "A record can be written and read back whatever the order of its fields. The code violates this: fields are emitted in dictionary order although the reader expects all scalars before all arrays. Holds when scalars come first.", "quantifier": "every ordering of the fields of a record", "why_tests_cant": "all permutations of all records", "anchors": ["pydarnio/dmap/dmap.py: DmapWrite._dmap_record_to_bytes", "pydarnio/dmap/dmap.py: DmapRead.read_record"]}
{"id": "C16", "title": "Writing does not modify the caller's records", "statement": "write_dmap_stream leaves the records passed in unchanged. The code violates this: the shape list of every array with dimension > 1 is reversed in place. Holds when all arrays are one-dimensional; the only change in general is that reversal.", "quantifier": "every list of records", "why_tests_cant": "aliasing and history property", "anchors": ["pydarnio/dmap/dmap.py: DmapWrite.dmap_array_to_bytes"]}
{"id": "C17", "title": "Repeating a write gives the same bytes", "statement": "Calling write_dmap_stream again on the same writer returns the same stream. The code violates this: the internal buffer is never cleared, so the n-th call returns n copies (with the shapes of multi-dimensional arrays alternately reversed). Holds for the first call.", "quantifier": "every list of records, every number of calls", "why_tests_cant": "history over unbounded call sequences", "anchors": ["pydarnio/dmap/dmap.py: DmapWrite.write_dmap_stream, dmap_records_to_bytes"]}
{"id": "C18", "title": "A failing write never touches the output file", "statement": "If any record fails a check or cannot be encoded, write_dmap / write_iqdat / write_rawacf / write_fitacf / write_snd / write_grid / write_map raises before the output file is opened: the file system is unchanged.", "quantifier": "every list of records, every position of the failing record, every file type", "why_tests_cant": "all failure points", "anchors": ["pydarnio/dmap/dmap.py: DmapWrite.write_dmap", "pydarnio/dmap/superdarn.py: SDarnWrite.write_iqdat .. write_map, superDARN_file_structure_to_bytes"]}
{"id": "C19", "title": "A failed write leaves nothing behind in the writer", "statement": "After a write that raised, a later successful write outputs only its own records. The code violates this: bytes of the records preceding the failing one stay in the buffer and are emitted by the next write. Holds when the first record is the failing one.", "quantifier": "every failing write followed by any successful write", "why_tests_cant": "history property", "anchors": ["pydarnio/dmap/dmap.py: DmapWrite.dmap_records_to_bytes", "pydarnio/dmap/superdarn.py: SDarnWrite.superDARN_file_structure_to_bytes"]}
{"id": "C20", "title": "File name rules", "statement": "A write method uses the file name given in the call when it is non-empty, otherwise the one from the constructor or the last call; if there is none FilenameRequiredError is raised and nothing is written. The effective name persists over any history of calls.", "quantifier": "every history of write calls with arbitrary file names", "why_tests_cant": "history over unbounded call sequences", "anchors": ["pydarnio/dmap/dmap.py: DmapWrite._filename_check"]}
{"id": "C21", "title": "Array element order is preserved", "statement": "For an array of any rank, the element at index (i1,...,in) of the array read back equals the element at the same index of the array written, even though the stored shape is reversed on disk.", "quantifier": "every rank, shape and index", "why_tests_cant": "all ranks, shapes and indices", "anchors": ["pydarnio/dmap/dmap.py: DmapWrite.dmap_array_to_bytes", "pydarnio/dmap/dmap.py: DmapRead.read_array, read_numerical_array"]}
{"id": "C22", "title": "A record is decoded from its own bytes only", "statement": "What read_record returns for a record depends only on that record's block of bytes. The code violates this for an 'slist' array with a negative dimension, which swallows all the rest of the file. Holds for all accepted records without non-positive dimensions.", "quantifier": "every accepted file, every modification of the bytes outside the record", "why_tests_cant": "two-execution (non-interference) property over all files", "anchors": ["pydarnio/dmap/dmap.py: DmapRead.read_array, read_numerical_array"]}
{"id": "C23", "title": "SuperDARN field check decision", "statement": "A record is accepted by the SuperDARN field checks iff (1) every non-optional field group of the file type is either completely present or completely absent, (2) every field belongs to the file type and (3) every field has the data type listed for it.", "quantifier": "every record and every one of the six file types, for reading and writing", "why_tests_cant": "2^n subsets of fields times types", "anchors": ["pydarnio/dmap/superdarn.py: SDarnUtilities.missing_field_check, extra_field_check, incorrect_types_check", "pydarnio/dmap/superdarn_formats.py"]}
{"id": "C24", "title": "SuperDARN errors name exactly the offending fields", "statement": "SuperDARNFieldMissingError carries exactly the missing fields of the partially present groups, SuperDARNExtraFieldError exactly the unknown fields, SuperDARNDataFormatTypeError exactly the fields whose type differs with the expected type; all carry the index of the first offending record.", "quantifier": "every record list and file type", "why_tests_cant": "all combinations of defects", "anchors": ["pydarnio/dmap/superdarn.py: SDarnUtilities", "pydarnio/dmap/superdarn.py: SDarnWrite.superDARN_file_structure_to_bytes, SDarnRead._read_darn_records"]}
{"id": "C25", "title": "Reader and writer accept the same records", "statement": "For each SuperDARN file type, the writer's checks accept a record iff the reader's checks accept it (although they use differently ordered lists and check in a different order).", "quantifier": "every record, six file types", "why_tests_cant": "all records", "anchors": ["pydarnio/dmap/superdarn.py: SDarnRead.read_*, SDarnWrite.write_*"]}
{"id": "C26", "title": "Format tables are unambiguous", "statement": "Within each SuperDARN file type every field name has exactly one data type and (apart from documented overlaps) belongs to one group, so the outcome of the checks does not depend on the order of the groups nor on the order of the fields in the record. A name that occurs in several file types has the same data type in all; files made one from the other (iqdat, rawacf, fitacf, snd; grid, map) have the same fields for the parameters of the radar; and fields that belong together (value and error, minimum and maximum, begin and end, main array and interferometer) are all listed, with the same data type.", "quantifier": "all fields of the six tables; all permutations of groups and fields", "why_tests_cant": "all permutations", "anchors": ["pydarnio/dmap/superdarn_formats.py", "pydarnio/dmap/superdarn.py: SDarnUtilities.incorrect_types_check"]}
{"id": "C27", "title": "SuperDARN write/read round trip", "statement": "For each file type, encodable records accepted by write_X are returned unchanged by read_X on the written file, and reading them cannot raise.", "quantifier": "every list of encodable conforming records, six file types", "why_tests_cant": "infinite data space", "anchors": ["pydarnio/dmap/superdarn.py: SDarnWrite.write_*, SDarnRead.read_*"]}
{"id": "C28", "title": "The type check never fails with a KeyError", "statement": "incorrect_types_check looks every record field up in the format; on every path through the reader and writer this lookup succeeds, so it never raises KeyError.", "quantifier": "every record", "why_tests_cant": "all records", "anchors": ["pydarnio/dmap/superdarn.py: SDarnUtilities.incorrect_types_check, SDarnRead._read_darn_record, SDarnWrite.superDARN_file_structure_to_bytes"]}
{"id": "C29", "title": "Records returned by a SuperDARN read method conform to the format", "statement": "Every record returned by read_X satisfies the format of X. The code violates this when other read methods were called before on the same object (records read by read_records or another read_X are returned unchecked). Holds on a fresh reader.", "quantifier": "every file, every call history", "why_tests_cant": "history property", "anchors": ["pydarnio/dmap/superdarn.py: SDarnRead.read_*, _read_darn_records"]}
{"id": "C30", "title": "A rejected record is never silently skipped", "statement": "If read_X raises because of record k, calling read_X again does not return a list in which record k is missing. The code violates this: the cursor has already passed the bad record, so the second call succeeds without it. What holds: the first call raises and returns nothing.", "quantifier": "every file with a non-conforming record, every call history", "why_tests_cant": "history property", "anchors": ["pydarnio/dmap/superdarn.py: SDarnRead._read_darn_record"]}
{"id": "C31", "title": "dict2dmap and dmap2dict are inverse", "statement": "Converting plain dictionaries to DMAP structures and back returns the same fields, order and values; converting DMAP records read from a file to dictionaries and back keeps names, types, dimension and shape of every field.", "quantifier": "every dictionary of supported values; every DMAP record with supported types", "why_tests_cant": "all dictionaries", "anchors": ["pydarnio/utils/conversions.py: dict2dmap, dmap2dict"]}
{"id": "C32", "title": "Type tables agree", "statement": "The three type tables (DMAP_DATA_TYPES, DMAP_FORMAT_TYPES, FORMAT_CONVERSION/DMAP_CASTING_TYPES) agree: every format character has one code, the code maps back to the character, and casting a value for a format and asking for the format of the result gives the same format.", "quantifier": "all type codes and formats", "why_tests_cant": "must hold for the whole table, and is what makes rewriting a read file type-preserving", "anchors": ["pydarnio/dmap/dmap.py: DMAP_DATA_TYPES", "pydarnio/utils/conversions.py: DMAP_FORMAT_TYPES, FORMAT_CONVERSION, DMAP_CASTING_TYPES"]}
{"id": "C33", "title": "Dictionary-level round trip", "statement": "Plain dictionaries given to DmapWrite and read back with DmapRead.read_records are equal to the originals (after the documented casts).", "quantifier": "every list of encodable dictionaries", "why_tests_cant": "end-to-end property over all data", "anchors": ["pydarnio/utils/conversions.py", "pydarnio/dmap/dmap.py: DmapWrite.__init__, write_dmap_stream; DmapRead.read_records"]}
{"id": "C34", "title": "Borealis field checks decide conformance", "statement": "check_arrays / check_records accept iff no required field is missing, no unknown field is present, every single-element field has its type, every array field has its dtype (and for arrays: all unshared fields have the same number of records). Missing is checked before extra before types.", "quantifier": "every record set / array set and format", "why_tests_cant": "all subsets of fields and types", "anchors": ["pydarnio/borealis/borealis_utilities.py: missing_field_check, extra_field_check, record_incorrect_types_check, array_incorrect_types_check, array_num_records_check, check_arrays, check_records"]}
{"id": "C35", "title": "check_records reports exactly the bad records", "statement": "BorealisUtilities.check_records succeeds iff every record conforms, and otherwise the raised error lists precisely the records that fail and no others.", "quantifier": "every number of records and every pattern of defects", "why_tests_cant": "all patterns of good and bad records", "anchors": ["pydarnio/borealis/borealis_utilities.py: check_records"]}
{"id": "C36", "title": "Borealis version selects the format", "statement": "The format is selected by the part of borealis_git_hash before the first dash, cut to two dot-separated components; patch level and commit hash never matter and an unlisted version is always rejected.", "quantifier": "every version string", "why_tests_cant": "all strings", "anchors": ["pydarnio/borealis/borealis_utilities.py: get_borealis_version", "pydarnio/borealis/borealis_formats.py: borealis_version_dict", "pydarnio/borealis/borealis_site.py: BorealisSiteRead.__init__", "pydarnio/borealis/borealis_array.py: BorealisArrayRead.__init__"]}
{"id": "C37", "title": "Borealis formats classify every field exactly once", "statement": "For every Borealis version and restructurable file type the fields partition into shared, unshared, site-only and array-only fields; every field has exactly one type; every unshared field has a dimension rule for both structures, and the site-only/array-only generated fields are exactly those not copied.", "quantifier": "all fields of all versions and file types", "why_tests_cant": "whole-table property; a single misclassified field loses data on restructuring", "anchors": ["pydarnio/borealis/borealis_formats.py", "pydarnio/borealis/base_format.py: shared_fields, unshared_fields, array_only_fields, site_only_fields, site_fields, array_fields"]}
{"id": "C38", "title": "Site to array to site restructuring returns the original records", "statement": "For records of one slice with distinct first-sequence timestamps, restructuring site -> array -> site returns, for every record and every field, the original value (arrays trimmed back to their own lengths).", "quantifier": "every list of records with arbitrary per-record numbers of beams, sequences and blanked samples", "why_tests_cant": "ragged sizes are unbounded; padding and trimming must cancel for all of them", "anchors": ["pydarnio/borealis/base_format.py: BaseFormat._site_to_array, _array_to_site"]}
{"id": "C39", "title": "Padding never overwrites data", "statement": "In the array structure, the element at (record, index...) equals the site record's element when the index is inside that record's own dimensions and the type's fill value otherwise; the shape is the number of records followed by the maximum of each dimension.", "quantifier": "every list of records, every index", "why_tests_cant": "all ragged shapes and indices", "anchors": ["pydarnio/borealis/base_format.py: BaseFormat._site_to_array, find_max_sequences, find_max_beams, find_max_field_len_func"]}
{"id": "C40", "title": "No record is lost when restructuring arrays to site", "statement": "array -> site produces one site record per array record. The code violates this when two records' first timestamps fall in the same millisecond (equal keys overwrite). Holds when the keys are distinct.", "quantifier": "every list of timestamps", "why_tests_cant": "collisions are data-dependent", "anchors": ["pydarnio/borealis/base_format.py: BaseFormat._array_to_site"]}
{"id": "C41", "title": "Maximum dimensions cover every record", "statement": "The dimensions computed for restructuring are upper bounds for every record of the file. For the in-memory path this holds; the file path only looks at the number of beams of the first record and so violates it.", "quantifier": "every list of records", "why_tests_cant": "all orders of records", "anchors": ["pydarnio/borealis/base_format.py: BaseFormat.find_max_beams, find_max_sequences, site_get_max_dims"]}
{"id": "C42", "title": "Converting Borealis bfiq to iqdat keeps every sample", "statement": "In the iqdat output, the sample for (sequence, antenna array, sample, re/im) of each beam is at the position RST expects (toff + array offset + sample), is the scaled and clamped value of the bfiq sample at the same coordinates, and one DMAP record is produced per beam in order.", "quantifier": "every number of arrays, sequences, beams, samples; every index", "why_tests_cant": "index arithmetic over four dimensions for all sizes", "anchors": ["pydarnio/borealis/borealis_convert.py: BorealisConvert.__convert_bfiq_record"]}
{"id": "C43", "title": "Converting Borealis rawacf keeps every correlation", "statement": "In the rawacf output, acfd/xcfd at (range, lag, re/im) is the scaled real/imaginary part of the Borealis correlation of the same beam, range and lag for every lag except the dropped last one; pwr0 is the lag-zero power, a correctly rounded square root; one DMAP record per beam.", "quantifier": "every number of beams, ranges, lags; every index", "why_tests_cant": "index arithmetic for all sizes", "anchors": ["pydarnio/borealis/borealis_convert.py: BorealisConvert.__convert_rawacf_record"]}
{"id": "C44", "title": "Converted values fit the DMAP types", "statement": "Every integer field produced by the conversion fits its DMAP type for all inputs that the Borealis format allows, so the write cannot fail on range; clamped samples lie in [-32768, 32767]. Violated for untagged versions (version bytes become -1 and writing raises ValueError).", "quantifier": "every Borealis record", "why_tests_cant": "all values", "anchors": ["pydarnio/borealis/borealis_convert.py: BorealisConvert.__convert_bfiq_record, __convert_rawacf_record"]}
{"id": "C45", "title": "Converted records conform to the SuperDARN formats", "statement": "The records produced by the conversion pass the SuperDARN field checks of iqdat / rawacf: no missing, extra or wrongly typed field, whatever the input (both with and without cross correlations).", "quantifier": "every Borealis record accepted for conversion", "why_tests_cant": "all optional-field combinations", "anchors": ["pydarnio/borealis/borealis_convert.py: BorealisConvert.__convert_bfiq_record, __convert_rawacf_record", "pydarnio/dmap/superdarn_formats.py: Iqdat, Rawacf"]}
{"id": "C46", "title": "Convertibility check on blanked samples", "statement": "A record is accepted for conversion iff its blanked samples are exactly the pulse times or the pulse times and the sample after each, in ascending order (and for bfiq all pulse phase offsets are zero); every other pattern is rejected.", "quantifier": "every pulse table, spacing and blanking list", "why_tests_cant": "all lists", "anchors": ["pydarnio/borealis/borealis_convert.py: BorealisConvert._is_convertible_to_iqdat, _is_convertible_to_rawacf"]}
{"id": "C47", "title": "Conversions never overwrite their input and validate arguments first", "statement": "BorealisConvert and BorealisRestructure raise before writing when input and output names are equal or the requested types are unsupported; restructuring to the structure the file already has writes nothing.", "quantifier": "every combination of file names, types and structures", "why_tests_cant": "all argument combinations", "anchors": ["pydarnio/borealis/borealis_convert.py: BorealisConvert.__init__", "pydarnio/borealis/borealis_restructure.py: BorealisRestructure.__init__, restructure"]}
{"id": "C48", "title": "Structure auto-detection", "statement": "The reader/writer dispatchers try array structure first and fall back to site structure exactly on structure, missing-field or extra-field errors; they return a handler iff one of the two accepts, and report the failure of both otherwise.", "quantifier": "every outcome of the two attempts", "why_tests_cant": "all error combinations", "anchors": ["pydarnio/borealis/borealis.py: BorealisRead.return_reader, BorealisWrite.return_writer"]}
{"id": "C49", "title": "get_records returns what the last read returned", "statement": "After a successful read call on a reader, the property get_records gives the list that call returned.", "quantifier": "every file and every read method", "why_tests_cant": "all files and call orders", "anchors": ["pydarnio/dmap/superdarn.py: SDarnRead.get_records, read_*", "pydarnio/dmap/dmap.py: DmapRead.read_records"]}
{"id": "C50", "title": "A failing write identifies the record", "statement": "If writing raises, the exception is a DMAP exception carrying the position of the first record that cannot be written; all records before it can be written.", "quantifier": "every record list", "why_tests_cant": "all record lists, including out-of-range values and wrong Python types", "anchors": ["pydarnio/dmap/dmap.py: DmapWrite.dmap_records_to_bytes, dmap_record_to_bytes, dmap_scalar_to_bytes, dmap_array_to_bytes"]}
{"id": "C51", "title": "Phase-coded bfiq records are not converted", "statement": "A bfiq record with a pulse phase offset that is not zero is never converted to iqdat, also after it has been read from a file.", "quantifier": "every record with phase offsets, in any of the shapes that Borealis writes", "why_tests_cant": "the outcome depends on the shape of the offsets and on the repair of the field on every read", "anchors": ["pydarnio/borealis/borealis_utilities.py: BorealisUtilities.pulse_phase_offset_site_fix", "pydarnio/borealis/borealis_convert.py: BorealisConvert._is_convertible_to_iqdat"]}
{"id": "C52", "title": "Times of sequences in iqdat", "statement": "In an iqdat record tsc and tus are, for every sequence, the seconds and microseconds of its timestamp; those of the first sequence agree with the time in the header.", "quantifier": "every bfiq record, every sequence", "why_tests_cant": "timestamps are unbounded; tests only compare a few files against stored output", "anchors": ["pydarnio/borealis/borealis_convert.py: __convert_bfiq_record, tsc, tus, time.*"]}
{"id": "C53", "title": "Flag for cross correlations of iqdat", "statement": "The field xcf of an iqdat record is 1 if antenna_arrays_order lists the interferometer array and 0 otherwise, in every version of the format.", "quantifier": "every bfiq record of every version", "why_tests_cant": "depends on the types of the strings, which differ between versions", "anchors": ["pydarnio/borealis/borealis_convert.py: __convert_bfiq_record, xcf", "pydarnio/borealis/borealis_formats.py:2436-2491 BorealisBfiq"]}
{"id": "C54", "title": "Converted files can be written and read back", "statement": "The records that the conversion of a Borealis file yields are written by write_iqdat / write_rawacf without an exception, and reading the file with read_iqdat / read_rawacf gives the converted records.", "quantifier": "every list of convertible records with ASCII texts, a version tag, at least one sequence, range, pulse and two lags, and records below 2 GB", "why_tests_cant": "joins the conversion, the field checks, the writer and the reader over infinitely many records", "anchors": ["pydarnio/borealis/borealis_convert.py: _write_to_sdarn, _convert_records_to_dmap", "pydarnio/dmap/superdarn.py: SDarnWrite.write_iqdat, write_rawacf", "pydarnio/dmap/dmap.py: DmapWrite, DmapRead"]}
{"id": "C55", "title": "Headers of converted records", "statement": "Every header field of a converted record is the quantity of the Borealis record that RST expects there (date, station number, control program, counts, pulse and lag tables, noise, distances, texts), for both kinds of conversion; the station numbers are distinct.", "quantifier": "every record that is converted; numbers are equal whenever they fit the DMAP type", "why_tests_cant": "about fifty fields, each of which could come from a wrong field or be swapped with a neighbour for values that tests do not distinguish", "anchors": ["pydarnio/borealis/borealis_convert.py: __convert_bfiq_record, __convert_rawacf_record, code_to_stid"]}
{"id": "C56", "title": "Borealis files can be written and read back", "statement": "Records written by BorealisSiteWrite to a new file are returned unchanged by BorealisSiteRead (names, fields, types, shapes, values), and arrays written by BorealisArrayWrite are returned unchanged by BorealisArrayRead. Violated for texts that end in NUL, for scalars in place of arrays (accepted by the writer, unreadable) and for pulse phase offsets whose shape is not that of the pulses (replaced by zeros).", "quantifier": "every format and version, every set of records or arrays the writer accepts", "why_tests_cant": "values, texts, shapes and record sets are unbounded; tests compare one file per format", "anchors": ["pydarnio/borealis/base_format.py: read_records, read_arrays, write_records, write_arrays", "pydarnio/borealis/borealis_site.py: BorealisSiteRead, BorealisSiteWrite", "pydarnio/borealis/borealis_array.py: BorealisArrayRead, BorealisArrayWrite"]}
{"id": "C57", "title": "A written Borealis file holds what was written and nothing else", "statement": "After a successful write the file holds exactly the records given, and after a failed write it is as it was before. Violated: files are opened for appending, so records of an existing file stay (and records of the same name raise), and a failing write leaves the part written so far.", "quantifier": "every prior content of the file and every data", "why_tests_cant": "depends on the prior state of the file system and on failures in the middle of a write", "anchors": ["pydarnio/borealis/base_format.py: write_records, write_arrays"]}
{"id": "C58", "title": "Writing with default arguments", "statement": "BorealisWrite and the writers of both structures, called without the optional arguments, write every data that passes the checks. Violated by arrays: the default compression 'zlib' is not the name of an h5py filter.", "quantifier": "every format, version and data that passes the checks", "why_tests_cant": "tests need h5py and data of each format", "anchors": ["pydarnio/borealis/borealis_array.py: BorealisArrayWrite.__init__", "pydarnio/borealis/base_format.py: write_arrays"]}
{"id": "C59", "title": "Every listed file type can be read and written", "statement": "For each of the file types that the readers and writers accept (bfiq, antennas_iq, rawacf, rawrf) there is data that can be written and read. Violated by rawrf, in all versions.", "quantifier": "every version and file type; for rawrf every data", "why_tests_cant": "a statement that no data at all is accepted quantifies over all files", "anchors": ["pydarnio/borealis/borealis_site.py: BorealisSiteRead, BorealisSiteWrite", "pydarnio/borealis/borealis_formats.py: BorealisRawrf"]}
{"id": "C60", "title": "Restructuring a file agrees with restructuring in memory", "statement": "BorealisRestructure writes the file whose content is what the property arrays (records) of a reader of the input file returns. Violated when the number of beams grows after the first record, and for equal record names.", "quantifier": "every file that can be read", "why_tests_cant": "two independent implementations (file and memory) over all record sets", "anchors": ["pydarnio/borealis/borealis_restructure.py: BorealisRestructure", "pydarnio/borealis/base_format.py: _site_to_array, _array_to_site, site_get_max_dims"]}
{"id": "C61", "title": "A SuperDARN file is accepted as one file type only", "statement": "Records that the reader (or writer) of one of the SuperDARN file types iqdat, rawacf, fitacf, grid, map, snd accepts are rejected by the readers and writers of the others. Violated for records without the main fields of the type.", "quantifier": "every pair of file types, every record and file", "why_tests_cant": "the format tables are compared for all records, present or absent fields in every combination", "anchors": ["pydarnio/dmap/superdarn.py: SDarnRead, SDarnWrite", "pydarnio/dmap/superdarn_formats.py"]}
{"id": "C62", "title": "A Borealis file is accepted as one file type only", "statement": "A file of records or arrays that is read as one of the Borealis file types is rejected when it is read as another, in both structures. Violated in v0.7, where antennas_iq and bfiq list the same fields.", "quantifier": "every file, version, pair of file types, structure", "why_tests_cant": "quantifies over all files of every version", "anchors": ["pydarnio/borealis/borealis_formats.py", "pydarnio/borealis/borealis_utilities.py: BorealisUtilities", "pydarnio/borealis/borealis.py: BorealisRead"]}
{"id": "C63", "title": "Records given to write_dmap_stream are what is written", "statement": "write_dmap_stream(records) gives the stream of these records, whatever was written before with the same object: the same bytes or exception as DmapWrite(records).write_dmap_stream(). Violated: an object that holds records ignores the argument.", "quantifier": "every writer object, argument and record list", "why_tests_cant": "quantifies over all states of the object and all records; the tests use a new object for each stream", "anchors": ["pydarnio/dmap/dmap.py:964-984 write_dmap_stream", "pydarnio/dmap/dmap.py: DmapWrite.__init__, __check_dmap_dict"]}
{"id": "C64", "title": "A DMAP stream is the concatenation of its records", "statement": "The stream of two lists of records together is the concatenation of their streams and exists exactly if both exist; the bytes of a record depend neither on its position nor on the other records; different records have different streams.", "quantifier": "every pair of record lists, every position", "why_tests_cant": "quantifies over all record lists; needed to append to files and to split them", "anchors": ["pydarnio/dmap/dmap.py:1010-1065 dmap_records_to_bytes, _dmap_record_to_bytes"]}
{"id": "C65", "title": "Arrays that were made from records do not change in further restructuring", "statement": "Arrays made from the records of a slice are made into records and these into exactly the same arrays again: fields, order, shapes, elements and padding, however often it is repeated. Violated by arrays with other padding.", "quantifier": "every version, restructureable file type, list of records with any dimensions, number of trips", "why_tests_cant": "ragged dimensions in all combinations and any number of trips", "anchors": ["pydarnio/borealis/base_format.py:1014-1232 _site_to_array, _array_to_site"]}
{"id": "C66", "title": "Conversion does not depend on the structure or the name of the file", "statement": "Converting the arrays made from records gives the same SuperDARN records (or exception) as converting the records; the order of the fields does not matter; the name of the input file is seen in combf only. A site file and the array file restructured from it are converted alike. Violated: no array file of bfiq v0.7 can be converted; phase offsets for each sequence are lost when a site file is converted and prevent the conversion of the array file.", "quantifier": "every version, file type, list of records, slice, scaling factor, file name", "why_tests_cant": "a statement on two runs for all records; the tests convert a few files of each structure and do not compare them", "anchors": ["pydarnio/borealis/borealis_convert.py: BorealisConvert", "pydarnio/borealis/borealis_array.py:165-194 records", "pydarnio/borealis/borealis_formats.py:2436-2491 BorealisBfiq"]}
{"id": "C67", "title": "Conversion works record by record", "statement": "Converting the records of two files together gives the SuperDARN records of the one followed by those of the other, is possible exactly if both conversions are, and the content of the written DMAP file is the concatenation of the two. Violated: the slice id (channel) of the first record is used for all, so records of several slices do not convert like they do apart.", "quantifier": "every list of records, file type, slice, scaling factor, output name", "why_tests_cant": "a statement on three runs for all pairs of lists of records; the tests convert whole files only", "anchors": ["pydarnio/borealis/borealis_convert.py:215-225", "pydarnio/borealis/borealis_convert.py:318-525", "pydarnio/borealis/borealis_convert.py:754-788", "pydarnio/dmap/superdarn.py:890-900"]}
{"id": "C68", "title": "A failing read identifies the record", "statement": "If read_records raises, the records kept in the reader are those of the longest part of the file that consists of whole blocks, the record number of the reader is their number, and an exception that names a record names the one after them. A second call raises again. The last part is violated: the cursor stays inside or behind the bad record, so a second call may return the records before it as if they were all.", "quantifier": "every byte string", "why_tests_cant": "all byte strings; the tests use a few corrupted files and look at the exception class only", "anchors": ["pydarnio/dmap/dmap.py:375-478 read_records, read_record", "pydarnio/dmap/dmap.py:228-310"]}
{"id": "C69", "title": "The objects describe what they hold", "statement": "The texts (repr, str) of all objects can be made and tell the right numbers of bytes and records; record_names are the sorted names of the records, in both structures. Violated: repr and str of BorealisWrite and BorealisArrayWrite always raise AttributeError, and the text of a DMAP writer tells one record less than were written.", "quantifier": "every file, list of records, class", "why_tests_cant": "the tests do not call repr or str, and look at record_names of single files", "anchors": ["pydarnio/dmap/dmap.py:189-213, 899-916", "pydarnio/borealis/borealis.py:148-213, 367-445", "pydarnio/borealis/borealis_site.py:151-175, 381-401", "pydarnio/borealis/borealis_array.py:140-163, 349-372", "pydarnio/borealis/borealis_restructure.py:135-151", "pydarnio/borealis/borealis_convert.py:243-259"]}
{"id": "C70", "title": "The text of an error tells what is wrong and where", "statement": "If reading a DMAP file fails with an exception of pyDARNio, its text tells the number of the record that failed, and the file, and the numbers in it are as it says: what it calls negative is negative, what it calls larger is larger. Texts leave no doubt: two failed checks of SuperDARN records, or of the Borealis file of a name, that have the same text are of the same class and name the same records, fields and types, whatever characters the names contain and in whatever order Python shows sets. Violated: a CursorError does not tell the file and gives a wrong position after the first record; the test for negative and zero sizes always tells record 0.", "quantifier": "every file content and name, every set of fields and records, any iteration order of sets", "why_tests_cant": "the tests check which exception is raised, not its text", "anchors": ["pydarnio/exceptions/dmap_exceptions.py:20-222", "pydarnio/exceptions/superdarn_exceptions.py:30-98", "pydarnio/exceptions/borealis_exceptions.py:31-433", "pydarnio/dmap/dmap.py:215-640", "pydarnio/borealis/borealis_utilities.py:160-514"]}
{"id": "C71", "title": "Reading takes a number of steps proportional to the size of the file", "statement": "read_records makes at most two steps for each byte and two more, and the test of integrity one for each byte, where steps are calls of read_data, bytes looked at in strings, and dimensions looked at; also if reading fails. Violated: an slist array with a negative dimension moves the cursor backwards, the same bytes are read over and over again, and the number of steps is of the order of the square of the number of bytes; it is never more.", "quantifier": "every byte string", "why_tests_cant": "all byte strings; tests of run time use a few files, none of which is made to be slow", "anchors": ["pydarnio/dmap/dmap.py:312-478", "pydarnio/dmap/dmap.py:480-722", "pydarnio/dmap/dmap.py:775-810"]}
{"id": "C72", "title": "What is read from a DMAP file is no larger than the file", "statement": "The fields of the records that read_records returns take, written as DMAP (name, type code, dimensions, values) and with 16 bytes for each record, no more bytes than the file has, and exactly as many if no record has two fields of the same name: no byte is read into two fields. The code violates this for an slist array with a negative dimension, which makes the reader go back and read bytes again.", "quantifier": "every byte string that read_records accepts", "why_tests_cant": "a test reads a few well-formed files; files that make the reader take bytes twice are exactly those nobody thinks of writing", "anchors": ["pydarnio/dmap/dmap.py: DmapRead.read_record, read_array, read_numerical_array"]}
{"id": "C73", "title": "Integers given for scalars are stored exactly or refused", "statement": "If a list of DMAP records is written, then every integer given as the value of a scalar, whatever its format, is the number that a reader returns for that field. Integers that the format cannot hold, and values of another kind for an integer format, make the write fail.", "quantifier": "for all lists of records, all scalars in them, all formats, all integers", "why_tests_cant": "The set of integers is unbounded and the rounding to single precision only shows for some of them from 2^24 on; tests use matching types and small values.", "anchors": ["pydarnio/dmap/dmap.py:1067-1112"]}
{"id": "C74", "title": "The arrays of a file that was read do not share memory", "statement": "np.frombuffer makes every array that read_records returns a writable view of the reader's bytearray. The views lie inside the bytearray and show the bytes of the file there, and no two arrays, of one record or of two, have a byte in common: whatever the caller writes into one array leaves all others as they were read. The code violates this for an slist array with a negative dimension, after which another array can be a view of the same bytes.", "quantifier": "every byte string that read_records accepts, every two arrays in it, everything written through one of them", "why_tests_cant": "a test changes one array of one file and looks at a few others; the overlap shows only for files that make the cursor go back", "anchors": ["pydarnio/dmap/dmap.py:171-183", "pydarnio/dmap/dmap.py:525-634", "pydarnio/dmap/dmap.py:775-810"]}
{"id": "C75", "title": "Restructured data shares no memory with the data it was made from", "statement": "_array_to_site and _site_to_array hand out no object of the caller's and no view of one: whatever is written into the records or arrays they return leaves the data they were made from as it was. Nor do two fields they return use the same memory, in one record or in two. The code violates the last for the shared fields: pulses is one array in all records, so writing into that of one record changes all of them.", "quantifier": "every version and type, all records and arrays for which the restructuring succeeds, every two fields returned", "why_tests_cant": "tests compare values and never write into what was returned; sharing is not seen by comparing", "anchors": ["pydarnio/borealis/base_format.py:1014-1142", "pydarnio/borealis/base_format.py:1145-1232", "pydarnio/borealis/borealis_formats.py:697-704", "pydarnio/borealis/borealis_formats.py:731-736"]}
{"id": "C76", "title": "A refused conversion names the record and the field at fault", "statement": "If a file cannot be converted because of its blanked samples or phase offsets, the text of the exception names the target format, the first record (in the order of the file) that is not convertible and the field at fault, and shows the values compared; blanked samples are looked at before phase offsets, and the records after the first bad one make no difference. Target, record and field can be read back from the text. The code violates this for exceptions within the conversion itself, whose text is only passed on and names no record, and no refusal names the file.", "quantifier": "all lists of records, every record name without spaces, both targets, every way of showing arrays", "why_tests_cant": "tests check the class of the exception for one bad record; that the first of any number of bad records is named, and that the text is unambiguous, is a statement about all files", "anchors": ["pydarnio/borealis/borealis_convert.py:338-523", "pydarnio/borealis/borealis_convert.py:754-786", "pydarnio/exceptions/borealis_exceptions.py:275-323"]}
{"id": "C77", "title": "A failed restructuring is reported as such and leaves nothing behind", "statement": "Whenever data or a file cannot be restructured, the exception is a BorealisRestructureError (as the docstrings say), and BorealisRestructure leaves no output file. In memory and from array to site the class of the exception is right. The code violates the rest: from site to array only TypeError is caught, so that KeyError, ValueError and others come through, and from array to site the records before the failing one stay in the output file.", "quantifier": "all records, arrays and HDF5 files of both structures, every version and type, every cause of failure", "why_tests_cant": "a test provokes one failure; the causes are any exception of any field of any record, and what is left depends on which record fails", "anchors": ["pydarnio/borealis/borealis_restructure.py:168-300", "pydarnio/borealis/borealis_restructure.py:302-452", "pydarnio/borealis/borealis_array.py:165-194", "pydarnio/borealis/borealis_site.py:185-217"]}
{"id": "C78", "title": "The text of a failed write tells record, field and file", "statement": "If writing DMAP records raises an exception of pyDARNio, its text tells the first record that cannot be written, the first field of it that cannot be written, and the file; two such failures with the same text are of the same record and field. Without records or a file name the text says so. Violated: the text of a DmapCharError and a DmapTypeError does not tell the file, that of a DmapTypeError and for an array of strings does not tell the field, and a DmapCharError shows the name of the field as a tuple.", "quantifier": "every list of records, every file name, every name of a field", "why_tests_cant": "the tests check which exception is raised, not its text", "anchors": ["pydarnio/exceptions/dmap_exceptions.py:53-77, 178-230", "pydarnio/dmap/dmap.py:964-1008, 1041-1054, 1097-1101, 1131-1137"]}
{"id": "C79", "title": "A refused argument is reported as such", "statement": "A type of file, a structure or a version that is not listed, a missing version, equal names of input and output, a type that is not converted and a missing number of the slice are refused by every Borealis class with the exception its docstring names; types, structures and equal names given to readers, writers and BorealisRestructure are refused before any file is looked at, whatever files there are, and no file is changed. The text tells the argument and the file, and both can be read from it. Violated: BorealisSiteWrite refuses an unknown type with an AttributeError and records without a version with a KeyError, BorealisRestructure an unknown version with a KeyError, and the texts about structures do not tell the file.", "quantifier": "every state of the file system, every name, type, structure and version given as text, all data", "why_tests_cant": "the tests try one wrong argument of some classes and do not look at the text; the classes that report it wrongly are those without a test", "anchors": ["pydarnio/borealis/borealis.py:124-146, 345-365", "pydarnio/borealis/borealis_site.py:111-149, 344-379", "pydarnio/borealis/borealis_array.py:108-138, 317-347", "pydarnio/borealis/borealis_restructure.py:106-133", "pydarnio/borealis/borealis_convert.py:199-241", "pydarnio/exceptions/borealis_exceptions.py:66-92, 263-275, 352-433"]}
{"id": "C80", "title": "The text of a failed restructuring tells file, format, direction and cause", "statement": "If restructuring in memory fails, or restructuring an array file to a site file fails, the text of the BorealisRestructureError tells the file, the name of the format, the direction and the exception that was the cause, that of the first step that failed; all of them can be read from the text if the name of the file has no colon. Formats of the same name are the same. From a site file to an array file this holds only of a TypeError; other exceptions come through without such a text.", "quantifier": "all records, arrays and files, every version and type, every file name, every text of the cause", "why_tests_cant": "the tests restructure a few good files; the texts of failures are never looked at", "anchors": ["pydarnio/borealis/borealis_site.py:185-217, 411-443", "pydarnio/borealis/borealis_array.py:165-194, 374-403", "pydarnio/borealis/borealis_restructure.py:168-188, 295-300, 448-452", "pydarnio/exceptions/borealis_exceptions.py:328-349", "pydarnio/borealis/borealis_formats.py:2625-2662"]}
{"id": "C81", "title": "A file and a stream of the same bytes are read in the same way", "statement": "DmapRead and SDarnRead raise FileNotFoundError exactly if there is no file of the given name, EmptyFileError with the name exactly if it has no bytes, and otherwise are readers of exactly its bytes, in the same state as readers of a stream of these bytes. Records written to a file are what a reader opened with its name returns. A written stream is never taken for a file name, nor a file name for a stream.", "quantifier": "all files, names and byte strings, all encodable (and conforming) records", "why_tests_cant": "the tests open a few files and one empty one; file and stream readers are not compared", "anchors": ["pydarnio/dmap/dmap.py:127-187", "pydarnio/dmap/superdarn.py:300-325", "pydarnio/exceptions/dmap_exceptions.py:37-51"]}
{"id": "C82", "title": "What is written can be read", "statement": "A stream that the DMAP writer writes without an error passes the integrity test, having one block per record of the size it tells, and can be read. The same holds for what the SuperDARN writers write.", "quantifier": "all lists of records; all file types", "why_tests_cant": "the tests read back a few complete records; no record without scalars or arrays is written", "anchors": ["pydarnio/dmap/dmap.py:405-475", "pydarnio/dmap/dmap.py:1024-1062", "pydarnio/dmap/superdarn.py:133-182"]}
{"id": "C83", "title": "Records of DMAP structures and of plain values are told apart", "statement": "DmapWrite writes records of DMAP structures as they are, and of records of plain values what dict2dmap makes of them. A list in which both kinds occur is refused, wherever they stand.", "quantifier": "all non-empty lists of records of any values", "why_tests_cant": "the kind is told from the first value of the first record; the tests give lists of one kind whose records are complete", "anchors": ["pydarnio/dmap/dmap.py:891-938", "pydarnio/utils/conversions.py:64-103"]}
{"id": "C84", "title": "What was read can be written and read again", "statement": "The records that the DMAP reader returns for a file are accepted by the DMAP writer, and what it writes is read as the same records. If the blocks bear the writer's identifier and no name twice, the new file is the old one byte for byte.", "quantifier": "all files the reader accepts", "why_tests_cant": "the tests write records of a few files and compare a handful of fields; no file with shared names, texts outside ASCII, large chars or empty arrays is among them", "anchors": ["pydarnio/dmap/dmap.py:405-475", "pydarnio/dmap/dmap.py:480-722", "pydarnio/dmap/dmap.py:1024-1180"]}
{"id": "C85", "title": "A SuperDARN file that was read can be written and read again", "statement": "The dictionaries that a read method of SDarnRead returns are accepted by the write method of SDarnWrite for the same type, and the file it writes is read as the same dictionaries. If the blocks bear the writer's identifier and no name twice, the new file is a copy of the old one.", "quantifier": "all files that the read method accepts, all six file types, all file names", "why_tests_cant": "the tests write a few records made by hand or read from sample files; which of the accepted files survive is a statement on all of them and on all fields of the tables", "anchors": ["pydarnio/dmap/superdarn.py:363-543", "pydarnio/dmap/superdarn.py:594-900", "pydarnio/utils/conversions.py:64-103"]}
{"id": "C86", "title": "A Borealis file that was read can be written and read again", "statement": "The records or arrays that a reader of Borealis files holds are accepted by the writer of the same structure and file type, and the new file is read with the same type, version, names and values; the old file is read as before.", "quantifier": "all site and array files that the readers accept, all versions and file types, all compressions h5py has, all file systems and paths", "why_tests_cant": "the tests write a few sample records; which of the accepted files survive the cycle is a statement on all texts, types and shapes a file can hold", "anchors": ["pydarnio/borealis/base_format.py:1234-1429", "pydarnio/borealis/borealis_site.py:84-275", "pydarnio/borealis/borealis_site.py:314-491", "pydarnio/borealis/borealis_array.py:82-252", "pydarnio/borealis/borealis_array.py:290-458", "pydarnio/borealis/borealis_utilities.py:620-640"]}
{"id": "C87", "title": "Arrays that share a shape list are written as arrays of their own", "statement": "Records given to DmapWrite in which several arrays hold the same shape list (a record listed twice, shallow copies of a record, an array put into several records) give the bytes of records in which every array has a list of its own with the same shape. The code violates this: writing an array of more than one dimension turns its list, so the next one is written with its dimensions in the wrong order.", "quantifier": "all lists of records and all ways in which their arrays share shape lists", "why_tests_cant": "aliasing: the effect depends on which objects are shared and on how often a list was used before; the tests write records with lists of their own", "anchors": ["pydarnio/dmap/dmap.py:1009-1065", "pydarnio/dmap/dmap.py:1114-1160", "pydarnio/dmap/datastructures.py:47-71"]}
{"id": "C88", "title": "A stream that was returned is not changed by later calls", "statement": "The bytearray that write_dmap_stream returned keeps the bytes it had then, whatever is called later: other writers, the same writer again, write_dmap. The code violates this: the stream is the writer's own buffer, so that every further call of the same writer makes all streams it returned before longer. Other writers leave it alone, and the bytes that were returned stay at its beginning.", "quantifier": "all programs that make any number of writers of both classes (DmapWrite, SDarnWrite) and call write_dmap_stream, write_dmap and the write methods of SDarnWrite in any order, successfully or not", "why_tests_cant": "aliasing between the result of a call and the state of the object: seen only by looking at an earlier result after later calls; the tests look at every result at once", "anchors": ["pydarnio/dmap/dmap.py:891-897", "pydarnio/dmap/dmap.py:944-983", "pydarnio/dmap/dmap.py:1061-1065", "pydarnio/dmap/superdarn.py:612-900"]}
{"id": "C89", "title": "Reading again gives the data of the file", "statement": "A second call of read_records (of SDarnRead: of any read method) gives what the first gave, also if the caller has changed arrays of the first result in the meantime. The code violates this: the arrays of all results are views of the reader's buffer, so a changed array is handed out again in place of that of the file. All other fields and records are given as before.", "quantifier": "all files that are read (without negative slist dimensions), all arrays of them, all bytes that are written into them, all methods and sequences of methods by which they are read again", "why_tests_cant": "aliasing between a result and the state of the reader: seen only by changing a result and reading again; the tests read every file once and do not change what they read", "anchors": ["pydarnio/dmap/dmap.py:171-185", "pydarnio/dmap/dmap.py:375-407", "pydarnio/dmap/dmap.py:800-810", "pydarnio/dmap/superdarn.py:415-543"]}
{"id": "C90", "title": "A writer writes the records it was given", "statement": "What a DmapWrite writes are the records it was given: appending to the list afterwards does not change it, and a writer made without records has none, whatever was done with other writers. The code violates this: the writer keeps the list itself unless its values are plain, so that records appended later are written as well; and the default arguments are one list for all calls, so that a record appended to the records of one writer is written by every later writer made without argument. A writer given plain values has a list of its own.", "quantifier": "all programs that make lists, append to them, make writers with or without them, write streams and append to the records of writers, in any order", "why_tests_cant": "aliasing between the list of the caller, the list of the writer and the default argument: depends on the history of the whole program; every test makes a list and a writer of its own", "anchors": ["pydarnio/dmap/dmap.py:857", "pydarnio/dmap/dmap.py:891-897", "pydarnio/dmap/dmap.py:918-938", "pydarnio/dmap/dmap.py:964-989"]}
{"id": "C91", "title": "A stream and the readers made from it do not influence each other", "statement": "What a DmapRead made from a stream reads are the bytes the stream had when the reader was made, whatever the caller does to the stream later and whatever other readers of the same stream do; and no reader, and nothing that is written into the arrays it gave, changes the stream of the caller.", "quantifier": "all programs that make streams, change them, make any number of readers of them, read, and write into the arrays that were read, in any order", "why_tests_cant": "aliasing between stream, readers and results: a statement on all programs with several objects; every test makes one reader of one stream and changes nothing", "anchors": ["pydarnio/dmap/dmap.py:165-187", "pydarnio/dmap/dmap.py:375-407", "pydarnio/dmap/dmap.py:800-810"]}
{"id": "C92", "title": "The integrity test does not change what is read", "statement": "After test_initial_data_integrity, whether it returned or raised, read_records of the same reader gives what it gives without the test; in particular it raises for a file that did not pass. The code violates this: a test that raises leaves the cursor inside the file, four or eight bytes behind the start of the block at which it stopped, and read_records goes on from there. A file with four bytes too many (or eight, of which the last four are no size) does not pass the test, and is then read as a file with no records, without an error; records before a header with a bad size are passed over.", "quantifier": "every non-empty byte string", "why_tests_cant": "the state an exception leaves behind for every way of being corrupted; the tests make a new reader for each call", "anchors": ["pydarnio/dmap/dmap.py:312-373", "pydarnio/dmap/dmap.py:375-407"]}
{"id": "C93", "title": "A writer writes the values it was given", "statement": "What a DmapWrite made from dictionaries of plain values or of DMAP structures writes are the values at the time it was made: changing the numbers in the arrays afterwards does not change it. The code violates this: the writer keeps the arrays themselves, so the numbers at the time of writing are written; the result is exactly that of a writer made at the time of writing.", "quantifier": "all lists of dictionaries of scalars and arrays (arrays occurring any number of times), all changes of the numbers in arrays between making the writer and writing", "why_tests_cant": "aliasing between the caller's arrays and the writer: the tests change nothing between the two calls", "anchors": ["pydarnio/utils/conversions.py:84-101", "pydarnio/dmap/dmap.py:891-897", "pydarnio/dmap/dmap.py:1139-1160"]}
