# Formal model of pyDARNio (Lean 4)

`/repo` is pyDARNio at the pinned commit. It was read as text and never run.
The model and the proofs are in `/verif/lean/Verif`. The properties are listed
in `properties.jsonl`, their status in `MANIFEST.json`.

## Layout

| File | Content |
|---|---|
| `Verif/Py/*.lean` | Python/NumPy primitives the code relies on: insertion-ordered dictionaries, little-endian `struct` packing, UTF-8, negative indexing, rounding of float64 to float32 (`Float.lean`), IEEE 754 arithmetic on rational values (`Ieee.lean`); `FloatIeee.lean` shows that the two agree, `IeeeNearest.lean` that rounding gives the nearest number, the even one of two |
| `Verif/Dmap/Model/*.lean` | model of `dmap/dmap.py`, `dmap/datastructures.py`, `utils/conversions.py`, function by function |
| `Verif/Dmap/Spec.lean`, `WriteSpec.lean` | small independent specification of the DMAP byte format, of "encodable record" and of what a reader must show; they do not use the model's functions |
| `Verif/Dmap/Programs.lean` | the short user programs the properties talk about (read a file, write a list, repeated calls) |
| `Verif/Dmap/Sample.lean` | concrete records and files for the non-vacuity examples |
| `Verif/Dmap/Lemmas/*.lean` | helper lemmas |
| `Verif/Dmap/Props/*.lean` | property theorems for the DMAP codec, each with a non-vacuity `example` |
| `Verif/SDarn/*` | the same layout for `dmap/superdarn.py` and the tables of `superdarn_formats.py` |
| `Verif/Borealis/*` | the same layout for `borealis/*.py` (checks, formats, restructuring, conversion) |

## Conventions

* A Python function that may raise becomes a function into `Except Err _`;
  one `Err` constructor per exception class, with the payload a caller can see
  where a property speaks about it.
* A method that mutates `self` becomes a function returning the new object.
  The reader keeps its cursor also when it raises, because later calls on the
  same object see it.
* Loops become structural recursion; the one data-driven `while` loop gets a
  fuel argument that is proved sufficient.
* `bytearray` = `List UInt8`; Python `str` = `List Char` (Unicode scalar
  values; lone surrogates are not modelled); `int` = `Int`.
* Cells of a NumPy array are kept as raw little-endian byte strings together
  with the dtype. Equality of arrays is bit equality.
* Floats are bit patterns (`f32`/`f64`); no float arithmetic is modelled except
  where stated. `struct` reads and writes single precision by way of `double`,
  which makes signalling NaNs quiet (`quiet32`); doubles are rounded to single
  precision by `f64ToF32`. Where arithmetic is modelled, `Verif/Py/Ieee.lean` defines the IEEE 754
  operations as the exact result over the rationals, rounded to nearest, ties to
  even, with overflow, infinities, NaN and signed zeros.

## Trusted base

* Lean 4.33.0 kernel; the axioms `propext`, `Classical.choice`, `Quot.sound`
  (nothing else; no axioms of our own, no `sorry`, no `native_decide`).
* That the Lean definitions say what the cited Python lines do. Every
  definition cites file and lines.
* The modelled behaviour of CPython `struct`, `bytearray`, `str.encode`,
  `dict`, and NumPy `frombuffer`, `reshape`, `flatten`, `tostring` (C order,
  little-endian machine). These are described next to their definitions in
  `Verif/Py`.
* Not modelled: the operating system and file system beyond "file content is
  replaced by these bytes"; logging; texts of exceptions other than those of
  C70, C76 and C78 to C81; the bytes of HDF5 files (a file is what h5py shows of it: attributes,
  datasets and groups); performance and memory limits.

## Plan per property

| Id | What is modelled and how it is proved |
|---|---|
| C01 | Writer and reader byte for byte. Round trip by induction on the field list, then on the record list. |
| C02 | Integrity loop on writer output, induction on the record list. |
| C03 | Reader loop with fuel; fuel = file length is proved enough because an accepted record moves the cursor by its positive block size. |
| C04 | Inversion of every reader step: accepted bytes equal the specification's encoding. |
| C05 | Uses C01's per-record lemma; the cut record fails its size check. |
| C06 | Induction over the records of the first stream. |
| C07 | Reader never inspects the identifier: two-run proof. |
| C08 | Error classification by going through every step; concrete witnesses for the undocumented exceptions. Partial by nature: the code violates the full claim. |
| C09 | Decision logic, one theorem per defect. |
| C10, C11 | Declarative tiling predicate; equivalence with the loop by induction on fuel. |
| C12, C29, C30 | Reader object as a state machine; induction over call sequences. |
| C13, C14, C15 | Counterexamples plus general negative theorems; positive part is C01's hypothesis. |
| C16, C17, C19 | Writer object as a state machine that carries the mutable shapes and the buffer. |
| C18, C20 | Writer with an abstract file system (name → bytes). |
| C21 | Row-major index function over arbitrary rank. |
| C22 | Two-run theorem from C04/C01. |
| C23–C26, C28 | Check functions over dictionaries; tables transcribed; table facts by `decide +kernel` over the whole table, lifted by lemmas. Fields left out: `SDarn/Props/Groups.lean`. |
| C27 | C01 plus C25. |
| C31–C33 | Conversion functions and tables. |
| C34, C35 | Check functions as decision logic. |
| C36, C37 | String splitting; whole-table checks. |
| C38–C41 | Ragged arrays as index functions with shape; padding/trimming. |
| C42–C46 | Conversion layout as list functions; index theorems by induction. Float scaling is an uninterpreted parameter. |
| C47, C48 | Decision logic of constructors and dispatchers. |
| C49 | Reader object as a state machine. |
| C51–C55 | Conversion, as C42–C46; C54 combines it with the SuperDARN writer and reader. `C55_date` is about timestamps from 2^20 to 2^33 seconds (until 2242); an edit of the upper bound of `utcTime` (year 10000) survived. |
| C56–C59 | HDF5 files as trees; writers and readers as functions on a file system; round trip by inversion of the writer. |
| C60 | The restructuring of files beside that in memory. |
| C63, C64 | Writer object as a state machine; induction over the records. |
| C65 | C38 and a two-run theorem: `_site_to_array` reads few fields of each record. |
| C66 | Two-run theorems on the conversion, with C38. |
| C67 | Induction on the records: checks, conversion, DMAP types and bytes of a concatenation. |
| C68 | Induction on the read loop; record numbers in exceptions by a safety predicate on the reader monad. |
| C69 | Texts as functions of the states of C03 and C68; tables of attributes of the classes. |
| C70 | The reader once more, with texts (`Model/Messages.lean`), shown to agree with the one without; texts that can be read back (`Py/Repr.lean`: `repr` of strings, sets and dictionaries); a table of all texts of the reader with what must hold of the numbers in them (`SpecSayings.lean`). |
| C71 | The reader once more, counting steps (`Model/Steps.lean`), shown to agree with the one without; steps are paid for by the bytes the cursor moves over. |
| C72 | Lengths of both sides of the encoding that C04 shows; setting a key of a dictionary never adds more than the new value. |
| C74 | The reader once more, giving with every array its place in the reader's `bytearray` (`Model/Views.lean`; erasing the places gives the reader). Between the positions before and after an array lie its bytes; so the places of later arrays come after. `Dmap/Props/Inside.lean` has the part without a condition on the file (`C74_inside`). |
| C75 | The restructuring once more, with the identity of the object that holds each value (`Borealis/Model/Memory.lean`; erasing the objects gives the restructuring). Deep copies keep what was one object one object; slices and reshaped arrays use the memory of what they were made from. |
| C76 | The conversion once more, with the texts of its errors (`Borealis/Model/ConvertMessages.lean`), shown to agree with the one without. How NumPy shows arrays, and the text of an exception within the conversion, are parameters. |
| C79 | The constructors once more, with texts (`Model/ArgumentMessages.lean`), shown to agree with those without; the words of the texts (`SpecArguments.lean`). |
| C81 | The constructors on a file system of names and bytes (`Dmap/Model/Open.lean`); then C01 and C27. |
| C82 | Partial. Induction on what the writer puts out gives the blocks; C09 gives the reader's answer to a record without scalars or arrays (`SDarn/Props/Readable.lean`). |
| C83 | Partial. Case split on the first value, then what can be written has no field of another kind (`Dmap/Props/InputKinds.lean`). |
| C84 | Partial. What a block was read as is encodable, so C01 and C04 apply (`Dmap/Props/Rewrite.lean`). The condition is exact, for many records since the size word tells the blocks apart (`Dmap/Props/RewriteMany.lean`). |
| C85 | Partial. The formats allow neither names outside ASCII nor 64-bit arrays, so C31 and C84 apply (`SDarn/Props/Rewrite.lean`); the condition is exact (`C85_iff`). |
| C86 | Partial. `Borealis/Props/Rewrite.lean`: what the readers return is kept by files (`readGroup_kept`) and has the phase offsets the readers make, so C56 applies; the conditions that remain are shown to be exact. With C48, the same when no structure is named. |
| C87 | Partial. `Dmap/Model/SharedShapes.lean` has the writer with a table of shape lists; `Dmap/Props/SharedShapes.lean` says how often each list was turned when it is used, `Dmap/Props/SharedLeft.lean` how the lists are left by a write that fails. |
| C88 | Partial. `Dmap/Model/Session.lean` has programs of calls of any number of writers, with the identity of their `bytearray`s; an invariant by induction over the calls (`Dmap/Props/Session.lean`). `SDarn/Model/Session.lean` and `SDarn/Props/Session.lean` add `SDarnWrite`. |
| C89 | Partial. `Dmap/Model/ReadAgain.lean` has the second call of `read_records` on changed memory, with the places of C74; `Dmap/Props/ReadAgain.lean` says what every key of its records gives. `SDarn/Model/ReadAgain.lean` and `SDarn/Props/ReadAgain.lean` have the same for all methods of `SDarnRead`. |
| C90 | Partial. `Dmap/Model/Lists.lean` has programs with the identity of lists of records and of the default arguments; invariants by induction over the calls (`Dmap/Props/Lists.lean`). `C90_agrees` shows that the writer there returns and leaves what that of `Writer.lean` does. |
| C91 | Proved. `Dmap/Model/Streams.lean` gives every `bytearray` a number; no two objects ever have the same one (`streams_run_apart`), from which the two directions follow: the stream stays as it is (`C91_stream`), a reader gives what one that is alone gives (`C91_read`, `C91_first`). What is assumed of Python: `bytearray(x)` is a new object. |
| C92 | Partial. `Dmap/Props/AfterTest.lean`: the loop of the test stops exactly where the blocks end (`integrityLoop_stuck`), from which the place of the cursor follows (`C92_left`); from there reading is as that of a file that begins there (`C92_after`, by the block encodings of C04). |
| C93 | Partial. `Dmap/Model/Arrays.lean` gives every array a number; `dict2dmap` keeps the number, writing looks the contents up. `C93_now`: as if made at the time of writing; `C93_exact`: two runs over the same kept records, compared byte for byte from the front. `C93_again` (`Dmap/Model/ArraysAgain.lean`): any number of calls, by induction over them. |
| C80 | Restructuring once more, with texts (`Model/RestructureMessages.lean`), shown to agree with the one without; the words and the names of the formats (`SpecRestructureMessages.lean`). |
| C78 | The writer once more, with texts (`Model/WriteMessages.lean`), shown to agree with the one without; a table of the texts (`SpecWriteMessages.lean`). |
| C77 | From the definitions of C60; what is left behind by induction over the records; the violations by files of every version. |
| C73 | The bytes of a mistyped scalar are those of the value it is stored as; then C01. Exactness from the IEEE lemmas. |
| C61, C62 | Comparison of whole format tables, lifted to all records and files. |
| C50 | Error classification of every step of the encoder; position by induction on the record list. |

## Disagreements between the code and the properties

Each is a theorem about the model (names in `MANIFEST.json`). None was
reproduced by running Python.

* C04: a signalling NaN in a float32 scalar is read as the quiet one, so two
  different files give the same records (`C04_nan_violation`).
* C07, C22: the size of an `slist` array with a negative dimension is computed
  from a slice of the whole buffer, so bytes that should not matter do.
* C08: `KeyError`, `IndexError`, `UnicodeDecodeError`, `struct.error`,
  `ValueError` and others escape from `read_records` on corrupt files.
  With every version of NumPy `OverflowError` does too, for an `slist` with
  negative dimensions whose product is below -2^63 (`C08_violation_overflow_slist`).
  An empty `slist` whose other dimensions multiply to 2^63 bytes or more is refused
  by NumPy with `ValueError`, though nothing is missing (`C08_violation_big_slist`).
* C13: characters outside 0..127 are not written as one byte (`chr(v).encode()`
  gives two bytes for 128 and above; negative values raise `ValueError`). The
  stream that results is shifted.
* C14: strings with NUL are cut when read. Of the UTF-8 bytes of a non-ASCII string and its NUL the
  writer keeps as many as the string has characters, plus one (`dmap.py:1083-1095`), so the NUL is lost.
* C15: the reader always returns scalars first; a record whose arrays precede
  scalars is written in its own order and misread.
* C16: writing reverses the `shape` list of every multi-dimensional array of
  the caller's records.
* C17: a second `write_dmap_stream` returns both streams, because the buffer is
  never cleared, and multi-dimensional shapes are reversed again.
* C19: after a failed write the bytes of the records before the failing one (and,
  after a header `struct.error`, part of a header) stay in the buffer.
* C24: `read_X` called again after a failure numbers records from where the
  first call stopped.
* C29: `read_X` after `read_records` or another `read_Y` returns the records
  those methods kept, unchecked.
* C30: a rejected record has been consumed; calling `read_X` again continues
  behind it. n bad records give n exceptions and then a list without them.
* C31: arrays of 64-bit integers read from a file have the dtype `longlong`,
  which `FORMAT_CONVERSION` lacks; converting back raises `KeyError`.
* C33: `dmap2dict` of a scalar of type `c` with value 128..255 raises
  `OverflowError` under NumPy 2 and wraps under NumPy 1 (`NpCfg.intWraps`).
  Python floats of 2^128 - 2^103 and more are written as infinite, without an
  exception (`C33_infinite_violation`); all others as the nearest float32
  (`C33_nearest`).
* C49: `SDarnRead.get_records` raises `AttributeError` unless a `read_X`
  succeeded before.
* C50: `struct.error`, `ValueError`, `TypeError`, `OverflowError` and
  `IndexError` escape from the writer.

* C34: a NumPy scalar is accepted where an array is required; a mistyped Python
  object gives `AttributeError`, a record with no fields gives
  `BorealisStructureError` from inside the check. Arrays of any `np.str_` type
  are accepted for a text field.
* C35: those exceptions escape from `check_records` instead of a list of bad
  records.
* C37: `pulse_phase_offset` is both shared and unshared in v0.6 and v0.7; the
  v0.7 bfiq format generates `data_descriptors` of another type than it lists.
* C38: bfiq v0.7 `data_descriptors` come back with another type; phase offsets
  per pulse (not per sequence and pulse) lose elements depending on the number
  of sequences and records; texts are cut to 256 characters.
* C39: a record without blanked samples among records with some makes the
  restructuring raise `ValueError` (the slice list drops zero dimensions).
* C40: two records with the same name (first timestamp in the same millisecond)
  become one; the last one stays. With float64 arithmetic: from November 2004 on
  the name is the number of milliseconds, and records that start more than a
  millisecond apart have different names (`C40_milliseconds`,
  `C40_apart_partial`); before, products like 1090216309.682 * 1000 are rounded
  to a lower number (`C40_early_name`).
* C41: if the first record has no phase offsets, the dimension is taken as zero
  for all and the restructuring raises. For files only the beams of the first
  record are counted.
* C44: the version bytes of a record without a version tag are -1 under NumPy 1
  (the write then raises `ValueError`) and an `OverflowError` under NumPy 2;
  `tfreq`, `txpl`, `mpinc`, `nave`, `nrang` and others are cast from uint32 to
  int16 without a check, so that 40000 becomes -25536.
* C45: `xcf` is set to 0 for rawacf records without cross correlations, but
  `xcfd` is then taken from a dictionary that does not have it: `KeyError`.
* C46: `borealis_major_revision == 0` compares a string with a number, so the
  branch for old versions is dead. An empty hash, a `v1` without a dot, a pulse
  length of zero and two-dimensional phase offsets raise exceptions other than
  the conversion error.
* C51: phase offsets per sequence and pulse are replaced by zeros on every read,
  so phase-coded bfiq files are converted.
* C52: `tsc` and `tus` take timestamps as milliseconds, `time.*` as seconds. With
  float64 arithmetic, `tsc` is earlier than the date of the header for every
  timestamp from 1970-01-13 to 2038 (`C52_float_violation`).
* C53: `'intf' in antenna_arrays_order` is never true in v0.7 (bytes).
* C55: `smsep = np.int16(1e6 / rx_sample_rate)` cuts off the fraction. For the
  float64 nearest to 1e6 / 7 the quotient is just below 7 and `smsep` is 6
  (`C55_separation_violation`; so for 14, 15, 28, 30, 49 and others, not for the
  usual 300). In the same way `intt.us` of an integration time of 3.1 s
  (a float32) is 99999. `tnoise` of iqdat has one value for each frequency
  (`noise_at_freq`), not one for each sequence.
* C48: a site file with `borealis_git_hash` at the root is only read when the
  structure is named. If both attempts fail, the error of the site reader
  (writer) is raised, so an array file that lacks a field is reported as
  `BorealisStructureError`, or `TypeError` for arrays of rawacf v0.5.
* C56: NULs at the end of texts are lost; a NumPy scalar for an array field is
  written but cannot be read; phase offsets of another shape than the pulses
  are zeros after reading (arrays: those of shape (2,)).
* C47: only equal names are refused, so a second name of the input file (`./in`
  for `in`) is not recognised: a site file restructured to it gets the arrays
  added, and `BorealisConvert` replaces the input file. `BorealisConvert` tests
  its arguments only after it has read the file.
* C60: restructuring a site file differs from the property `arrays` of a reader
  when a record has more beams than the first (`ValueError`); when records of
  v0.6 and v0.7 have phase offsets per pulse (`ValueError`) or per sequence and
  pulse (kept in the file, zeros in memory, since the reader replaces them);
  when the file has another attribute at the root (`KeyError`); when only some
  records have blanked samples (works for the file, fails in memory). Texts
  that are not ASCII are refused by the file path only. Restructuring an array
  file differs from the property `records` of a reader when two rows have the
  same time (the file path raises and leaves the records before; in memory the
  second replaces the first); when a text is stored as `h5py.Empty` (refused by
  the file path only); when records of v0.6 and v0.7 have phase offsets per
  sequence (kept in memory, zeros in the file, since the fix of the site readers
  is applied before writing).
* C57: files are opened with mode `a`: old records stay, equal names raise
  `ValueError`, a failing write (text that is not ASCII, unknown compression)
  leaves what was written so far.
* C58: the default compression `zlib` of `BorealisArrayWrite` is no h5py filter
  (h5py has `gzip`, `lzf`, `szip`): `ValueError` for all data.
* C59: rawrf has no tables before v0.7, so every record is rejected with
  `BorealisStructureError`; in v0.7 the tables raise `AttributeError`.
* C61: a group of fields that is absent as a whole counts as complete, so records
  without the main fields are accepted as two types (`ifmode` and `mplgexs`
  alone: rawacf and fitacf; the vectors of a grid alone: grid and map).
* C62: the v0.7 formats of bfiq and antennas_iq list the same fields with the same
  types (`borealis_formats.py`), so each is read as the other in both structures,
  with the same content. All other pairs differ in every version.
* C63: `write_dmap_stream(records)` takes its argument only if the object holds no
  records (`dmap.py:978-979`). A second call with other records writes the first
  ones again, after the bytes of the first call.
* C65: what an array file holds outside of the dimensions of a record is lost.
* C66: the format of bfiq v0.7 lists `data_descriptors` as bytes, but restructuring
  makes strings; so the records of an array file never pass the check, and the
  file cannot be converted, whatever it holds. A bfiq site file of v0.6 with phase
  offsets for each sequence and pulse is converted as if they were zero, since
  `pulse_phase_offset_site_fix` replaces them (C51); its restructured array file keeps
  them and `_is_convertible_to_iqdat` raises `ValueError` (C46).
* C67: `slice_id` is taken from the first record (`borealis_convert.py:215-217`) and
  becomes the `channel` of all DMAP records, whatever later records say.
* C68: after an exception the cursor of a reader is where reading stopped; the next
  `read_records` starts there. If a record declares too few bytes and is the last one,
  the second call returns the records before it without any exception.
* C69: `BorealisWrite` and `BorealisArrayWrite` take `self.current_record_name` in
  `__repr__` and `__str__` (`borealis.py:367-381`, `borealis_array.py:349-363`), which
  does not exist; the record number in the text of `DmapWrite` is the index of the last
  record, that of `DmapRead` the number of records.
* C70: the text of a `CursorError` has no file name (`dmap_exceptions.py:38-47`), and gives the
  size of the block as the position where the cursor should be, which is right for the first
  record only. `test_initial_data_integrity` raises with `self.rec_num`, which is 0, whichever
  block is bad. The texts of the exceptions of SuperDARN checks, `DmapTypeError` and
  `DmapCharError` have no file name either; `DmapCharError` shows the name of the field as a tuple
  (`dmap_exceptions.py:68`, a comma at the end of the line).
* C71: an `slist` array with a negative dimension moves the cursor backwards
  (`dmap.py:591-634, 806`), and the bytes before it are read again as the next array, as
  often as the header tells that there are arrays.  `againFile m` has `m + 46` bytes and takes
  at least `m (m - 1) / 2` steps, which for a megabyte is half a million million.
  Without such an array reading takes two steps for each byte.
* C73: an integer is written, without an exception, into a field of type float
  (2^24 + 1 becomes 2^24) or string (as its digits) (`C73_violation`).
* C72: for the same reason an accepted file can give records that are larger than it
  (`C72_violation`), and two arrays of a record can be views of the same bytes, so that
  writing into one changes the other (`C74_violation`).
* C75: `_array_to_site` puts the same array of `pulses` (and of every other shared field) into
  every record (`base_format.py:1195-1196`), and the deep copy in `flatten_site_arrays` keeps
  what was one object one object: writing into `pulses` of one record writes into that of all
  (`C75_violation`).  The arrays given are never written into (`C75_records_partial`).
* C76: an exception within the conversion is wrapped with its own text only
  (`borealis_convert.py:522-523, 785-786`): an unknown station gives "... due to the following
  error: 'xyz'", without the record (`C76_violation_cause`).  No text of a refusal has the name of
  the file (`C76_violation_file`).
* C78: `self.data_name = data_name,` (`dmap_exceptions.py:68`) makes a tuple of the name, so that the
  text reads "For field ('x',) at record number" (`C78_name_violation`).  `DmapTypeError` passes the
  name of the file to `format`, but the text has no place for it, and no `DmapCharError` is given it
  (`C78_file_violation`); a `DmapTypeError` and the text for arrays of strings have no name of a
  field (`C78_field_violation`).
* C77: `_site_to_array_restructure` catches only `TypeError` (`borealis_restructure.py:448`),
  so that records with different numbers of beams give `ValueError` and a missing field `KeyError`
  (`C77_to_array_violation`).  `_array_to_site_restructure` writes each record as it is made, and
  those before a failing one stay in the output file (`C77_left_violation`); exactly these stay
  (`C77_left`, `C77_left_written`).
* C79: `BorealisSiteWrite` raises `AttributeError` for an unknown file type, because the exception is
  made of `self.filename`, which is set two lines later (`borealis_site.py:347-351`,
  `C79_site_violation`), and `KeyError` for records without a version (`C79_no_version_violation`;
  the other classes raise `BorealisStructureError`).  `BorealisRestructure` raises `KeyError` for a
  version that is not listed (`C79_version_violation`).  The texts about an unknown structure and a
  missing slice number do not tell the file (`C79_structure_violation`).
* C81: any value of `data_stream` but `False` itself, such as 0 or `None`, makes the argument a stream
  (`dmap.py:167`, `is False`); a name is then refused with `TypeError`.  An empty file called
  "data stream" has the same text as an empty stream.
* C82: the writer writes a record without scalars or without arrays, which `read_record` refuses with
  `ZeroByteError` (`dmap.py:457-458`). The format tables do not say which fields are arrays, and a
  record without any field of a format passes the checks, so each SuperDARN writer writes `{}`, and
  a record with all its fields as scalars, to a file that passes the integrity test and cannot be
  read.
* C83: the kind of the records is taken from the first value of the first record
  (`dmap.py:930-938`). Plain records after an empty one are not converted, and refused with
  `DmapTypeError`; with the empty record last they are written.
* C84: not everything that is read can be written and read again. If a scalar and an array of a block
  share a name, the record has one field less, and what is written is refused with `ZeroByteError`.
  Names and strings outside ASCII are read, but cut when written (see C14). A char of 200 is read before NumPy 2 and written as two
  bytes. An empty `slist` of chars is read, while the writer fails with `IndexError`.
* C85: the same for SuperDARN files: a fitacf file with `é` in `algorithm`, or with `ifmode` both as a
  scalar and as an array, is accepted and written, and the file written is refused.
* C86: a Borealis file with a text outside ASCII in an attribute is read (the readers decode UTF-8) but what was
  read cannot be written (`np.bytes_` takes ASCII only, base_format.py:1386-1389, 1419-1422). A site file in which an
  array field is an attribute with a number is read, and written as a dataset without dimensions, which cannot be read.
* C87: `array.shape.reverse()` turns the caller's list. If two fields hold the same list (the same record
  twice in the list, `r.copy()`, one array in two records), the second is written with its dimensions in
  the wrong order (`C87_twice_violation`, `C87_read_violation`).
* C88: `write_dmap_stream` returns its buffer and not a copy (`dmap.py:983`), so that the next call of the same writer,
  also `write_dmap`, changes the stream that was returned before (`C88_violation`). A writer with records whose write
  succeeded once succeeds at every further call (`C88_again`). The `write_X` methods of `SDarnWrite`
  make the stream longer as well (`C88_darn_violation`).
* C89: an array that `read_records` gave is a writable view of the reader's buffer. If the caller changes it, a second call of
  `read_records` on the same reader gives the changed array and not that of the file (`C89_violation`).
  The methods of `SDarnRead` do the same (`C89_darn_violation`).
* C92: a failing `test_initial_data_integrity` leaves the cursor four or eight bytes behind the start of the block at which it
  stopped (`dmap.py:352-363`, not rewound as at 373). `read_records` of the same reader goes on from there: a file with four bytes
  too many fails the test and is then read as one without records, with no error (`C92_violation`, `C92_header_violation`); records
  before a header with a bad size are passed over and those behind it returned (`C92_skipped_violation`).
* C68, once more: after an exception with a negative `slist` dimension the cursor can be negative, and `bytearray` indices and
  `struct.unpack_from` (`dmap.py:690-722`) then count from the end. A second `read_records` can so return a record that is not in
  the file, read from its end on into its beginning (`C68_around_violation`; `C68_near`, `C68_across`, `C68_far` for the others).
* C93: `dict2dmap` keeps the caller's arrays, not copies (`conversions.py:88-94`), and their bytes are taken when writing
  (`dmap.py:1139`). Numbers changed between `DmapWrite(records)` and `write_dmap_stream()` are written as changed, in every record
  with that array (`C93_violation`, `C93_exact`, with DMAP structures `C93_dmap_exact`); a Python list is copied (line 87) and is not affected (not modelled).
* C90: a writer keeps the list of DMAP records it was given, not a copy (`dmap.py:934`), so that records appended to the list
  later are written too (`C90_list_violation`); with plain values it has a list of its own. The default arguments
  `dmap_records=[]` (`dmap.py:857`, `964`) are shared: after `DmapWrite().dmap_records.append(record)` every writer made
  without argument writes that record (`C90_default_violation`).
* C80: restructuring an array file, the text calls what is restructured "Records"
  (`borealis_restructure.py:297`), while the same failure in memory says "Arrays"; all texts have two
  spaces before "following error".  The text for formats that are not restructured in
  `borealis_restructure.py:185-188` says "from array to site" for both directions; it cannot come up,
  as `rawrf` is refused before.

Observations that are not violations: the SuperDARN checks accept a record in
which a whole group (even `types`) is absent (`C23_group_left_out`); a group of one field can
never be incomplete (`C23_field_left_out`); `ndarray.tostring()` was removed from recent NumPy versions, so the
writer needs an older one; Python floats are written as 32-bit floats.

## Not modelled in the DMAP part

* Aliasing between the caller's arrays and the writer's, apart from: the `shape` list, shared lists in C87, returned
  streams in C88 and C91, lists of records and default arguments in C90, and arrays in C93 (two arrays that
  are views of the same memory are two numbers whose contents change together).
* Floating point numbers given with format `s`, texts given with format `f`, and
  the rounding of NumPy integers beyond 2^53 given with format `f`
  (`Err.unmodelled`).
* `OSError` from `open`, bz2 streams, the `__main__` block, the wording of `__repr__`/`__str__` of the Borealis classes (only which
  numbers and names they tell).
* The texts of exceptions other than those of C70, C76 and C78 to C81, among them Python's own.

## Borealis part

`Model/Values.lean` has arrays with any number of dimensions (shape, flat data
in row-major order, dtype) and elements as integers, strings or opaque floating
point bit patterns. `Model/Checks.lean` is `borealis_utilities.py`,
`Model/Formats.lean` has the tables of `borealis_formats.py` for all versions,
`Model/Restructure.lean` is `_site_to_array`, `_array_to_site` and the reshape
and flatten functions of `base_format.py`. NumPy slice assignment is modelled
with its broadcasting rules and failures.

The name of a site record (`int(timestamp * 1000)` as text) is a parameter of
the model of the restructuring; the properties hold for every choice of it.
`Model/Times.lean` has the one of the code: `datetime.utcfromtimestamp`,
`total_seconds` and `strftime("%c")` of CPython with float64 arithmetic and the
Gregorian calendar, and the times of sequences. `SpecTimes.lean` says what the
nearest microsecond, a date and its text are. Timestamps that do not fit int32
as `tsc` or `tus` are outside the model, since NumPy versions differ.

`SpecShapes.lean` says which dimensions each field has, independently of the
tables and lambdas of the formats. `SiteRecords`, `OneSlice` and `FlatPpoOK`
are the hypotheses of C38 and C39. `SliceRecords` (`SpecRestructure.lean`) adds
what files need: `Lemmas/WrittenFiles.lean` and `Lemmas/WrittenArrays.lean` show
that such records and their arrays are written and read back, and
`Props/FileRoundTrip.lean` that they come back from a site file, restructured to
an array file, restructured to a site file (`C38_files_partial`).

`Model/Convert.lean` is `borealis_convert.py`: the convertibility checks, the
conversion of bfiq and rawacf records and of whole files to DMAP records.
Floating point operations (scaling, rounding, dates) are fields of `Ops`, over
which all theorems quantify (`Props/Times.lean` takes those of `Model/Times.lean`
for dates and times, `Props/Scale.lean` those of `Model/Scale.lean` for samples,
correlations and power, `Props/Header.lean` those of `Model/Header.lean` for
numbers in headers); results stored in integer types are bit vectors.
The clamping of samples to int16 is modelled bit by bit for float64.
`SpecConvert.lean` says where RST expects each sample, which header field says
what (`HeaderOf`), which blanked samples are allowed (`Blanked`) and what a
record needs to be converted (`Convertible`).

`Model/Scale.lean` has the arithmetic of NumPy on complex64 and complex128: the
division by a real number (`CFLOAT_divide`), products and square roots. In which
of the two precisions NumPy computes depends on its version and is a parameter;
`norm**2` is a function of the C library and assumed to be accurate
(`SquareOk`). `SpecScale.lean` says what number a bit pattern stands for and how
far a result may be from the exact one; `Verif/Py/IeeeError.lean` has the error
bounds of the operations. Samples that are not complex64 and normalization
factors that are not float64 are outside of this part of the model.

`Model/Header.lean` has the operations on single numbers of headers (`np.int16`
of a float, `np.floor`, `np.fmod`, Python's `round`, `astype`, comparisons with
zero) with the arithmetic of NumPy; `SpecHeader.lean` says which integer or
float32 each has to be. What NumPy gives for numbers that do not fit is a
parameter (a version that raises an exception for them, or for NaN, fails to
convert instead), and `intt.us` is proved for both precisions in which NumPy versions
compute it. It assumes the types that the formats list; Python's `float` in
place of `np.float32` is outside of this part of the model.

`Model/Hdf5.lean` is the part of `base_format.py` that reads and writes HDF5
files, with the part of h5py it uses: a file is a tree of depth two. The set of
compression filters and the width of string arrays are parameters (`H5Cfg`).
`Model/Objects.lean` has the constructors of the readers and writers
(`borealis_site.py`, `borealis_array.py`, `borealis.py`) over a file system in
which several paths may name one file.

`Model/FileRestructure.lean` is `borealis_restructure.py` with the functions
that find the dimensions of a file, `Model/ConvertObject.lean` the constructor
of `BorealisConvert`. `SpecRestructure.lean` says which files the theorems on
restructuring files cover (`PlainSite`).

Not modelled: groups within groups, `deepdish`, `np.datetime64`, memory layout,
dictionaries that hold both records and values.
