import Verif.Borealis.Model.Values
/-!
# The Borealis formats

Transcription of /repo/pydarnio/borealis/borealis_formats.py and of the class methods of
/repo/pydarnio/borealis/base_format.py:632-954.  Every format class is a value of `Format`; the
inheritance (`super()`, `update`, `pop`, `append`, `remove`) is done by the same operations on
the tables.  The functions in the dictionaries (dimensions, generated fields) are named by the
constructors of `DimA`, `DimS`, `GenA`, `GenS` and interpreted in `Restructure.lean`.
-/
namespace Verif.Bor

/-- `borealis_filetype`. -/
inductive FType
  | antennasIq | bfiq | rawacf | rawrf
  deriving DecidableEq, Repr

/-- `dict.update`. -/
def update {α : Type} (d e : Dict PyStr α) : Dict PyStr α := e.foldl (fun d p => d.set p.1 p.2) d

/-- `dict.pop` of a key that is there. -/
def pop {α : Type} (d : Dict PyStr α) (k : PyStr) : Dict PyStr α := d.filter fun p => p.1 ≠ k

/-- `d[k].extend(l)` / `d[k].append(x)`. -/
def extendAt {α : Type} (d : Dict PyStr (List α)) (k : PyStr) (l : List α) : Dict PyStr (List α) :=
  d.map fun p => if p.1 = k then (p.1, p.2 ++ l) else p

/-- A class `BorealisFields…`. -/
structure Fields where
  files : Dict PyStr (List FType)
  single : TyTable
  arrays : TyTable
  shared : List PyStr

namespace Fields

/-- `files_with_fields` (/repo/pydarnio/borealis/borealis_formats.py:73-125). -/
def files4 : Dict PyStr (List FType) :=
  [(py! "antenna_arrays_order", [.antennasIq, .bfiq]),
   (py! "beam_azms", [.antennasIq, .bfiq, .rawacf]),
   (py! "beam_nums", [.antennasIq, .bfiq, .rawacf]),
   (py! "blanked_samples", [.bfiq, .rawacf]),
   (py! "borealis_git_hash", [.antennasIq, .bfiq, .rawacf, .rawrf]),
   (py! "correlation_descriptors", [.rawacf]), (py! "correlation_dimensions", [.rawacf]),
   (py! "data", [.antennasIq, .bfiq, .rawrf]),
   (py! "data_descriptors", [.antennasIq, .bfiq, .rawrf]),
   (py! "data_dimensions", [.antennasIq, .bfiq, .rawrf]),
   (py! "data_normalization_factor", [.antennasIq, .bfiq, .rawacf]),
   (py! "experiment_id", [.antennasIq, .bfiq, .rawacf, .rawrf]),
   (py! "experiment_name", [.antennasIq, .bfiq, .rawacf, .rawrf]),
   (py! "experiment_comment", [.antennasIq, .bfiq, .rawacf, .rawrf]),
   (py! "first_range", [.bfiq, .rawacf]), (py! "first_range_rtt", [.bfiq, .rawacf]),
   (py! "freq", [.antennasIq, .bfiq, .rawacf]),
   (py! "int_time", [.antennasIq, .bfiq, .rawacf, .rawrf]), (py! "intf_acfs", [.rawacf]),
   (py! "intf_antenna_count", [.antennasIq, .bfiq, .rawacf, .rawrf]),
   (py! "lags", [.bfiq, .rawacf]), (py! "main_acfs", [.rawacf]),
   (py! "main_antenna_count", [.antennasIq, .bfiq, .rawacf, .rawrf]),
   (py! "noise_at_freq", [.antennasIq, .bfiq, .rawacf]),
   (py! "num_beams", [.antennasIq, .bfiq, .rawacf]), (py! "num_ranges", [.bfiq]),
   (py! "num_samps", [.antennasIq, .bfiq, .rawrf]),
   (py! "num_sequences", [.antennasIq, .bfiq, .rawacf, .rawrf]),
   (py! "num_slices", [.antennasIq, .bfiq, .rawacf, .rawrf]),
   (py! "pulse_phase_offset", [.antennasIq, .bfiq]),
   (py! "pulses", [.antennasIq, .bfiq, .rawacf]), (py! "range_sep", [.bfiq, .rawacf]),
   (py! "rx_center_freq", [.rawrf]),
   (py! "rx_sample_rate", [.antennasIq, .bfiq, .rawacf, .rawrf]),
   (py! "samples_data_type", [.antennasIq, .bfiq, .rawacf, .rawrf]),
   (py! "scan_start_marker", [.antennasIq, .bfiq, .rawacf, .rawrf]),
   (py! "slice_comment", [.antennasIq, .bfiq, .rawacf]),
   (py! "sqn_timestamps", [.antennasIq, .bfiq, .rawacf, .rawrf]),
   (py! "station", [.antennasIq, .bfiq, .rawacf, .rawrf]),
   (py! "tau_spacing", [.antennasIq, .bfiq, .rawacf]),
   (py! "tx_pulse_len", [.antennasIq, .bfiq, .rawacf]), (py! "xcfs", [.rawacf])]

/-- `all_single_element_types` (/repo/pydarnio/borealis/borealis_formats.py:128-192). -/
def single4 : TyTable :=
  [(py! "borealis_git_hash", .str), (py! "data_normalization_factor", .f64),
   (py! "experiment_comment", .str), (py! "experiment_id", .i64),
   (py! "experiment_name", .str), (py! "first_range", .f32), (py! "first_range_rtt", .f32),
   (py! "freq", .u32), (py! "int_time", .f32), (py! "intf_antenna_count", .u32),
   (py! "main_antenna_count", .u32), (py! "num_beams", .u32), (py! "num_ranges", .u32),
   (py! "num_samps", .u32), (py! "num_sequences", .i64), (py! "num_slices", .i64),
   (py! "range_sep", .f32), (py! "rx_center_freq", .f64), (py! "rx_sample_rate", .f64),
   (py! "samples_data_type", .str), (py! "scan_start_marker", .u8),
   (py! "slice_comment", .str), (py! "station", .str), (py! "tau_spacing", .u32),
   (py! "tx_pulse_len", .u32)]

/-- `all_array_types` (/repo/pydarnio/borealis/borealis_formats.py:195-248). -/
def arrays4 : TyTable :=
  [(py! "antenna_arrays_order", .npStr), (py! "beam_azms", .f64), (py! "beam_nums", .u32),
   (py! "blanked_samples", .u32), (py! "correlation_descriptors", .npStr),
   (py! "correlation_dimensions", .u32), (py! "data", .c64), (py! "data_descriptors", .npStr),
   (py! "data_dimensions", .u32), (py! "intf_acfs", .c64), (py! "lags", .u32),
   (py! "main_acfs", .c64), (py! "noise_at_freq", .f64), (py! "pulse_phase_offset", .f32),
   (py! "pulses", .u32), (py! "sqn_timestamps", .f64), (py! "xcfs", .c64)]

/-- `all_shared_fields` (/repo/pydarnio/borealis/borealis_formats.py:291-323). -/
def shared4 : List PyStr :=
  [py! "antenna_arrays_order", py! "blanked_samples", py! "borealis_git_hash",
   py! "data_normalization_factor", py! "experiment_comment", py! "experiment_id",
   py! "experiment_name", py! "first_range", py! "first_range_rtt", py! "freq",
   py! "intf_antenna_count", py! "lags", py! "main_antenna_count", py! "num_ranges",
   py! "num_samps", py! "pulse_phase_offset", py! "pulses", py! "range_sep",
   py! "rx_sample_rate", py! "samples_data_type", py! "slice_comment", py! "station",
   py! "tau_spacing", py! "tx_pulse_len"]

/-- `BorealisFieldsv0_4` (/repo/pydarnio/borealis/borealis_formats.py:62-343). -/
def v4 : Fields := ⟨files4, single4, arrays4, shared4⟩

/-- `BorealisFieldsv0_5` (/repo/pydarnio/borealis/borealis_formats.py:346-423). -/
def v5 : Fields where
  files := extendAt (update v4.files
    [(py! "averaging_method", [.rawacf]),
   (py! "num_blanked_samples", [.antennasIq, .bfiq, .rawacf]),
   (py! "scheduling_mode", [.antennasIq, .bfiq, .rawacf, .rawrf]),
   (py! "slice_id", [.antennasIq, .bfiq, .rawacf]),
   (py! "slice_interfacing", [.antennasIq, .bfiq, .rawacf])])
    (py! "blanked_samples") [.antennasIq, .rawrf]
  single := update v4.single
    [(py! "averaging_method", .str), (py! "num_blanked_samples", .u32),
   (py! "scheduling_mode", .str), (py! "slice_id", .u32), (py! "slice_interfacing", .str)]
  arrays := v4.arrays
  shared := (v4.shared ++ [py! "averaging_method", py! "scheduling_mode", py! "slice_id"]).erase (py! "blanked_samples")

/-- `BorealisFieldsv0_6` (/repo/pydarnio/borealis/borealis_formats.py:426-490). -/
def v6 : Fields where
  files := update v5.files
    [(py! "agc_status_word", [.antennasIq, .bfiq, .rawacf, .rawrf]),
   (py! "gps_locked", [.antennasIq, .bfiq, .rawacf, .rawrf]),
   (py! "gps_to_system_time_diff", [.antennasIq, .bfiq, .rawacf, .rawrf]),
   (py! "lp_status_word", [.antennasIq, .bfiq, .rawacf, .rawrf])]
  single := update v5.single
    [(py! "agc_status_word", .u32), (py! "experiment_id", .i16), (py! "gps_locked", .u8),
   (py! "gps_to_system_time_diff", .f64), (py! "lp_status_word", .u32)]
  arrays := v5.arrays
  shared := v5.shared

/-- `files_with_fields` (/repo/pydarnio/borealis/borealis_formats.py:500-522). -/
def files7 : Dict PyStr (List FType) :=
  let d := pop (pop v6.files (py! "correlation_descriptors")) (py! "correlation_dimensions")
  let d := extendAt d (py! "data_descriptors") [.rawacf]
  let d := extendAt d (py! "data_dimensions") [.rawacf]
  let d := extendAt d (py! "first_range") [.antennasIq]
  let d := extendAt d (py! "first_range_rtt") [.antennasIq]
  let d := extendAt d (py! "lags") [.antennasIq]
  let d := extendAt d (py! "num_ranges") [.antennasIq]
  let d := extendAt d (py! "range_sep") [.antennasIq]
  d.set (py! "tx_antenna_phases") [.antennasIq, .bfiq, .rawacf, .rawrf]

/-- `BorealisFields` (/repo/pydarnio/borealis/borealis_formats.py:493-590). -/
def v7 : Fields where
  files := files7
  single := update v6.single
    [(py! "gps_locked", .npBool), (py! "scan_start_marker", .npBool)]
  arrays := pop (pop (update v6.arrays
    [(py! "antenna_arrays_order", .npBytes), (py! "data_descriptors", .npBytes),
   (py! "tx_antenna_phases", .c64)])
    (py! "correlation_dimensions")) (py! "correlation_descriptors")
  shared := v6.shared

/-- `relevant_fields` (/repo/pydarnio/borealis/borealis_formats.py:266, 286, 341). -/
def relevant (f : Fields) (t : FType) : List PyStr := Dict.keys (f.files.filter fun p => t ∈ p.2)

/-- `single_element_types(file_type)` (/repo/pydarnio/borealis/borealis_formats.py:251-268). -/
def singleOf (f : Fields) (t : FType) : TyTable := f.single.filter fun p => p.1 ∈ f.relevant t

/-- `array_types(file_type)` (/repo/pydarnio/borealis/borealis_formats.py:271-288). -/
def arraysOf (f : Fields) (t : FType) : TyTable := f.arrays.filter fun p => p.1 ∈ f.relevant t

/-- `shared_fields(file_type)` (/repo/pydarnio/borealis/borealis_formats.py:326-343). -/
def sharedOf (f : Fields) (t : FType) : List PyStr := f.shared.filter fun k => k ∈ f.relevant t

end Fields

/-- A function of `unshared_fields_dims_array`: a dimension computed from the records. -/
inductive DimA
  /-- `find_max_sequences` (/repo/pydarnio/borealis/base_format.py:1436-1461). -/
  | maxSeqs
  /-- `find_max_beams` (/repo/pydarnio/borealis/base_format.py:1464-1489). -/
  | maxBeams
  /-- `find_max_field_len_func(field)` (/repo/pydarnio/borealis/base_format.py:1492-1535). -/
  | maxLen (f : PyStr)
  /-- `find_max_pulse_phase_offset` (/repo/pydarnio/borealis/base_format.py:1538-1572). -/
  | maxPpo
  /-- `records[first_key][f][i]`: `find_num_ranges`, `find_num_lags`, `find_num_antenna_arrays`,
  `find_num_antennas`, `find_num_samps` (/repo/pydarnio/borealis/borealis_formats.py:622-667,
  947-994, 1254-1301, 2238-2283). -/
  | firstElem (f : PyStr) (i : Nat)
  /-- `records[first_key][f].shape[i]`: `find_num_antennas_site`
  (/repo/pydarnio/borealis/borealis_formats.py:571-590). -/
  | firstShape (f : PyStr) (i : Nat)
  deriving DecidableEq, Repr

/-- A function of `unshared_fields_dims_site`: a dimension of one record computed from the arrays. -/
inductive DimS
  /-- `lambda arrays, record_num: arrays[f][record_num]`. -/
  | elem (f : PyStr)
  /-- `lambda arrays, record_num: arrays[f].shape[i]`. -/
  | shape (f : PyStr) (i : Nat)
  /-- `lambda arrays, record_num: len(arrays[f][record_num])`. -/
  | lenElem (f : PyStr)
  /-- The function of `pulse_phase_offset`
  (/repo/pydarnio/borealis/borealis_formats.py:2102-2107). -/
  | ppo
  deriving DecidableEq, Repr

/-- A function of `array_specific_fields_generate`. -/
inductive GenA
  /-- `np.array([len(record[f]) for key, record in records.items()], dtype=np.uint32)`. -/
  | lens (f : PyStr)
  /-- `np.array([...])` or `np.bytes_([...])` of fixed strings. -/
  | const (t : Ty) (l : List PyStr)
  deriving DecidableEq, Repr

/-- A function of `site_specific_fields_generate`. -/
inductive GenS
  /-- `np.array([...])` or `np.bytes_([...])` of fixed strings. -/
  | const (t : Ty) (l : List PyStr)
  /-- `np.array([...], dtype=np.uint32)` of dimensions. -/
  | dims (l : List DimS)
  deriving DecidableEq, Repr

/-- A format class. -/
structure Format where
  restructureable : Bool
  single : TyTable
  arrays : TyTable
  shared : List PyStr
  dimsArray : Dict PyStr (List DimA)
  dimsSite : Dict PyStr (List DimS)
  genArray : Dict PyStr GenA
  genSite : Dict PyStr GenS
  /-- The fields that `reshape_site_arrays` reshapes and the field with the dimensions. -/
  reshape : Option (PyStr × List PyStr)
  /-- The fields that `flatten_site_arrays` flattens. -/
  flatten : List PyStr
  /-- `unshared_fields_dims_array()` raises `AttributeError`. -/
  broken : Bool

namespace Format

/-- The dimensions of the correlations, and of `BorealisRawacfv0_4.unshared_fields_dims_array`
(/repo/pydarnio/borealis/borealis_formats.py:822-841).  `df` is the field that `find_num_ranges`
and `find_num_lags` of the class look into. -/
def rawacfDimsArray (df : PyStr) : Dict PyStr (List DimA) :=
  [(py! "num_sequences", []), (py! "int_time", []), (py! "sqn_timestamps", [.maxSeqs]),
   (py! "noise_at_freq", [.maxSeqs]),
   (py! "main_acfs", [.maxBeams, .firstElem df 1, .firstElem df 2]),
   (py! "intf_acfs", [.maxBeams, .firstElem df 1, .firstElem df 2]),
   (py! "xcfs", [.maxBeams, .firstElem df 1, .firstElem df 2]),
   (py! "scan_start_marker", []), (py! "beam_nums", [.maxBeams]), (py! "beam_azms", [.maxBeams]),
   (py! "num_slices", [])]

/-- `BorealisRawacfv0_4.unshared_fields_dims_site`
(/repo/pydarnio/borealis/borealis_formats.py:844-879). -/
def rawacfDimsSite : Dict PyStr (List DimS) :=
  let acf : List DimS := [.elem (py! "num_beams"), .shape (py! "main_acfs") 2, .shape (py! "main_acfs") 3]
  [(py! "num_sequences", []), (py! "int_time", []),
   (py! "sqn_timestamps", [.elem (py! "num_sequences")]),
   (py! "noise_at_freq", [.elem (py! "num_sequences")]),
   (py! "main_acfs", acf), (py! "intf_acfs", acf), (py! "xcfs", acf),
   (py! "scan_start_marker", []), (py! "beam_nums", [.elem (py! "num_beams")]),
   (py! "beam_azms", [.elem (py! "num_beams")]), (py! "num_slices", [])]

/-- `BorealisRawacfv0_4` (/repo/pydarnio/borealis/borealis_formats.py:593-914). -/
def rawacf4 : Format where
  restructureable := true
  single := Fields.v4.singleOf .rawacf
  arrays := Fields.v4.arraysOf .rawacf
  shared := Fields.v4.sharedOf .rawacf
  dimsArray := rawacfDimsArray (py! "correlation_dimensions")
  dimsSite := rawacfDimsSite
  genArray :=
    [(py! "num_beams", .lens (py! "beam_nums")),
     (py! "correlation_descriptors",
       .const .npStr [py! "num_records", py! "max_num_beams", py! "num_ranges", py! "num_lags"])]
  genSite :=
    [(py! "correlation_descriptors", .const .npStr [py! "num_beams", py! "num_ranges", py! "num_lags"]),
     (py! "correlation_dimensions",
       .dims [.elem (py! "num_beams"), .shape (py! "main_acfs") 2, .shape (py! "main_acfs") 3])]
  reshape := some (py! "correlation_dimensions", [py! "main_acfs", py! "intf_acfs", py! "xcfs"])
  flatten := [py! "main_acfs", py! "intf_acfs", py! "xcfs"]
  broken := false

/-- `BorealisBfiqv0_4` (/repo/pydarnio/borealis/borealis_formats.py:917-1222). -/
def bfiq4 : Format where
  restructureable := true
  single := Fields.v4.singleOf .bfiq
  arrays := Fields.v4.arraysOf .bfiq
  shared := Fields.v4.sharedOf .bfiq
  dimsArray :=
    [(py! "num_sequences", []), (py! "int_time", []), (py! "sqn_timestamps", [.maxSeqs]),
     (py! "noise_at_freq", [.maxSeqs]),
     (py! "data", [.firstElem (py! "data_dimensions") 0, .maxSeqs, .maxBeams,
       .firstElem (py! "data_dimensions") 3]),
     (py! "scan_start_marker", []), (py! "beam_nums", [.maxBeams]), (py! "beam_azms", [.maxBeams]),
     (py! "num_slices", [])]
  dimsSite :=
    [(py! "num_sequences", []), (py! "int_time", []),
     (py! "sqn_timestamps", [.elem (py! "num_sequences")]),
     (py! "noise_at_freq", [.elem (py! "num_sequences")]),
     (py! "data", [.shape (py! "data") 1, .elem (py! "num_sequences"), .elem (py! "num_beams"),
       .shape (py! "data") 4]),
     (py! "scan_start_marker", []), (py! "beam_nums", [.elem (py! "num_beams")]),
     (py! "beam_azms", [.elem (py! "num_beams")]), (py! "num_slices", [])]
  genArray :=
    [(py! "num_beams", .lens (py! "beam_nums")),
     (py! "data_descriptors",
       .const .npStr [py! "num_records", py! "num_antenna_arrays", py! "max_num_sequences",
         py! "max_num_beams", py! "num_samps"])]
  genSite :=
    [(py! "data_descriptors",
       .const .npStr [py! "num_antenna_arrays", py! "num_sequences", py! "num_beams", py! "num_samps"]),
     (py! "data_dimensions",
       .dims [.shape (py! "data") 1, .elem (py! "num_sequences"), .elem (py! "num_beams"),
         .shape (py! "data") 4])]
  reshape := some (py! "data_dimensions", [py! "data"])
  flatten := [py! "data"]
  broken := false

/-- `BorealisAntennasIqv0_4` (/repo/pydarnio/borealis/borealis_formats.py:1225-1526). -/
def antennasIq4 : Format where
  restructureable := true
  single := Fields.v4.singleOf .antennasIq
  arrays := Fields.v4.arraysOf .antennasIq
  shared := Fields.v4.sharedOf .antennasIq
  dimsArray :=
    [(py! "num_sequences", []), (py! "int_time", []), (py! "sqn_timestamps", [.maxSeqs]),
     (py! "noise_at_freq", [.maxSeqs]),
     (py! "data", [.firstElem (py! "data_dimensions") 0, .maxSeqs,
       .firstElem (py! "data_dimensions") 2]),
     (py! "scan_start_marker", []), (py! "beam_nums", [.maxBeams]), (py! "beam_azms", [.maxBeams]),
     (py! "num_slices", [])]
  dimsSite :=
    [(py! "num_sequences", []), (py! "int_time", []),
     (py! "sqn_timestamps", [.elem (py! "num_sequences")]),
     (py! "noise_at_freq", [.elem (py! "num_sequences")]),
     (py! "data", [.shape (py! "data") 1, .elem (py! "num_sequences"), .shape (py! "data") 3]),
     (py! "scan_start_marker", []), (py! "beam_nums", [.elem (py! "num_beams")]),
     (py! "beam_azms", [.elem (py! "num_beams")]), (py! "num_slices", [])]
  genArray :=
    [(py! "num_beams", .lens (py! "beam_nums")),
     (py! "data_descriptors",
       .const .npStr [py! "num_records", py! "num_antennas", py! "max_num_sequences", py! "num_samps"])]
  genSite :=
    [(py! "data_descriptors",
       .const .npStr [py! "num_antennas", py! "num_sequences", py! "num_samps"]),
     (py! "data_dimensions",
       .dims [.shape (py! "data") 1, .elem (py! "num_sequences"), .shape (py! "data") 3])]
  reshape := some (py! "data_dimensions", [py! "data"])
  flatten := [py! "data"]
  broken := false

/-- `BorealisRawrfv0_4` (/repo/pydarnio/borealis/borealis_formats.py:1529-1686); the methods it
does not define are those of `BaseFormat` (/repo/pydarnio/borealis/base_format.py:293-470). -/
def rawrf4 : Format where
  restructureable := false
  single := Fields.v4.singleOf .rawrf
  arrays := Fields.v4.arraysOf .rawrf
  shared := []
  dimsArray := []
  dimsSite := []
  genArray := []
  genSite := []
  reshape := some (py! "data_dimensions", [py! "data"])
  flatten := [py! "data"]
  broken := false

/-- The class attribute `fields` of a derived class. -/
def withFields (f : Format) (fs : Fields) (t : FType) : Format :=
  { f with
    single := fs.singleOf t
    arrays := fs.arraysOf t
    shared := fs.sharedOf t }

/-- What the v0.5 classes add (/repo/pydarnio/borealis/borealis_formats.py:1719-1764, 1808-1853,
1896-1940).  `si` is the entry of `slice_interfacing` in `unshared_fields_dims_site`. -/
def add5 (f : Format) (si : List DimS) : Format :=
  { f with
    dimsArray := update f.dimsArray
      [(py! "blanked_samples", [.maxLen (py! "blanked_samples")]), (py! "slice_interfacing", [])]
    dimsSite := update f.dimsSite
      [(py! "blanked_samples", [.elem (py! "num_blanked_samples")]), (py! "slice_interfacing", si)]
    genArray := update f.genArray [(py! "num_blanked_samples", .lens (py! "blanked_samples"))] }

/-- `BorealisRawacfv0_5` (/repo/pydarnio/borealis/borealis_formats.py:1689-1775). -/
def rawacf5 : Format :=
  (rawacf4.add5 [.lenElem (py! "slice_interfacing")]).withFields Fields.v5 .rawacf

/-- `BorealisBfiqv0_5` (/repo/pydarnio/borealis/borealis_formats.py:1778-1864). -/
def bfiq5 : Format :=
  (bfiq4.add5 [.lenElem (py! "slice_interfacing")]).withFields Fields.v5 .bfiq

/-- `BorealisAntennasIqv0_5` (/repo/pydarnio/borealis/borealis_formats.py:1867-1951). -/
def antennasIq5 : Format := (antennasIq4.add5 []).withFields Fields.v5 .antennasIq

/-- `BorealisRawrfv0_5` (/repo/pydarnio/borealis/borealis_formats.py:1954-1972): `shared_fields`
stays that of `BaseFormat`. -/
def rawrf5 : Format := { rawrf4.withFields Fields.v5 .rawrf with shared := [] }

/-- What the v0.6 classes add (/repo/pydarnio/borealis/borealis_formats.py:2004-2036, 2070-2109,
2143-2182).  `ppo`: whether `pulse_phase_offset` is one of them. -/
def add6 (f : Format) (ppo : Bool) : Format :=
  { f with
    dimsArray := update f.dimsArray
      ([(py! "agc_status_word", []), (py! "lp_status_word", []), (py! "gps_locked", []),
        (py! "gps_to_system_time_diff", [])] ++
        if ppo then [(py! "pulse_phase_offset", [.maxPpo])] else [])
    dimsSite := update f.dimsSite
      ([(py! "agc_status_word", []), (py! "lp_status_word", []), (py! "gps_locked", []),
        (py! "gps_to_system_time_diff", [])] ++
        if ppo then [(py! "pulse_phase_offset", [.ppo])] else []) }

/-- `BorealisRawacfv0_6` (/repo/pydarnio/borealis/borealis_formats.py:1975-2036). -/
def rawacf6 : Format := (rawacf5.add6 false).withFields Fields.v6 .rawacf

/-- `BorealisBfiqv0_6` (/repo/pydarnio/borealis/borealis_formats.py:2039-2109). -/
def bfiq6 : Format := (bfiq5.add6 true).withFields Fields.v6 .bfiq

/-- `BorealisAntennasIqv0_6` (/repo/pydarnio/borealis/borealis_formats.py:2112-2182). -/
def antennasIq6 : Format := (antennasIq5.add6 true).withFields Fields.v6 .antennasIq

/-- `BorealisRawrfv0_6` (/repo/pydarnio/borealis/borealis_formats.py:2185-2205). -/
def rawrf6 : Format := { rawrf5.withFields Fields.v6 .rawrf with shared := [] }

/-- `BorealisRawacf` (/repo/pydarnio/borealis/borealis_formats.py:2210-2433). -/
def rawacf7 : Format :=
  let f := rawacf6.withFields Fields.v7 .rawacf
  { f with
    dimsArray := update (update f.dimsArray (rawacfDimsArray (py! "data_dimensions")))
      [(py! "tx_antenna_phases", [.firstShape (py! "tx_antenna_phases") 0])]
    dimsSite := update f.dimsSite [(py! "tx_antenna_phases", [.shape (py! "tx_antenna_phases") 1])]
    genArray := pop f.genArray (py! "correlation_descriptors") ++
      [(py! "data_descriptors",
        .const .npBytes [py! "num_records", py! "max_num_beams", py! "num_ranges", py! "num_lags"])]
    genSite :=
      [(py! "data_dimensions",
         .dims [.elem (py! "num_beams"), .shape (py! "main_acfs") 2, .shape (py! "main_acfs") 3]),
       (py! "data_descriptors", .const .npBytes [py! "num_beams", py! "num_ranges", py! "num_lags"])]
    reshape := none
    flatten := [] }

/-- `BorealisBfiq` (/repo/pydarnio/borealis/borealis_formats.py:2436-2491). -/
def bfiq7 : Format :=
  let f := bfiq6.withFields Fields.v7 .bfiq
  { f with
    dimsArray := update f.dimsArray
      [(py! "tx_antenna_phases", [.firstShape (py! "tx_antenna_phases") 0])]
    dimsSite := update f.dimsSite [(py! "tx_antenna_phases", [.shape (py! "tx_antenna_phases") 1])] }

/-- `BorealisAntennasIq` (/repo/pydarnio/borealis/borealis_formats.py:2494-2569). -/
def antennasIq7 : Format :=
  let f := antennasIq6.withFields Fields.v7 .antennasIq
  { f with
    dimsArray := update f.dimsArray
      [(py! "tx_antenna_phases", [.firstElem (py! "data_dimensions") 0])]
    dimsSite := update f.dimsSite [(py! "tx_antenna_phases", [.shape (py! "data") 1])]
    genSite :=
      [(py! "data_descriptors",
         .const .npBytes [py! "num_antennas", py! "num_sequences", py! "num_samps"]),
       (py! "data_dimensions",
         .dims [.shape (py! "data") 1, .elem (py! "num_sequences"), .shape (py! "data") 3])] }

/-- `BorealisRawrf` (/repo/pydarnio/borealis/borealis_formats.py:2571-2621): its
`unshared_fields_dims_array` evaluates `cls.find_num_antennas`, which neither it nor a base class
defines. -/
def rawrf7 : Format := { rawrf6.withFields Fields.v7 .rawrf with shared := [], broken := true }

/-! ## Methods of `BaseFormat` -/

/-- `unshared_fields()` (/repo/pydarnio/borealis/base_format.py:633-655). -/
def unshared (f : Format) : List PyStr := f.dimsArray.keys

/-- `array_specific_fields()` (/repo/pydarnio/borealis/base_format.py:658-680). -/
def arraySpecific (f : Format) : List PyStr := f.genArray.keys

/-- `site_specific_fields()` (/repo/pydarnio/borealis/base_format.py:683-705). -/
def siteSpecific (f : Format) : List PyStr := f.genSite.keys

/-- `site_fields()` (/repo/pydarnio/borealis/base_format.py:708-732). -/
def siteFields (f : Format) : List PyStr := f.shared ++ f.unshared ++ f.siteSpecific

/-- `array_fields()` (/repo/pydarnio/borealis/base_format.py:735-759). -/
def arrayFields (f : Format) : List PyStr := f.shared ++ f.unshared ++ f.arraySpecific

/-- `{k: table[k] for k in ks}`, of the names that the table has. -/
def select (t : TyTable) (ks : List PyStr) : TyTable :=
  Dict.ofList (ks.filterMap fun k => (t.get? k).map fun ty => (k, ty))

/-- `site_single_element_types()` (/repo/pydarnio/borealis/base_format.py:762-795). -/
def siteSingleTypes (f : Format) : TyTable := select f.single f.siteFields

/-- `site_array_dtypes()` (/repo/pydarnio/borealis/base_format.py:798-833). -/
def siteArrayTypes (f : Format) : TyTable := select f.arrays f.siteFields

/-- `array_single_element_types()` (/repo/pydarnio/borealis/base_format.py:836-884). -/
def arraySingleTypes (f : Format) : TyTable :=
  select f.single (f.arrayFields.filter fun k => k ∈ f.shared)

/-- `array_array_dtypes()` (/repo/pydarnio/borealis/base_format.py:887-954). -/
def arrayArrayTypes (f : Format) : TyTable :=
  update (select f.arrays f.arrayFields)
    (select f.single (f.arrayFields.filter fun k => k ∈ f.unshared ∨ k ∈ f.arraySpecific))

end Format

/-- The versions of `borealis_version_dict`. -/
inductive Version
  | v02 | v03 | v04 | v05 | v06 | v07
  deriving DecidableEq, Repr

/-- The keys of `borealis_version_dict`. -/
def Version.name : Version → PyStr
  | .v02 => py! "v0.2"
  | .v03 => py! "v0.3"
  | .v04 => py! "v0.4"
  | .v05 => py! "v0.5"
  | .v06 => py! "v0.6"
  | .v07 => py! "v0.7"

/-- All versions. -/
def Version.all : List Version := [.v02, .v03, .v04, .v05, .v06, .v07]

/-- `borealis_version_dict` (/repo/pydarnio/borealis/borealis_formats.py:2625-2662). -/
def formatOf : Version → FType → Format
  | .v02, .bfiq | .v03, .bfiq | .v04, .bfiq => .bfiq4
  | .v02, .rawacf | .v03, .rawacf | .v04, .rawacf => .rawacf4
  | .v02, .antennasIq | .v03, .antennasIq | .v04, .antennasIq => .antennasIq4
  | .v02, .rawrf | .v03, .rawrf | .v04, .rawrf => .rawrf4
  | .v05, .bfiq => .bfiq5
  | .v05, .rawacf => .rawacf5
  | .v05, .antennasIq => .antennasIq5
  | .v05, .rawrf => .rawrf5
  | .v06, .bfiq => .bfiq6
  | .v06, .rawacf => .rawacf6
  | .v06, .antennasIq => .antennasIq6
  | .v06, .rawrf => .rawrf6
  | .v07, .bfiq => .bfiq7
  | .v07, .rawacf => .rawacf7
  | .v07, .antennasIq => .antennasIq7
  | .v07, .rawrf => .rawrf7

/-- `version in borealis_version_dict`. -/
def lookupVersion (v : PyStr) : Option Version := Version.all.find? fun w => w.name = v

/-- `s.split(sep)` for a one-character separator. -/
def pySplit (sep : Char) : PyStr → List PyStr
  | [] => [[]]
  | c :: s =>
    if c = sep then [] :: pySplit sep s
    else
      match pySplit sep s with
      | [] => [[c]]
      | w :: ws => (c :: w) :: ws

/-- `sep.join(l)` for a one-character separator. -/
def pyJoin (sep : Char) : List PyStr → PyStr
  | [] => []
  | [w] => w
  | w :: ws => w ++ sep :: pyJoin sep ws

/-- The version in a `borealis_git_hash`: `hash.split('-')[0]`, then
`'.'.join(version.split('.')[:2])` (/repo/pydarnio/borealis/borealis_utilities.py:614-615,
borealis_site.py:128-129, 358-360, borealis_array.py:119-120, 330-331). -/
def versionOf (hash : PyStr) : PyStr :=
  pyJoin '.' ((pySplit '.' ((pySplit '-' hash).headD [])).take 2)

end Verif.Bor
