import Verif.Py.Struct
import Verif.Py.Dict
import Verif.Py.Float
/-!
# DMAP data types, data structures and exceptions
-/
namespace Verif

/-- Format characters of the DMAP data types; `dmap` is the empty format `''`
(/repo/pydarnio/dmap/dmap.py:67-78). -/
inductive Fmt
  | dmap | c | h | i | f | d | s | q | B | H | I | Q
  deriving DecidableEq, Repr

/-- `DMAP_DATA_TYPES`: type code ↦ (format, byte size)
(/repo/pydarnio/dmap/dmap.py:48-78). -/
def dmapDataTypes : List (Nat × (Fmt × Nat)) :=
  [(0, (.dmap, 0)), (1, (.c, 1)), (2, (.h, 2)), (3, (.i, 4)), (4, (.f, 4)), (8, (.d, 8)),
   (9, (.s, 1)), (10, (.q, 8)), (16, (.B, 1)), (17, (.H, 2)), (18, (.I, 4)), (19, (.Q, 8))]

/-- Byte size that `struct` uses for a format character on a little-endian LP64
machine (native sizes; the formats are always packed one at a time, so there is
no padding).  `'s'` without a count is one byte. -/
def Fmt.size : Fmt → Nat
  | .dmap => 0 | .c => 1 | .h => 2 | .i => 4 | .f => 4 | .d => 8 | .s => 1
  | .q => 8 | .B => 1 | .H => 2 | .I => 4 | .Q => 8

/-- NumPy scalar type classes (`value.dtype.type`).  On LP64 platforms the
dtype characters `'q'`/`'Q'` denote `np.longlong`/`np.ulonglong`, which are
*different classes* from `np.int64`/`np.uint64` although the dtypes compare
equal.  `other` stands for every further dtype (bool, complex, str_, ...), with
its item size and whether its elements are `str`. -/
inductive DType
  | int8 | int16 | int32 | int64 | longlong
  | uint8 | uint16 | uint32 | uint64 | ulonglong
  | float32 | float64
  | other (itemsize : Nat) (isStr : Bool)
  deriving DecidableEq, Repr

/-- `dtype.itemsize`. -/
def DType.size : DType → Nat
  | .int8 => 1 | .int16 => 2 | .int32 => 4 | .int64 => 8 | .longlong => 8
  | .uint8 => 1 | .uint16 => 2 | .uint32 => 4 | .uint64 => 8 | .ulonglong => 8
  | .float32 => 4 | .float64 => 8
  | .other n _ => n

/-- Values of DMAP scalars.  `f32 b` is the Python float whose value is the
single-precision number with bit pattern `b` (what `struct.unpack('f')`
returns), or an `np.float32` with this bit pattern; `f64 b` the float with
double-precision bit pattern `b`.  (So a single-precision value that is not a
signalling NaN has two names, `f32 b` and `f64 (f32ToF64 b)`, see
`Verif/Py/Float.lean`; the reader uses the first for type `'f'`, the second for
type `'d'`.  An `np.float32` may be a signalling NaN, a Python float with a
single-precision value is none: the cast to `double` makes it quiet.) -/
inductive PyVal
  | int (v : Int)
  | f32 (b : BitVec 32)
  | f64 (b : BitVec 64)
  | str (s : PyStr)
  deriving DecidableEq, Repr

/-- A NumPy array: dtype, shape and the raw bytes of its cells in C order. -/
structure NdArr where
  dtype : DType
  shape : List Nat
  cells : List Bytes
  deriving DecidableEq, Repr

/-- `DmapScalar` (/repo/pydarnio/dmap/datastructures.py, namedtuple
`name value data_type data_type_fmt`). -/
structure DmapScalar where
  name : PyStr
  value : PyVal
  dataType : Int
  fmt : Fmt
  deriving DecidableEq, Repr

/-- `DmapArray` (/repo/pydarnio/dmap/datastructures.py, namedtuple
`name value data_type data_type_fmt dimension shape`).  `shape` is a Python
list object which the writer mutates. -/
structure DmapArray where
  name : PyStr
  value : NdArr
  dataType : Int
  fmt : Fmt
  dimension : Int
  shape : List Int
  deriving DecidableEq, Repr

/-- Values of a DMAP record dictionary; `other` is anything that is neither a
`DmapScalar` nor a `DmapArray`. -/
inductive Field
  | scalar (s : DmapScalar)
  | array (a : DmapArray)
  | other
  deriving DecidableEq, Repr

/-- The `data_type_fmt` attribute of a field. -/
def Field.fmt? : Field → Option Fmt
  | .scalar s => some s.fmt
  | .array a => some a.fmt
  | .other => none

/-- A DMAP record: `OrderedDict` from names to `DmapScalar`/`DmapArray`. -/
abbrev Rec := Dict PyStr Field

/-- Exceptions.  Record numbers and field sets are kept where the exception
object carries them and a property refers to them; message texts are not
modelled. -/
inductive Err
  /- DMAP exceptions, /repo/pydarnio/exceptions/dmap_exceptions.py -/
  | emptyFile
  | cursorError
  | zeroByte (recNum : Nat)
  | negativeByte (recNum : Nat)
  | mismatchByte (recNum : Nat)
  | dmapDataType (name : PyStr) (code : Nat) (recNum : Nat)
  | dmapDataError
  | dmapTypeError (recNum : Nat)
  | dmapCharError (name : PyStr) (recNum : Nat)
  | filenameRequired
  /- SuperDARN exceptions, /repo/pydarnio/exceptions/superdarn_exceptions.py -/
  | sdFieldMissing (recNum : Nat) (fields : List PyStr)
  | sdExtraField (recNum : Nat) (fields : List PyStr)
  | sdDataFormatType (fields : List (PyStr × Fmt)) (recNum : Nat)
  /- Python exceptions that escape -/
  | indexError
  | keyError
  | typeError
  | attributeError
  | valueError
  | overflowError
  | structError
  | unicodeDecodeError
  | unicodeEncodeError
  /-- Behaviour that is outside the model (see the place that returns it). -/
  | unmodelled
  /-- Fuel of a modelled loop exhausted; proved unreachable. -/
  | diverged
  deriving DecidableEq, Repr

deriving instance DecidableEq for Except

/-- NumPy version-dependent behaviour: the maximum number of array dimensions
(32 in NumPy 1.x, 64 in NumPy 2.x) and whether `np.int8(200)` wraps around
(NumPy 1.x) or raises `OverflowError` (NumPy 2.x). -/
structure NpCfg where
  maxDims : Nat
  intWraps : Bool
  deriving DecidableEq, Repr

/-- NumPy 1.x. -/
def numpy1 : NpCfg := ⟨32, true⟩
/-- NumPy 2.x. -/
def numpy2 : NpCfg := ⟨64, false⟩

end Verif
