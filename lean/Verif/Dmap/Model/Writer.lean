import Verif.Dmap.Model.Conversions
import Verif.Py.Float
import Verif.Py.Ieee
import Verif.Py.Repr
/-!
# `DmapWrite`

Model of /repo/pydarnio/dmap/dmap.py:857-1160.  Encoding an array mutates its
`shape` list, so the encoders return the field as it is afterwards.  (Two
entries sharing one list object are not modelled: every field owns its shape.)
-/
namespace Verif

/-- `struct.pack('{n}s', bs)`: truncated or zero-padded to `n` bytes. -/
def packS (n : Nat) (bs : Bytes) : Bytes := bs.take n ++ List.replicate (n - bs.length) 0

/-- `"{0}\0".format(s)` packed with the *character* count of the string
(/repo/pydarnio/dmap/dmap.py:1083-1086, 1092-1095, 1140-1143). -/
def packStr (s : PyStr) : Bytes :=
  let t := s ++ [Char.ofNat 0]
  packS t.length (utf8Encode t)

/-- `chr(v).encode('utf-8')` (/repo/pydarnio/dmap/dmap.py:1089, 1101, 1146).  (For numbers that do not
fit a C `int`, `chr` of Python before 3.13 raises `OverflowError` instead of `ValueError`.) -/
def chrEncode (v : Int) : Except Err Bytes :=
  if v < 0 ∨ v ≥ 0x110000 then .error .valueError
  else if 0xD800 ≤ v ∧ v < 0xE000 then .error .unicodeEncodeError
  else .ok (utf8EncodeChar (Char.ofNat v.toNat))

/-- `struct.pack('c', chr(code).encode('utf-8'))`
(/repo/pydarnio/dmap/dmap.py:1088-1089, 1145-1146). -/
def typeByte (code : Int) : Except Err Bytes := do
  let bs ← chrEncode code
  if bs.length = 1 then .ok bs else .error .structError

/-- `struct.pack` of a signed `k`-byte integer. -/
def packSigned (k : Nat) (v : Int) : Except Err Bytes :=
  if signedOk k v then .ok (intLE k v) else .error .structError

/-- `struct.pack` of an unsigned `k`-byte integer. -/
def packUnsigned (k : Nat) (v : Int) : Except Err Bytes :=
  if 0 ≤ v ∧ v < (256 ^ k : Nat) then .ok (natLE k v.toNat) else .error .structError

/-- `float(v)` of an integer; none: `OverflowError`. -/
def intToF64 (v : Int) : Option (BitVec 64) :=
  match Ieee.b64.ofRat v with
  | .inf _ => none
  | x => some (BitVec.ofNat 64 (Ieee.b64.bits x))

/-- Value bytes of a scalar (/repo/pydarnio/dmap/dmap.py:1091-1107).  For `'s'` the value is formatted, so that an
integer is written as its digits.  For `'f'` the value is cast to `np.float32`, so that large numbers become
infinite, and back to `double` and `float` by `struct.pack`; an integer becomes a `double` first (NumPy integers
beyond 2^53 are rounded only once, which is not modelled).  `struct.pack` reports all failures as `struct.error`.
Not modelled: floating point numbers written with `'s'`, and texts written with `'f'`, which `np.float32` parses. -/
def scalarValueBytes (rn : Nat) (s : DmapScalar) : Except Err Bytes :=
  match s.fmt, s.value with
  | .s, .str t => .ok (packStr t)
  | .s, .int v => .ok (packStr (decText v))
  | .s, _ => .error .unmodelled
  | .c, .str _ => .error (.dmapCharError s.name rn)
  | .c, .int v => chrEncode v
  | .c, _ => .error .typeError
  | .f, .f32 b => .ok (natLE 4 (quiet32 b).toNat)
  | .f, .f64 b => .ok (natLE 4 (f64ToF32 b).toNat)
  | .f, .int v =>
    match intToF64 v with
    | none => .error .overflowError
    | some b => .ok (natLE 4 (f64ToF32 b).toNat)
  | .f, .str _ => .error .unmodelled
  | .d, .f64 b => .ok (natLE 8 b.toNat)
  | .d, .f32 b => .ok (natLE 8 (f32ToF64 b).toNat)
  | .d, .int v =>
    match intToF64 v with
    | none => .error .structError
    | some b => .ok (natLE 8 b.toNat)
  | .d, .str _ => .error .structError
  | .h, .int v => packSigned 2 v
  | .i, .int v => packSigned 4 v
  | .q, .int v => packSigned 8 v
  | .B, .int v => packUnsigned 1 v
  | .H, .int v => packUnsigned 2 v
  | .I, .int v => packUnsigned 4 v
  | .Q, .int v => packUnsigned 8 v
  | _, _ => .error .structError

/-- `dmap_scalar_to_bytes` (/repo/pydarnio/dmap/dmap.py:1067-1112). -/
def scalarToBytes (rn : Nat) (s : DmapScalar) : Except Err Bytes := do
  let tb ← typeByte s.dataType
  let vb ← scalarValueBytes rn s
  return packStr s.name ++ tb ++ vb

/-- `for size in shape: bytes += struct.pack('i', size)`
(/repo/pydarnio/dmap/dmap.py:1152-1153). -/
def packShape : List Int → Except Err Bytes
  | [] => .ok []
  | x :: xs => do
    let b ← packSigned 4 x
    let bs ← packShape xs
    return b ++ bs

/-- The two type checks at the start of `dmap_array_to_bytes`
(/repo/pydarnio/dmap/dmap.py:1131-1137); `array.value[0]` raises `IndexError` on an
empty or zero-dimensional array. -/
def arrayTypeCheck (rn : Nat) (a : DmapArray) : Except Err Unit :=
  match a.fmt with
  | .c =>
    match a.value.shape with
    | [] => .error .indexError
    | 0 :: _ => .error .indexError
    | [_] =>
      match a.value.dtype with
      | .other _ true => .error (.dmapCharError a.name rn)
      | _ => .ok ()
    | _ => .ok ()
  | .s => .error .dmapDataError
  | _ => .ok ()

/-- `dmap_array_to_bytes` (/repo/pydarnio/dmap/dmap.py:1114-1160): the bytes and the
array with its shape list as the call leaves it. -/
def arrayToBytes (rn : Nat) (a : DmapArray) : Except Err Bytes × DmapArray :=
  match arrayTypeCheck rn a with
  | .error e => (.error e, a)
  | .ok () =>
    match typeByte a.dataType with
    | .error e => (.error e, a)
    | .ok tb =>
      match packSigned 4 a.dimension with
      | .error e => (.error e, a)
      | .ok db =>
        let a' := if a.dimension > 1 then { a with shape := a.shape.reverse } else a
        match packShape a'.shape with
        | .error e => (.error e, a')
        | .ok sb => (.ok (packStr a.name ++ tb ++ db ++ sb ++ a.value.cells.flatten), a')

/-- Bytes, number of scalars and number of arrays of a record. -/
structure Encoded where
  data : Bytes
  numScalars : Nat
  numArrays : Nat
  deriving DecidableEq, Repr

/-- The field loop of `_dmap_record_to_bytes` (/repo/pydarnio/dmap/dmap.py:1041-1054):
fields are emitted in dictionary order. -/
def encodeFields (rn : Nat) : Rec → Except Err Encoded × Rec
  | [] => (.ok ⟨[], 0, 0⟩, [])
  | (k, .scalar s) :: r =>
    match scalarToBytes rn s with
    | .error e => (.error e, (k, .scalar s) :: r)
    | .ok bs =>
      match encodeFields rn r with
      | (.error e, r') => (.error e, (k, .scalar s) :: r')
      | (.ok enc, r') =>
        (.ok ⟨bs ++ enc.data, enc.numScalars + 1, enc.numArrays⟩, (k, .scalar s) :: r')
  | (k, .array a) :: r =>
    match arrayToBytes rn a with
    | (.error e, a') => (.error e, (k, .array a') :: r)
    | (.ok bs, a') =>
      match encodeFields rn r with
      | (.error e, r') => (.error e, (k, .array a') :: r')
      | (.ok enc, r') =>
        (.ok ⟨bs ++ enc.data, enc.numScalars, enc.numArrays + 1⟩, (k, .array a') :: r')
  | (k, .other) :: r => (.error (.dmapTypeError rn), (k, .other) :: r)

/-- `encoding_identifier` (/repo/pydarnio/dmap/dmap.py:1040). -/
def encodingIdentifier : Int := 65537

/-- Append one packed header integer to the buffer. -/
def appendInt (buf : Bytes) (v : Int) : Except Err Unit × Bytes :=
  match packSigned 4 v with
  | .error e => (.error e, buf)
  | .ok bs => (.ok (), buf ++ bs)

/-- Append the four header integers one after the other; `struct.error` in the
middle leaves the earlier ones in the buffer (/repo/pydarnio/dmap/dmap.py:1061-1064). -/
def appendInts (buf : Bytes) : List Int → Except Err Unit × Bytes
  | [] => (.ok (), buf)
  | v :: vs =>
    match appendInt buf v with
    | (.error e, buf) => (.error e, buf)
    | (.ok (), buf) => appendInts buf vs

/-- `_dmap_record_to_bytes` (/repo/pydarnio/dmap/dmap.py:1024-1065): new buffer and the
record as the call leaves it. -/
def recordToBytes (rn : Nat) (buf : Bytes) (r : Rec) : Except Err Unit × Bytes × Rec :=
  match encodeFields rn r with
  | (.error e, r') => (.error e, buf, r')
  | (.ok enc, r') =>
    match appendInts buf [encodingIdentifier, enc.data.length + 16, enc.numScalars, enc.numArrays]
    with
    | (.error e, buf') => (.error e, buf', r')
    | (.ok (), buf') => (.ok (), buf' ++ enc.data, r')

/-- A `DmapWrite` object (/repo/pydarnio/dmap/dmap.py:857-897).  `isList` says whether
`self.dmap_records` is a list: an empty `deque` is not equal to `[]`. -/
structure Writer where
  filename : PyStr
  isList : Bool
  recs : List Rec
  buf : Bytes
  recNum : Nat
  deriving DecidableEq, Repr

/-- Values in the dictionaries handed to a writer: DMAP structures or plain values. -/
inductive InVal
  | dmap (f : Field)
  | plain (v : PlainVal)
  deriving DecidableEq, Repr

/-- The record list handed to a writer. -/
structure WInput where
  isList : Bool
  recs : List (Dict PyStr InVal)
  deriving DecidableEq, Repr

/-- Keep DMAP structures; anything else is not a DMAP field. -/
def InVal.toField : InVal → Field
  | .dmap f => f
  | .plain _ => .other

/-- The list taken over unchanged. -/
def asDmapRecs (l : List (Dict PyStr InVal)) : List Rec :=
  l.map fun d => d.map fun p => (p.1, p.2.toField)

/-- Plain values for `dict2dmap`; a DMAP structure in their place has no entry in
`FORMAT_CONVERSION` (`KeyError`). -/
def asPlainRec : Dict PyStr InVal → Except Err PlainRec
  | [] => .ok []
  | (k, .plain v) :: d => do let d' ← asPlainRec d; return (k, v) :: d'
  | (_, .dmap _) :: _ => .error .keyError

/-- Plain records for `dict2dmap`. -/
def asPlainRecs : List (Dict PyStr InVal) → Except Err (List PlainRec)
  | [] => .ok []
  | d :: ds => do
    let d' ← asPlainRec d
    let ds' ← asPlainRecs ds
    return d' :: ds'

/-- `__check_dmap_dict` (/repo/pydarnio/dmap/dmap.py:918-938): only the first value of
the first record decides. -/
def checkDmapDict (inp : WInput) : Except Err (Bool × List Rec) :=
  match inp.recs with
  | [] => .ok (inp.isList, [])
  | [] :: _ => .ok (inp.isList, asDmapRecs inp.recs)
  | ((_, .dmap _) :: _) :: _ => .ok (inp.isList, asDmapRecs inp.recs)
  | ((_, .plain _) :: _) :: _ => do
    let ps ← asPlainRecs inp.recs
    let rs ← dict2dmap ps
    return (true, rs)

/-- `DmapWrite(dmap_records, filename)` (/repo/pydarnio/dmap/dmap.py:891-897). -/
def Writer.new (inp : WInput) (filename : PyStr) : Except Err Writer := do
  let (isList, recs) ← checkDmapDict inp
  return { filename := filename, isList := isList, recs := recs, buf := [], recNum := 0 }

/-- `self.dmap_records == []`. -/
def Writer.isEmptyList (w : Writer) : Bool := w.isList && w.recs.isEmpty

/-- `_empty_record_check` (/repo/pydarnio/dmap/dmap.py:985-989). -/
def Writer.emptyRecordCheck (w : Writer) : Except Err Unit :=
  if w.isEmptyList then .error .dmapDataError else .ok ()

/-- `_filename_check` (/repo/pydarnio/dmap/dmap.py:991-1008). -/
def Writer.filenameCheck (w : Writer) (filename : PyStr) : Except Err Unit × Writer :=
  if w.filename = [] ∧ filename = [] then (.error .filenameRequired, w)
  else if filename ≠ [] then (.ok (), { w with filename := filename })
  else (.ok (), w)

/-- The record loop of `dmap_records_to_bytes` (/repo/pydarnio/dmap/dmap.py:1020-1022)
from index `k` on: result, buffer, last record number, records as left behind. -/
def recordsToBytes : Nat → Nat → Bytes → List Rec → Except Err Unit × Bytes × Nat × List Rec
  | _, rn, buf, [] => (.ok (), buf, rn, [])
  | k, _, buf, r :: rs =>
    match recordToBytes k buf r with
    | (.error e, buf', r') => (.error e, buf', k, r' :: rs)
    | (.ok (), buf', r') =>
      match recordsToBytes (k + 1) k buf' rs with
      | (res, buf'', rn, rs') => (res, buf'', rn, r' :: rs')

/-- `dmap_records_to_bytes` (/repo/pydarnio/dmap/dmap.py:1010-1022). -/
def Writer.recordsToBytes (w : Writer) : Except Err Unit × Writer :=
  match Verif.recordsToBytes 0 w.recNum w.buf w.recs with
  | (res, buf, rn, rs) => (res, { w with buf := buf, recNum := rn, recs := rs })

/-- `write_dmap_stream(dmap_records)` (/repo/pydarnio/dmap/dmap.py:964-983). -/
def Writer.writeStream (w : Writer) (inp : WInput) : Except Err Bytes × Writer :=
  match (if w.isEmptyList then checkDmapDict inp else .ok (w.isList, w.recs)) with
  | .error e => (.error e, w)
  | .ok (isList, recs) =>
    let w := { w with isList := isList, recs := recs }
    match w.emptyRecordCheck with
    | .error e => (.error e, w)
    | .ok () =>
      match w.recordsToBytes with
      | (.error e, w) => (.error e, w)
      | (.ok (), w) => (.ok w.buf, w)

/-- The default argument `dmap_records=[]`. -/
def noRecords : WInput := ⟨true, []⟩

/-- File system: content per path.  `open(name, 'wb')` followed by `write` replaces the
content; `OSError` is not modelled. -/
def FileSys := PyStr → Option Bytes

/-- Replace the content of one file. -/
def FileSys.write (fs : FileSys) (name : PyStr) (bs : Bytes) : FileSys :=
  fun n => if n = name then some bs else fs n

/-- `write_dmap(filename)` (/repo/pydarnio/dmap/dmap.py:944-962). -/
def Writer.writeDmap (w : Writer) (fs : FileSys) (filename : PyStr) :
    Except Err Unit × Writer × FileSys :=
  match w.filenameCheck filename with
  | (.error e, w) => (.error e, w, fs)
  | (.ok (), w) =>
    match w.writeStream noRecords with
    | (.error e, w) => (.error e, w, fs)
    | (.ok _, w) => (.ok (), w, fs.write w.filename w.buf)

end Verif
