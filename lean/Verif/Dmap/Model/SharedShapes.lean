import Verif.Dmap.Programs
/-!
# Shape lists that several arrays share

A `DmapArray` is a named tuple (/repo/pydarnio/dmap/datastructures.py:47-71) that holds a reference to its shape list.  The
same list belongs to several fields if a record is listed twice, if a record is a copy (`dict(r)`, `r.copy()`) of another, or
if an array is put into several records.  Here the lists have numbers, and their contents are in a table.  Nothing else that
the writer is given is changed by it.
-/
namespace Verif

/-- The contents of the shape lists. -/
abbrev Shapes := Nat → List Int

/-- A field of a record: arrays with the number of their shape list; `a.shape` itself is not used. -/
inductive RefField
  | scalar (s : DmapScalar)
  | array (a : DmapArray) (id : Nat)
  | other
  deriving DecidableEq, Repr

/-- A record whose arrays refer to shape lists. -/
abbrev RefRec := List (PyStr × RefField)

/-- The field, if the lists have these contents. -/
def RefField.at (h : Shapes) : RefField → Field
  | .scalar s => .scalar s
  | .array a id => .array { a with shape := h id }
  | .other => .other

/-- The record, if the lists have these contents. -/
def recAt (h : Shapes) (r : RefRec) : Rec := r.map fun p => (p.1, p.2.at h)

/-- `dmap_array_to_bytes` (/repo/pydarnio/dmap/dmap.py:1114-1160): `array.shape.reverse()` changes the list itself. -/
def arrayToBytesR (rn : Nat) (h : Shapes) (a : DmapArray) (id : Nat) : Except Err Bytes × Shapes :=
  match arrayToBytes rn { a with shape := h id } with
  | (res, a') => (res, fun i => if i = id then a'.shape else h i)

/-- The field loop of `_dmap_record_to_bytes` (/repo/pydarnio/dmap/dmap.py:1041-1054). -/
def encodeFieldsR (rn : Nat) : Shapes → RefRec → Except Err Encoded × Shapes
  | h, [] => (.ok ⟨[], 0, 0⟩, h)
  | h, (_, .scalar s) :: r =>
    match scalarToBytes rn s with
    | .error e => (.error e, h)
    | .ok bs =>
      match encodeFieldsR rn h r with
      | (.error e, h') => (.error e, h')
      | (.ok enc, h') => (.ok ⟨bs ++ enc.data, enc.numScalars + 1, enc.numArrays⟩, h')
  | h, (_, .array a id) :: r =>
    match arrayToBytesR rn h a id with
    | (.error e, h') => (.error e, h')
    | (.ok bs, h1) =>
      match encodeFieldsR rn h1 r with
      | (.error e, h') => (.error e, h')
      | (.ok enc, h') => (.ok ⟨bs ++ enc.data, enc.numScalars, enc.numArrays + 1⟩, h')
  | h, (_, .other) :: _ => (.error (.dmapTypeError rn), h)

/-- `_dmap_record_to_bytes` (/repo/pydarnio/dmap/dmap.py:1024-1065). -/
def recordToBytesR (rn : Nat) (h : Shapes) (buf : Bytes) (r : RefRec) : Except Err Unit × Bytes × Shapes :=
  match encodeFieldsR rn h r with
  | (.error e, h') => (.error e, buf, h')
  | (.ok enc, h') =>
    match appendInts buf [encodingIdentifier, enc.data.length + 16, enc.numScalars, enc.numArrays] with
    | (.error e, buf') => (.error e, buf', h')
    | (.ok (), buf') => (.ok (), buf' ++ enc.data, h')

/-- `dmap_records_to_bytes` (/repo/pydarnio/dmap/dmap.py:1009-1022) from record `k` on. -/
def recordsToBytesR : Nat → Shapes → Bytes → List RefRec → Except Err Unit × Bytes × Shapes
  | _, h, buf, [] => (.ok (), buf, h)
  | k, h, buf, r :: rs =>
    match recordToBytesR k h buf r with
    | (.error e, buf', h') => (.error e, buf', h')
    | (.ok (), buf', h') => recordsToBytesR (k + 1) h' buf' rs

/-- `DmapWrite(rs).write_dmap_stream()` (/repo/pydarnio/dmap/dmap.py:857-892, 964-983) for one record or more of which no value is
plain: the result and the shape lists as they are left. -/
def writeShared (h : Shapes) (rs : List RefRec) : Except Err Bytes × Shapes :=
  match recordsToBytesR 0 h [] rs with
  | (.error e, _, h') => (.error e, h')
  | (.ok (), buf, h') => (.ok buf, h')

end Verif
