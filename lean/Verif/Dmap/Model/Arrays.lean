import Verif.Dmap.Model.Writer
/-!
# The arrays of the caller as objects

`dict2dmap` puts the array of the caller itself into the `DmapArray` (/repo/pydarnio/utils/conversions.py:88-94) and
`DmapWrite` keeps the result (/repo/pydarnio/dmap/dmap.py:894), while its bytes are taken when a record is written
(/repo/pydarnio/dmap/dmap.py:1139, 1154).  Here every array has a number and a table has its contents.  Simplified: only arrays,
no lists (`np.array(value)` makes a new array of a list, line 87), and only the first `write_dmap_stream` of a writer (further ones
are in `ArraysAgain.lean`).  `heldWriter` is for dictionaries of plain values of which the first is not empty; with DMAP structures
(/repo/pydarnio/dmap/dmap.py:932-934) the kept records are those of the caller.
-/
namespace Verif

/-- The contents of all arrays. -/
abbrev ArrTable := Nat → NdArr

/-- A value in a dictionary of the caller: a scalar or an array, by its number. -/
inductive HeldVal
  | scalar (ty : PyTy) (v : PyVal)
  | arr (id : Nat)
  deriving DecidableEq, Repr

/-- A dictionary of the caller. -/
abbrev HeldRec := Dict PyStr HeldVal

/-- A `DmapScalar`, or a `DmapArray` whose `value` is the array with this number
(/repo/pydarnio/utils/conversions.py:93-94, 100). -/
inductive HeldField
  | scalar (s : DmapScalar)
  | array (id : Nat) (name : PyStr) (dataType : Int) (fmt : Fmt) (dimension : Int) (shape : List Int)
  deriving DecidableEq, Repr

/-- One field of `dict2dmap` (/repo/pydarnio/utils/conversions.py:84-101): type and shape are looked up now, the array is kept. -/
def heldField (t : ArrTable) (name : PyStr) : HeldVal → Except Err HeldField
  | .arr id =>
    match formatConversion (.np (t id).dtype) with
    | none => .error .keyError
    | some fmt =>
      match dmapFormatTypes fmt with
      | none => .error .keyError
      | some code => .ok (.array id name code fmt (t id).shape.length ((t id).shape.map Int.ofNat))
  | .scalar ty v =>
    match formatConversion ty with
    | none => .error .keyError
    | some fmt =>
      match dmapFormatTypes fmt with
      | none => .error .keyError
      | some code => .ok (.scalar { name := name, value := v, dataType := code, fmt := fmt })

/-- One record of `dict2dmap` (/repo/pydarnio/utils/conversions.py:83-102). -/
def heldRec (t : ArrTable) : HeldRec → Except Err (Dict PyStr HeldField)
  | [] => .ok []
  | (k, v) :: d => do
    let f ← heldField t k v
    let r ← heldRec t d
    return (k, f) :: r

/-- `DmapWrite(dmap_records)` for dictionaries of plain values (/repo/pydarnio/dmap/dmap.py:891-897, 918-938 and
/repo/pydarnio/utils/conversions.py:81-103): the records it keeps. -/
def heldWriter (t : ArrTable) : List HeldRec → Except Err (List (Dict PyStr HeldField))
  | [] => .ok []
  | d :: ds => do
    let r ← heldRec t d
    let rs ← heldWriter t ds
    return r :: rs

/-- A kept field with what its array contains now (`array.value`, /repo/pydarnio/dmap/dmap.py:1139). -/
def HeldField.now (t : ArrTable) : HeldField → Field
  | .scalar s => .scalar s
  | .array id name dataType fmt dimension shape =>
    .array { name := name, value := t id, dataType := dataType, fmt := fmt, dimension := dimension, shape := shape }

/-- The kept records with what their arrays contain now. -/
def recsNow (t : ArrTable) (rs : List (Dict PyStr HeldField)) : List Rec :=
  rs.map fun r => r.map fun p => (p.1, p.2.now t)

/-- `write_dmap_stream()` of such a writer (/repo/pydarnio/dmap/dmap.py:964-983) when the arrays contain this. -/
def heldStream (t : ArrTable) (rs : List (Dict PyStr HeldField)) : Except Err Bytes :=
  (Writer.writeStream { filename := [], isList := true, recs := recsNow t rs, buf := [], recNum := 0 } noRecords).1

end Verif
