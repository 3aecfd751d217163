import Verif.Dmap.Model.Arrays
/-!
# Writing several times from arrays of the caller

A `DmapWrite` made from plain values on which `write_dmap_stream()` is called any number of times, with changes of the arrays in
between (/repo/pydarnio/dmap/dmap.py:964-983).  Between calls the writer keeps its records, whose `shape` lists a call reverses in
place (/repo/pydarnio/dmap/dmap.py:1149-1150), and its buffer.  Simplified: as in `Arrays.lean`; no two `DmapArray`s share a
`shape` list, as `dict2dmap` makes a new one for each (/repo/pydarnio/utils/conversions.py:89).
-/
namespace Verif

/-- A `DmapWrite` object: `dmap_records`, `dmap_bytearr` and `rec_num` (/repo/pydarnio/dmap/dmap.py:891-897). -/
structure HeldWriter where
  recs : List (Dict PyStr HeldField)
  buf : Bytes
  recNum : Nat

/-- A kept field with the `shape` list as a call left it (/repo/pydarnio/dmap/dmap.py:1149-1150). -/
def relinkField : HeldField → Field → HeldField
  | .array id name dataType fmt dimension _, .array a => .array id name dataType fmt dimension a.shape
  | f, _ => f

/-- The kept records with the `shape` lists as a call left them. -/
def relink (rs : List (Dict PyStr HeldField)) (left : List Rec) : List (Dict PyStr HeldField) :=
  List.zipWith (fun r r' => List.zipWith (fun p q => (p.1, relinkField p.2 q.2)) r r') rs left

/-- `write_dmap_stream()` (/repo/pydarnio/dmap/dmap.py:964-983) when the arrays contain this. -/
def HeldWriter.stream (t : ArrTable) (w : HeldWriter) : Except Err Bytes × HeldWriter :=
  match Writer.writeStream { filename := [], isList := true, recs := recsNow t w.recs, buf := w.buf, recNum := w.recNum } noRecords with
  | (x, w') => (x, { recs := relink w.recs w'.recs, buf := w'.buf, recNum := w'.recNum })

/-- One call after the other, with what the arrays contain at each. -/
def HeldWriter.streams : List ArrTable → HeldWriter → List (Except Err Bytes)
  | [], _ => []
  | t :: ts, w => (w.stream t).1 :: HeldWriter.streams ts (w.stream t).2

end Verif
