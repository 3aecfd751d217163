import Verif.Dmap.Model.Views
/-!
# Reading again after the caller has written into arrays

The arrays of the records are writable views of the reader's `bytearray` (`Views.lean`).  A second call of `read_records` finds
the cursor at the end (/repo/pydarnio/dmap/dmap.py:398) and hands out the arrays of `_dmap_records` once more
(/repo/pydarnio/dmap/dmap.py:406), as does `get_records`.
-/
namespace Verif

/-- What a field shows, when the memory has these bytes. -/
def shownField (mem : Bytes) : Field × Option View → Field
  | (.array a, some v) => .array { a with value := { a.value with cells := v.cells mem } }
  | (f, _) => f

/-- What a record shows, when the memory has these bytes. -/
def shownRec (mem : Bytes) (r : VRec) : Rec := r.map fun p => (p.1, shownField mem p.2)

/-- `rd.read_records()` (/repo/pydarnio/dmap/dmap.py:375-407), when the memory of the reader has these bytes and its records lie
at these places. -/
def readChanged (cfg : NpCfg) (rd : Reader) (mem : Bytes) (vs : List VRec) : Except Err (List PlainRec) × Reader :=
  { rd with buf := mem, dmapRecords := vs.map (shownRec mem) }.readRecords cfg

end Verif
