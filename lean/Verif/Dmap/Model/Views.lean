import Verif.Dmap.Model.ReaderObj
/-!
# Where the arrays that are read lie in memory

`np.frombuffer` does not copy: the array is a view of `self.dmap_buffer`, which is a `memoryview` of the `bytearray`
`self.dmap_bytearr` (/repo/pydarnio/dmap/dmap.py:171-183).  The view is writable, `reshape` of a contiguous array keeps it, and
`dmap2dict` hands on the same array.  Here the reader once more, with the place of every array.
-/
namespace Verif

/-- Some cells of the memory of the reader. -/
structure View where
  start : Nat
  cell : Nat
  count : Nat
  deriving DecidableEq, Repr

/-- What an array with this view shows, when the memory has these bytes. -/
def View.cells (v : View) (mem : Bytes) : List Bytes := chunks v.cell v.count (mem.drop v.start)

/-- A record, with the places of its arrays; scalars are Python objects of their own. -/
abbrev VRec := Dict PyStr (Field × Option View)

/-- `read_numerical_array` (/repo/pydarnio/dmap/dmap.py:775-810): `np.frombuffer(self.dmap_buffer, …, self.cursor)`. -/
def readNumericalArrayV (cfg : NpCfg) (buf : Bytes) (shape : List Int) (fmt : Fmt) (total : Int) (size : Nat) :
    Rd (NdArr × View) := do
  let c ← Rd.cursor
  let a ← readNumericalArray cfg buf shape fmt total size
  return (a, ⟨c.toNat, size, a.cells.length⟩)

/-- `read_array(record_size)` (/repo/pydarnio/dmap/dmap.py:525-634). -/
def readArrayV (cfg : NpCfg) (buf : Bytes) (rn : Nat) (recordSize : Int) : Rd (DmapArray × View) := do
  let name ← readDataS buf rn
  let code ← readDataC buf
  let (fmt, size) ← checkDataType rn code name
  let dim ← readInt buf
  bytesCheck rn dim recordSize
  zeroNegativeCheck rn dim
  let dims ← readInts buf dim.toNat
  let shape := if dim > 1 then dims.reverse else dims
  if (shape.any fun x => decide (x ≤ 0)) = true ∧ name ≠ slist then Rd.raise .dmapDataError
  else if (shape.any fun x => decide (x ≥ recordSize)) = true then Rd.raise .dmapDataError
  else do
    let total := prodInt shape
    bytesCheck rn total recordSize
    bytesCheck rn (total * size) recordSize
    if fmt = .s then Rd.raise .dmapDataError
    else if code = 0 then Rd.raise .dmapDataError
    else do
      let p ← readNumericalArrayV cfg buf shape fmt total size
      return ({ name := name, value := p.1, dataType := code, fmt := fmt, dimension := dim, shape := shape }, p.2)

/-- The scalar loop of `read_record` (/repo/pydarnio/dmap/dmap.py:463-466). -/
def readScalarsV (buf : Bytes) (rn : Nat) : Nat → VRec → Rd VRec
  | 0, r => Rd.pure r
  | n + 1, r => do
    let s ← readScalar buf rn
    readScalarsV buf rn n (r.set s.name (.scalar s, none))

/-- The array loop of `read_record` (/repo/pydarnio/dmap/dmap.py:469-471). -/
def readArraysV (cfg : NpCfg) (buf : Bytes) (rn : Nat) (blockSize : Int) : Nat → VRec → Rd VRec
  | 0, r => Rd.pure r
  | n + 1, r => do
    let p ← readArrayV cfg buf rn blockSize
    readArraysV cfg buf rn blockSize n (r.set p.1.name (.array p.1, some p.2))

/-- `read_record` (/repo/pydarnio/dmap/dmap.py:409-478). -/
def readRecordV (cfg : NpCfg) (buf : Bytes) (rn : Nat) : Rd VRec := do
  let start ← Rd.cursor
  Rd.setCursor (start + 4)
  let blockSize ← readInt buf
  let c ← Rd.cursor
  bytesCheck rn blockSize (buf.length - c + 8)
  zeroNegativeCheck rn blockSize
  let numScalars ← readInt buf
  let numArrays ← readInt buf
  zeroNegativeCheck rn numScalars
  zeroNegativeCheck rn numArrays
  bytesCheck rn (numScalars + numArrays) blockSize
  let r ← readScalarsV buf rn numScalars.toNat []
  let r ← readArraysV cfg buf rn blockSize numArrays.toNat r
  let c' ← Rd.cursor
  if c' - start ≠ blockSize then Rd.raise .cursorError else return r

/-- The `while` loop of `read_records` (/repo/pydarnio/dmap/dmap.py:398-401). -/
def readLoopV (cfg : NpCfg) (buf : Bytes) : Nat → Nat → Int → Except Err (List VRec)
  | fuel, rn, c =>
    if c < buf.length then
      match fuel with
      | 0 => .error .diverged
      | fuel + 1 =>
        match readRecordV cfg buf rn c with
        | (.error e, _) => .error e
        | (.ok r, c') =>
          match readLoopV cfg buf fuel (rn + 1) c' with
          | .error e => .error e
          | .ok rs => .ok (r :: rs)
    else .ok []

/-- The records of `DmapRead(bs, True).read_records()` (/repo/pydarnio/dmap/dmap.py:375-407), with the places of their arrays. -/
def readViews (cfg : NpCfg) (bs : Bytes) : Except Err (List VRec) := readLoopV cfg bs bs.length 0 0

end Verif
