import Verif.Dmap.Model.Reader
import Verif.Dmap.Model.Conversions
/-!
# `DmapRead` objects

State of a reader and its public methods.  A method returns its result or
exception together with the object as it is afterwards.
-/
namespace Verif

/-- A `DmapRead` object (/repo/pydarnio/dmap/dmap.py:127-187).  `records` is
`self._records`, which the property `get_records` returns. -/
structure Reader where
  buf : Bytes
  cursor : Int
  recNum : Nat
  dmapRecords : List Rec
  records : List PlainRec
  deriving DecidableEq, Repr

/-- `DmapRead(stream, data_stream=True)`, or reading a file with this content
(/repo/pydarnio/dmap/dmap.py:151-187). -/
def Reader.new (bs : Bytes) : Except Err Reader :=
  if bs.length = 0 then .error .emptyFile
  else .ok { buf := bs, cursor := 0, recNum := 0, dmapRecords := [], records := [] }

/-- The loop of `test_initial_data_integrity` (/repo/pydarnio/dmap/dmap.py:333-363);
returns the total block size and the cursor. -/
def integrityLoop (buf : Bytes) (rn : Nat) : Nat → Int → Int → Except Err Int × Int
  | fuel, total, c =>
    if c < buf.length then
      match fuel with
      | 0 => (.error .diverged, c)
      | fuel + 1 =>
        match (do
            let blockSize ← readInt buf
            zeroNegativeCheck rn blockSize
            bytesCheck rn (total + blockSize) buf.length
            return blockSize : Rd Int) (c + 4) with
        | (.error e, c') => (.error e, c')
        | (.ok blockSize, c') =>
          integrityLoop buf rn fuel (total + blockSize) (c' + blockSize - 8)
    else (.ok total, c)

/-- `test_initial_data_integrity` (/repo/pydarnio/dmap/dmap.py:312-373).  The last
check raises through the non-existent attribute `self.data_file`, i.e. an
`AttributeError`; it is proved unreachable. -/
def Reader.testIntegrity (r : Reader) : Except Err Unit × Reader :=
  if r.cursor ≠ 0 then (.error .cursorError, r)
  else
    match integrityLoop r.buf r.recNum r.buf.length 0 r.cursor with
    | (.error e, c) => (.error e, { r with cursor := c })
    | (.ok total, c) =>
      if total ≠ r.buf.length then (.error .attributeError, { r with cursor := c })
      else (.ok (), { r with cursor := 0 })

/-- The `while` loop of `read_records` (/repo/pydarnio/dmap/dmap.py:398-401).  Records
read before an exception stay in the object. -/
def Reader.readLoop (cfg : NpCfg) : Nat → Reader → Except Err Unit × Reader
  | fuel, r =>
    if r.cursor < r.buf.length then
      match fuel with
      | 0 => (.error .diverged, r)
      | fuel + 1 =>
        match readRecord cfg r.buf r.recNum r.cursor with
        | (.error e, c) => (.error e, { r with cursor := c })
        | (.ok rec, c) =>
          Reader.readLoop cfg fuel
            { r with cursor := c, dmapRecords := r.dmapRecords ++ [rec], recNum := r.recNum + 1 }
    else (.ok (), r)

/-- `read_records` (/repo/pydarnio/dmap/dmap.py:375-407). -/
def Reader.readRecords (cfg : NpCfg) (r : Reader) : Except Err (List PlainRec) × Reader :=
  match r.readLoop cfg (r.buf.length - r.cursor).toNat with
  | (.error e, r) => (.error e, r)
  | (.ok (), r) =>
    if r.cursor > r.buf.length then (.error (.mismatchByte r.recNum), r)
    else
      match dmap2dict cfg r.dmapRecords with
      | .error e => (.error e, r)
      | .ok ds => (.ok ds, { r with records := ds })

end Verif
