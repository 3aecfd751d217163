import Verif.SDarn.Model.Checks
import Verif.Dmap.Model.ReaderObj
import Verif.Dmap.Model.Writer
/-!
# `SDarnRead` and `SDarnWrite`

Model of /repo/pydarnio/dmap/superdarn.py:251-900.
-/
namespace Verif.SD

/-- An `SDarnRead` object: the inherited `DmapRead` state and the attribute `records`,
which only the `read_X` methods assign (/repo/pydarnio/dmap/superdarn.py:251-413). -/
structure DarnReader where
  base : Reader
  records : Option (List PlainRec)
  deriving DecidableEq, Repr

/-- `SDarnRead(stream, True)`, or for a file with this content
(/repo/pydarnio/dmap/superdarn.py:300-325). -/
def DarnReader.new (bs : Bytes) : Except Err DarnReader :=
  match Reader.new bs with
  | .error e => .error e
  | .ok r => .ok ⟨r, none⟩

/-- The loop of `_read_darn_records` with `_read_darn_record`
(/repo/pydarnio/dmap/superdarn.py:363-371, 396-398).  A record that fails a check has been
consumed but is not appended. -/
def darnLoop (cfg : NpCfg) (gs opt : List Table) : Nat → Reader → Except Err Unit × Reader
  | fuel, r =>
    if r.cursor < r.buf.length then
      match fuel with
      | 0 => (.error .diverged, r)
      | fuel + 1 =>
        match readRecord cfg r.buf r.recNum r.cursor with
        | (.error e, c) => (.error e, { r with cursor := c })
        | (.ok rec, c) =>
          match readCheck gs opt r.recNum rec with
          | .error e => (.error e, { r with cursor := c })
          | .ok () =>
            darnLoop cfg gs opt fuel
              { r with cursor := c, dmapRecords := r.dmapRecords ++ [rec], recNum := r.recNum + 1 }
    else (.ok (), r)

/-- `_read_darn_records` (/repo/pydarnio/dmap/superdarn.py:373-398). -/
def readDarnRecords (cfg : NpCfg) (gs opt : List Table) (r : Reader) : Except Err Unit × Reader :=
  darnLoop cfg gs opt (r.buf.length - r.cursor).toNat { r with recNum := 0 }

/-- `read_iqdat`, `read_rawacf`, `read_fitacf`, `read_snd`, `read_grid`, `read_map`
(/repo/pydarnio/dmap/superdarn.py:415-543). -/
def DarnReader.read (cfg : NpCfg) (ft : FileType) (r : DarnReader) :
    Except Err (List PlainRec) × DarnReader :=
  match readDarnRecords cfg (readGroups ft) (readOptional ft) r.base with
  | (.error e, b) => (.error e, { r with base := b })
  | (.ok (), b) =>
    match dmap2dict cfg b.dmapRecords with
    | .error e => (.error e, { r with base := b })
    | .ok ds => (.ok ds, { base := b, records := some ds })

/-- The inherited `read_records`. -/
def DarnReader.readRecords (cfg : NpCfg) (r : DarnReader) :
    Except Err (List PlainRec) × DarnReader :=
  match r.base.readRecords cfg with
  | (res, b) => (res, { r with base := b })

/-- The property `get_records` (/repo/pydarnio/dmap/superdarn.py:407-413): `self.records` is
assigned by the `read_X` methods only. -/
def DarnReader.getRecords (r : DarnReader) : Except Err (List PlainRec) :=
  match r.records with
  | some ds => .ok ds
  | none => .error .attributeError

/-- `SDarnWrite(dmap_records, filename)` (/repo/pydarnio/dmap/superdarn.py:594-610). -/
def darnWriter (inp : WInput) (filename : PyStr) : Except Err Writer := do
  let w ← Writer.new inp filename
  w.emptyRecordCheck
  return w

/-- The loop of `superDARN_file_structure_to_bytes`
(/repo/pydarnio/dmap/superdarn.py:890-900) from index `k` on: result, buffer, record number
and records as left behind. -/
def darnToBytes (gs opt : List Table) :
    Nat → Nat → Bytes → List Rec → Except Err Unit × Bytes × Nat × List Rec
  | _, rn, buf, [] => (.ok (), buf, rn, [])
  | k, _, buf, r :: rs =>
    match writeCheck gs opt k r with
    | .error e => (.error e, buf, k, r :: rs)
    | .ok () =>
      match recordToBytes k buf r with
      | (.error e, buf', r') => (.error e, buf', k, r' :: rs)
      | (.ok (), buf', r') =>
        match darnToBytes gs opt (k + 1) k buf' rs with
        | (res, buf'', rn, rs') => (res, buf'', rn, r' :: rs')

/-- `superDARN_file_structure_to_bytes` (/repo/pydarnio/dmap/superdarn.py:851-900). -/
def darnStructureToBytes (gs opt : List Table) (w : Writer) : Except Err Unit × Writer :=
  match darnToBytes gs opt 0 0 w.buf w.recs with
  | (res, buf, rn, rs) => (res, { w with buf := buf, recNum := rn, recs := rs })

/-- `write_iqdat`, `write_rawacf`, `write_fitacf`, `write_snd`, `write_grid`, `write_map`
(/repo/pydarnio/dmap/superdarn.py:612-849). -/
def darnWrite (ft : FileType) (w : Writer) (fs : FileSys) (filename : PyStr) :
    Except Err Unit × Writer × FileSys :=
  match w.filenameCheck filename with
  | (.error e, w) => (.error e, w, fs)
  | (.ok (), w) =>
    match w.emptyRecordCheck with
    | .error e => (.error e, w, fs)
    | .ok () =>
      match darnStructureToBytes (writeGroups ft) (writeOptional ft) w with
      | (.error e, w) => (.error e, w, fs)
      | (.ok (), w) => (.ok (), w, fs.write w.filename w.buf)

end Verif.SD
