import Verif.Dmap.Model.ReaderObj
import Verif.Dmap.WriteSpec
/-!
# User-level programs

The short Python programs the properties talk about.
-/
namespace Verif
open Spec

instance : DecidableEq (List PlainRec) := inferInstance
instance : DecidableEq (List Rec) := inferInstance
instance : DecidableEq (List Rec × List PlainRec) := inferInstance

/-- `rd = DmapRead(bs, True); ds = rd.read_records()`, then `(rd.get_dmap_records, ds)`. -/
def readFile (cfg : NpCfg) (bs : Bytes) : Except Err (List Rec × List PlainRec) :=
  match Reader.new bs with
  | .error e => .error e
  | .ok rd =>
    match rd.readRecords cfg with
    | (.error e, _) => .error e
    | (.ok ds, rd') => .ok (rd'.dmapRecords, ds)

/-- `DmapWrite(recs).write_dmap_stream()`. -/
def writeBytes (recs : List Rec) : Except Err Bytes :=
  match Writer.new (dmapInput recs) [] with
  | .error e => .error e
  | .ok w => (w.writeStream noRecords).1

/-- Write the records and read the stream back. -/
def writeThenRead (cfg : NpCfg) (recs : List Rec) : Except Err (List Rec × List PlainRec) :=
  match writeBytes recs with
  | .error e => .error e
  | .ok bs => readFile cfg bs

/-- `DmapRead(bs, True).test_initial_data_integrity()`. -/
def integrityOf (bs : Bytes) : Except Err Unit :=
  match Reader.new bs with
  | .error e => .error e
  | .ok rd => rd.testIntegrity.1

/-- A reader straight after construction. -/
def freshReader (bs : Bytes) : Reader :=
  { buf := bs, cursor := 0, recNum := 0, dmapRecords := [], records := [] }

/-- `n` successive calls of `read_records`: the results and the final object. -/
def readManyTimes (cfg : NpCfg) : Nat → Reader → List (Except Err (List PlainRec)) × Reader
  | 0, rd => ([], rd)
  | n + 1, rd =>
    match rd.readRecords cfg with
    | (res, rd') =>
      match readManyTimes cfg n rd' with
      | (l, rd'') => (res :: l, rd'')

end Verif
