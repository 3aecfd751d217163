import Verif.SDarn.Model.Objects
import Verif.SDarn.Spec
import Verif.Dmap.Programs
/-!
# User-level programs with `SDarnRead` and `SDarnWrite`, and what they should report
-/
namespace Verif.SD
open Verif Spec

/-- An `SDarnRead` straight after construction. -/
def freshDarn (bs : Bytes) : DarnReader := ⟨freshReader bs, none⟩

/-- `SDarnRead(bs, True).read_X()`. -/
def readDarn (cfg : NpCfg) (ft : FileType) (bs : Bytes) : Except Err (List PlainRec) :=
  match DarnReader.new bs with
  | .error e => .error e
  | .ok rd => (rd.read cfg ft).1

/-- A read call: `read_records` or one of the `read_X`. -/
inductive Call
  | records
  | darn (ft : FileType)
  deriving DecidableEq, Repr

/-- One call. -/
def runCall (cfg : NpCfg) (rd : DarnReader) : Call → Except Err (List PlainRec) × DarnReader
  | .records => rd.readRecords cfg
  | .darn ft => rd.read cfg ft

/-- A sequence of calls (exceptions caught): results and final object. -/
def runCalls (cfg : NpCfg) : DarnReader → List Call → List (Except Err (List PlainRec)) × DarnReader
  | rd, [] => ([], rd)
  | rd, c :: cs =>
    match runCall cfg rd c with
    | (res, rd') =>
      match runCalls cfg rd' cs with
      | (l, rd'') => (res :: l, rd'')

/-- The exception names exactly the offending fields of record `r`, with number `rn`. -/
def Names (ft : FileType) (rn : Nat) (r : Rec) : Err → Prop
  | .sdFieldMissing n fs => n = rn ∧ fs ≠ [] ∧ ∀ k, k ∈ fs ↔ Missing (required ft) r k
  | .sdExtraField n fs => n = rn ∧ fs ≠ [] ∧ ∀ k, k ∈ fs ↔ Extra (required ft ++ optional ft) r k
  | .sdDataFormatType l n =>
    n = rn ∧ l ≠ [] ∧ ∀ k t, (k, t) ∈ l ↔ WrongType (required ft ++ optional ft) r k t
  | _ => False

/-- A SuperDARN exception. -/
def SdErr : Err → Prop
  | .sdFieldMissing _ _ | .sdExtraField _ _ | .sdDataFormatType _ _ => True
  | _ => False

/-- The file the writer writes to. -/
def target (w : Writer) (filename : PyStr) : PyStr := if filename = [] then w.filename else filename

end Verif.SD
