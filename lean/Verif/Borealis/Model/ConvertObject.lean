import Verif.Borealis.Model.Objects
import Verif.Borealis.Model.Convert
import Verif.SDarn.Model.Objects
/-!
# Converting files: `BorealisConvert`

Model of the constructor (/repo/pydarnio/borealis/borealis_convert.py:160-241, 299-316).  The DMAP
writer of `Verif.SD` works on a file system of its own; the bytes it leaves there under the name
of the output file become the content of the file here.
-/
namespace Verif.Bor

/-- An exception of the Borealis part or of the DMAP part. -/
inductive ConvErr
  | bor (e : Err)
  | dmap (e : Verif.Err)
  deriving DecidableEq, Repr

/-- `__allowed_conversions` (/repo/pydarnio/borealis/borealis_convert.py:158). -/
def allowedConversion : FType → Option Target
  | .rawacf => some .rawacf
  | .bfiq => some .iqdat
  | _ => none

/-- The method `write_iqdat` or `write_rawacf`
(/repo/pydarnio/borealis/borealis_convert.py:312-315). -/
def writeMethod : Target → SD.FileType
  | .iqdat => .iqdat
  | .rawacf => .rawacf

/-- `_borealis_slice_id` (/repo/pydarnio/borealis/borealis_convert.py:215-225). -/
def sliceIdOf (rs : Records) (arg : Option Int) : Except Err Val := do
  let first ← firstRec rs
  match first.get? (py! "slice_id") with
  | some v => .ok v
  | none =>
    match arg with
    | some i => .ok (.py .pyInt (.int i))
    | none => .error .structure

/-- What precedes the writing of the file
(/repo/pydarnio/borealis/borealis_convert.py:199-241, 309): the records for the DMAP writer. -/
def convertPrepare (cfg : NpCfg) (ops : Ops) (tkey : Elt → Except Err PyStr) (fs : FSys) (inp ft out : PyStr)
    (slice : Option Int) (st : Option PyStr) (factor : Int) : Except Err (Target × List Verif.Rec) := do
  let rd ← borealisRead fs inp ft st
  let rs ← rd.records tkey
  let sl ← sliceIdOf rs slice
  match (parseFType ft).bind allowedConversion with
  | none => .error .conversionTypes
  | some t =>
    if inp = out then .error .overwrite
    else do .ok (t, ← convertToDmap cfg ops t sl inp factor rs)

/-- `SDarnWrite(records, name).write_…(name)` on a file system without files
(/repo/pydarnio/borealis/borealis_convert.py:310-315): the content of the file. -/
def sdarnBytes (t : Target) (recs : List Verif.Rec) (out : PyStr) : Except Verif.Err (Option Bytes) :=
  match SD.darnWriter ⟨true, recs.map fun r => r.map fun p => (p.1, .dmap p.2)⟩ out with
  | .error e => .error e
  | .ok w =>
    match SD.darnWrite (writeMethod t) w (fun _ => none) out with
    | (.error e, _, _) => .error e
    | (.ok (), _, fs) => .ok (fs out)

/-- `BorealisConvert(borealis_filename, borealis_filetype, sdarn_filename, borealis_slice_id,
borealis_file_structure, scaling_factor)` (/repo/pydarnio/borealis/borealis_convert.py:160-241). -/
def borealisConvert (cfg : NpCfg) (ops : Ops) (tkey : Elt → Except Err PyStr) (fs : FSys) (inp ft out : PyStr)
    (slice : Option Int) (st : Option PyStr) (factor : Int) : Except ConvErr Unit × FSys :=
  match convertPrepare cfg ops tkey fs inp ft out slice st factor with
  | .error e => (.error (.bor e), fs)
  | .ok (t, recs) =>
    match sdarnBytes t recs out with
    | .error e => (.error (.dmap e), fs)
    | .ok none => (.ok (), fs)
    | .ok (some bs) => (.ok (), fs.put out (.raw bs))

end Verif.Bor
