import Verif.Borealis.Model.ConvertMessages
import Verif.Borealis.Model.ConvertObject
import Verif.Borealis.Model.FileRestructure
import Verif.Borealis.Model.Messages
/-!
# Texts of refused arguments

The constructors of the Borealis classes once more, with the texts of `BorealisFileTypeError`, `BorealisStructureError` for an
unknown structure or a missing number of the slice, `BorealisVersionError`, `BorealisConversionTypesError` and
`ConvertFileOverWriteError`.  The texts of all other exceptions are not told.
-/
namespace Verif.Bor
open Verif

/-- `BorealisFileTypeError(filename, file_type)` (/repo/pydarnio/exceptions/borealis_exceptions.py:84-92). -/
def fileTypeText (fn ft : PyStr) : PyStr :=
  ft ++ (py! " is not a Borealis file format or has not been implemented yet. " ++ (fn ++
    (py! " was not used. Please check the spelling of " ++ (ft ++ py! "."))))

/-- `BorealisStructureError(error_str)` (/repo/pydarnio/exceptions/borealis_exceptions.py:372-380); no space precedes `error_str`. -/
def structureText (s : PyStr) : PyStr :=
  py! "Structural errors found. You may be attempting to use the file as the wrong structure ('site' or 'array' " ++
    (py! "supported). Please check if you are interested in records or arrays." ++ s)

/-- The text for a structure that is neither `site` nor `array`
(/repo/pydarnio/borealis/borealis.py:143-146, 362-365, borealis_restructure.py:115-118). -/
def unknownStructure (st : PyStr) : PyStr := structureText (py! "Unknown structure type: " ++ st)

/-- The text for a missing number of the slice (/repo/pydarnio/borealis/borealis_convert.py:222-225). -/
def noSliceText : PyStr :=
  structureText (py! "The slice_id could not be found in the file: Borealis files produced before Borealis v0.5 must " ++
    py! "provide the slice_id value to the BorealisConvert class.")

/-- `ConvertFileOverWriteError(filename)` (/repo/pydarnio/exceptions/borealis_exceptions.py:398-402). -/
def overwriteText (fn : PyStr) : PyStr :=
  py! "Writing to " ++ (fn ++ py! " not permitted while reading the file as source.")

/-- `BorealisConversionTypesError(dmap_filename, origin_filetype, allowed_types)`
(/repo/pydarnio/exceptions/borealis_exceptions.py:263-275); the last is `__allowed_conversions`
(/repo/pydarnio/borealis/borealis_convert.py:158). -/
def conversionTypesText (out ft : PyStr) : PyStr :=
  py! "Records destined to be converted and written to " ++ (out ++ (py! " cannot be converted from origin filetype " ++ (ft ++
    (py! " to a dmap filetype because origin filetype does not map to any currently available dmap filetypes: " ++
      py! "{'rawacf': 'rawacf', 'bfiq': 'iqdat'}"))))

/-- The text of an `AttributeError` of Python. -/
def noAttributeText (cls attr : PyStr) : PyStr :=
  py! "'" ++ (cls ++ (py! "' object has no attribute '" ++ (attr ++ py! "'")))

/-- `selectVersion` with the text of the exception
(/repo/pydarnio/borealis/borealis_site.py:138-145, 369-376, borealis_array.py:127-134, 338-345). -/
def selectVersionM (p hash : PyStr) : Except Said Version :=
  match lookupVersion (versionOf hash) with
  | some v => .ok v
  | none => .error ⟨.version (versionOf hash), some (versionText p (versionOf hash))⟩

/-- What follows the version of a site file (/repo/pydarnio/borealis/borealis_site.py:146-149, 234-275). -/
def siteContent (f : H5) (t : FType) (v : Version) : Except Err (Reader Records) := do
  tables (formatOf v t)
  let rs ← ppoSiteFix (← readRecords f)
  checkRecords (formatOf v t).siteSingleTypes (formatOf v t).siteArrayTypes rs
  .ok ⟨t, v, sortStrs f.keys, rs⟩

/-- `BorealisSiteRead` (/repo/pydarnio/borealis/borealis_site.py:84-149). -/
def siteReadM (fs : FSys) (p ft : PyStr) : Except Said (Reader Records) :=
  match parseFType ft with
  | none => .error ⟨.fileType, some (fileTypeText p ft)⟩
  | some t => do
    let f ← untoldE (fs.openR p)
    let v ← selectVersionM p (← untoldE (siteHash f))
    untoldE (siteContent f t v)

/-- What follows the version of an array file (/repo/pydarnio/borealis/borealis_array.py:135-138, 219-252). -/
def arrayContent (f : H5) (t : FType) (v : Version) : Except Err (Reader Rec) := do
  tables (formatOf v t)
  let r ← ppoArrayFix (← readArrays f)
  checkArrays (formatOf v t).arraySingleTypes (formatOf v t).arrayArrayTypes (formatOf v t).unshared r
  .ok ⟨t, v, [], r⟩

/-- `BorealisArrayRead` (/repo/pydarnio/borealis/borealis_array.py:82-138). -/
def arrayReadM (fs : FSys) (p ft : PyStr) : Except Said (Reader Rec) :=
  match parseFType ft with
  | none => .error ⟨.fileType, some (fileTypeText p ft)⟩
  | some t => do
    let f ← untoldE (fs.openR p)
    let v ← selectVersionM p (← untoldE (asStructure [.keyError] (hashOf f.root.attrs)))
    untoldE (arrayContent f t v)

/-- `return_reader` (/repo/pydarnio/borealis/borealis.py:246-263). -/
def returnReaderM (fs : FSys) (p ft : PyStr) : Except Said Handler :=
  match arrayReadM fs p ft with
  | .ok r => .ok (.array r)
  | .error e =>
    if fallsBack e.kind then
      match siteReadM fs p ft with
      | .ok r => .ok (.site r)
      | .error e => .error e
    else .error e

/-- `BorealisRead` (/repo/pydarnio/borealis/borealis.py:124-146). -/
def borealisReadM (fs : FSys) (p ft : PyStr) (st : Option PyStr) : Except Said Handler :=
  match parseFType ft with
  | none => .error ⟨.fileType, some (fileTypeText p ft)⟩
  | some _ =>
    match st with
    | none => returnReaderM fs p ft
    | some s =>
      if s = py! "site" then do .ok (.site (← siteReadM fs p ft))
      else if s = py! "array" then do .ok (.array (← arrayReadM fs p ft))
      else .error ⟨.structure, some (unknownStructure s)⟩

/-- The records to write to a site file (/repo/pydarnio/borealis/borealis_site.py:377-379, 486-489). -/
def siteData (d : Data) (t : FType) (v : Version) : Except Err (Format × Records) := do
  tables (formatOf v t)
  match d with
  | .arrays _ => .error .unmodelled
  | .records rs =>
    checkRecords (formatOf v t).siteSingleTypes (formatOf v t).siteArrayTypes rs
    .ok (formatOf v t, rs)

/-- `BorealisSiteWrite` before the file is opened (/repo/pydarnio/borealis/borealis_site.py:344-379): for an unknown file type
`self.filename` is looked up before it is set. -/
def siteWriteCheckM (p : PyStr) (d : Data) (ft : PyStr) : Except Said (Format × Records) :=
  match parseFType ft with
  | none => .error ⟨.attributeError, some (noAttributeText (py! "BorealisSiteWrite") (py! "filename"))⟩
  | some t => do
    let v ← selectVersionM p (← untoldE (siteDataHash d))
    untoldE (siteData d t v)

/-- An outcome whose exception is not told. -/
def untoldW {α : Type} : Except Err α × FSys → Except Said α × FSys
  | (x, fs) => (untoldE x, fs)

/-- `BorealisSiteWrite` (/repo/pydarnio/borealis/borealis_site.py:314-379, 460-491). -/
def siteWriteM (h : H5Cfg) (fs : FSys) (p : PyStr) (d : Data) (ft : PyStr) (comp : Option PyStr) :
    Except Said Unit × FSys :=
  match siteWriteCheckM p d ft with
  | .error e => (.error e, fs)
  | .ok (fmt, rs) => untoldW (writing fs p fun f => writeRecords h comp fmt f rs)

/-- The arrays to write (/repo/pydarnio/borealis/borealis_array.py:346, 452-456). -/
def arrayData (d : Data) (t : FType) (v : Version) : Except Err (Format × Rec) := do
  tables (formatOf v t)
  match d with
  | .records _ => .error .unmodelled
  | .arrays r =>
    checkArrays (formatOf v t).arraySingleTypes (formatOf v t).arrayArrayTypes (formatOf v t).unshared r
    .ok (formatOf v t, r)

/-- `BorealisArrayWrite` before the file is opened (/repo/pydarnio/borealis/borealis_array.py:317-346). -/
def arrayWriteCheckM (p : PyStr) (d : Data) (ft : PyStr) : Except Said (Format × Rec) :=
  match parseFType ft with
  | none => .error ⟨.fileType, some (fileTypeText p ft)⟩
  | some t => do
    let v ← selectVersionM p (← untoldE (arrayDataHash d))
    untoldE (arrayData d t v)

/-- `BorealisArrayWrite` (/repo/pydarnio/borealis/borealis_array.py:290-347, 428-458). -/
def arrayWriteM (h : H5Cfg) (fs : FSys) (p : PyStr) (d : Data) (ft : PyStr) (comp : Option PyStr) :
    Except Said Unit × FSys :=
  match arrayWriteCheckM p d ft with
  | .error e => (.error e, fs)
  | .ok (fmt, r) => untoldW (writing fs p fun f => writeArrays h comp fmt f r)

/-- The writer that was made, or its exception. -/
def wrote (s : Struct) : Except Said Unit × FSys → Except Said Struct × FSys
  | (.ok (), fs) => (.ok s, fs)
  | (.error e, fs) => (.error e, fs)

/-- `return_writer` (/repo/pydarnio/borealis/borealis.py:484-504). -/
def returnWriterM (h : H5Cfg) (fs : FSys) (p : PyStr) (d : Data) (ft : PyStr) (comp : Option (Option PyStr)) :
    Except Said Struct × FSys :=
  match arrayWriteM h fs p d ft (comp.getD arrayCompression) with
  | (.ok (), fs) => (.ok .array, fs)
  | (.error e, fs) =>
    if fallsBack e.kind then wrote .site (siteWriteM h fs p d ft (comp.getD siteCompression))
    else (.error e, fs)

/-- `BorealisWrite` (/repo/pydarnio/borealis/borealis.py:345-365): the structure is looked at before the file type. -/
def borealisWriteM (h : H5Cfg) (fs : FSys) (p : PyStr) (d : Data) (ft : PyStr) (st : Option PyStr)
    (comp : Option (Option PyStr)) : Except Said Struct × FSys :=
  match st with
  | none => returnWriterM h fs p d ft comp
  | some s =>
    if s = py! "site" then wrote .site (siteWriteM h fs p d ft (comp.getD siteCompression))
    else if s = py! "array" then wrote .array (arrayWriteM h fs p d ft (comp.getD arrayCompression))
    else (.error ⟨.structure, some (unknownStructure s)⟩, fs)

/-- `BorealisRestructure` (/repo/pydarnio/borealis/borealis_restructure.py:106-133). -/
def borealisRestructureM (h : H5Cfg) (tkey : Elt → Except Err PyStr) (fs : FSys) (inp out ft st : PyStr)
    (comp : Option PyStr) : Except Said Unit × FSys :=
  match restructureType ft with
  | none => (.error ⟨.fileType, some (fileTypeText inp ft)⟩, fs)
  | some t =>
    match restructureTo st with
    | none => (.error ⟨.structure, some (unknownStructure st)⟩, fs)
    | some s' =>
      if inp = out then (.error ⟨.overwrite, some (overwriteText inp)⟩, fs)
      else
        match examine fs inp with
        | .error e => (.error ⟨e, none⟩, fs)
        | .ok (f, s, v) => untoldW (restructure h tkey fs f s s' inp out v t comp)

/-- `_borealis_slice_id` (/repo/pydarnio/borealis/borealis_convert.py:215-225). -/
def sliceIdOfM (rs : Records) (arg : Option Int) : Except Said Val := do
  let first ← untoldE (firstRec rs)
  match first.get? (py! "slice_id") with
  | some v => .ok v
  | none =>
    match arg with
    | some i => .ok (.py .pyInt (.int i))
    | none => .error ⟨.structure, some noSliceText⟩

/-- `BorealisConvert` before the file is written (/repo/pydarnio/borealis/borealis_convert.py:199-241, 309).  The texts of
exceptions of the conversion are in `convertToDmapM`. -/
def convertPrepareM (cfg : NpCfg) (ops : Ops) (tkey : Elt → Except Err PyStr) (fs : FSys) (inp ft out : PyStr)
    (slice : Option Int) (st : Option PyStr) (factor : Int) : Except Said (Target × List Verif.Rec) := do
  let rd ← borealisReadM fs inp ft st
  let rs ← untoldE (rd.records tkey)
  let sl ← sliceIdOfM rs slice
  match (parseFType ft).bind allowedConversion with
  | none => .error ⟨.conversionTypes, some (conversionTypesText out ft)⟩
  | some t =>
    if inp = out then .error ⟨.overwrite, some (overwriteText inp)⟩
    else do .ok (t, ← untoldE (convertToDmap cfg ops t sl inp factor rs))

end Verif.Bor
