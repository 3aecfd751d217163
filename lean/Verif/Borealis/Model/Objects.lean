import Verif.Borealis.Model.Hdf5
import Verif.Borealis.Model.Restructure
/-!
# Readers and writers of Borealis files

Model of /repo/pydarnio/borealis/borealis_site.py, borealis_array.py and borealis.py: the
constructors, which read or write the file, and the properties `records` and `arrays`.
-/
namespace Verif.Bor

/-! ## Files -/

/-- The content of a file. -/
inductive File
  | h5 (f : H5)
  | raw (b : Bytes)
  deriving DecidableEq, Repr

/-- A file system: which file a path names, and the files. -/
structure FSys where
  node : PyStr → PyStr
  file : PyStr → Option File

/-- The file that a path names. -/
def FSys.at (fs : FSys) (p : PyStr) : Option File := fs.file (fs.node p)

/-- Replace the content of the file that a path names. -/
def FSys.put (fs : FSys) (p : PyStr) (c : File) : FSys :=
  { fs with file := fun n => if n = fs.node p then some c else fs.file n }

/-- `h5py.File(p, 'r')`. -/
def FSys.openR (fs : FSys) (p : PyStr) : Except Err H5 :=
  match fs.at p with
  | some (.h5 f) => .ok f
  | _ => .error .osError

/-- `h5py.File(p, 'a')`. -/
def FSys.openA (fs : FSys) (p : PyStr) : Except Err H5 :=
  match fs.at p with
  | none => .ok .new
  | some (.h5 f) => .ok f
  | some (.raw _) => .error .osError

/-! ## Arguments -/

/-- The names of the file types. -/
def FType.name : FType → PyStr
  | .antennasIq => py! "antennas_iq"
  | .bfiq => py! "bfiq"
  | .rawacf => py! "rawacf"
  | .rawrf => py! "rawrf"

/-- All file types. -/
def FType.all : List FType := [.bfiq, .antennasIq, .rawacf, .rawrf]

/-- `borealis_filetype in ['bfiq', 'antennas_iq', 'rawacf', 'rawrf']`. -/
def parseFType (s : PyStr) : Option FType := FType.all.find? fun t => t.name = s

/-- `borealis_version_dict[version]`, or the exception if the version is not in it
(/repo/pydarnio/borealis/borealis_site.py:138-145, 369-376, borealis_array.py:127-134, 338-345). -/
def selectVersion (hash : PyStr) : Except Err Version :=
  match lookupVersion (versionOf hash) with
  | some v => .ok v
  | none => .error (.version (versionOf hash))

/-- `attrs['borealis_git_hash'].decode('utf-8')`; only bytes can be decoded. -/
def hashOf (g : Dict PyStr Attr) : Except Err PyStr := do
  match ← field g (py! "borealis_git_hash") with
  | .bytes b => decodeUtf8 b
  | _ => .error .attributeError

/-- An `except` clause that raises `BorealisStructureError` instead. -/
def asStructure {α : Type} (caught : List Err) (x : Except Err α) : Except Err α :=
  match x with
  | .ok a => .ok a
  | .error e => if e ∈ caught then .error .structure else .error e

/-! ## Reading -/

/-- A reader of either structure. -/
structure Reader (α : Type) where
  ftype : FType
  version : Version
  names : List PyStr
  content : α
  deriving DecidableEq, Repr

/-- The version of a site file (/repo/pydarnio/borealis/borealis_site.py:125-136): that of the first
record.  The attributes of a dataset have no version. -/
def siteHash (f : H5) : Except Err PyStr :=
  asStructure [.indexError, .keyError] (
    match sortStrs f.keys with
    | [] => .error .indexError
    | n :: _ =>
      match f.groups.get? n with
      | none => .error .keyError
      | some g => hashOf g.attrs)

/-- Whether the tables of types of a format can be evaluated: they are made of `site_fields` or
`array_fields`, which call `unshared_fields_dims_array`
(/repo/pydarnio/borealis/base_format.py:633-655, 708-759, 780-795, 862-884); that of the last `rawrf`
format raises `AttributeError` (/repo/pydarnio/borealis/borealis_formats.py:2571-2621). -/
def tables (fmt : Format) : Except Err Unit := if fmt.broken then .error .attributeError else .ok ()

/-- `BorealisSiteRead(filename, borealis_filetype)`
(/repo/pydarnio/borealis/borealis_site.py:84-149, 234-275).  `read_records` has sorted the records
already. -/
def siteRead (fs : FSys) (p ft : PyStr) : Except Err (Reader Records) :=
  match parseFType ft with
  | none => .error .fileType
  | some t => do
    let f ← fs.openR p
    let v ← selectVersion (← siteHash f)
    tables (formatOf v t)
    let rs ← ppoSiteFix (← readRecords f)
    checkRecords (formatOf v t).siteSingleTypes (formatOf v t).siteArrayTypes rs
    .ok ⟨t, v, sortStrs f.keys, rs⟩

/-- `BorealisArrayRead(filename, borealis_filetype)`
(/repo/pydarnio/borealis/borealis_array.py:82-138, 219-252).  The names of its records are computed
later. -/
def arrayRead (fs : FSys) (p ft : PyStr) : Except Err (Reader Rec) :=
  match parseFType ft with
  | none => .error .fileType
  | some t => do
    let f ← fs.openR p
    let v ← selectVersion (← asStructure [.keyError] (hashOf f.root.attrs))
    tables (formatOf v t)
    let r ← ppoArrayFix (← readArrays f)
    checkArrays (formatOf v t).arraySingleTypes (formatOf v t).arrayArrayTypes (formatOf v t).unshared r
    .ok ⟨t, v, [], r⟩

/-- The property `arrays` of a site reader or writer
(/repo/pydarnio/borealis/borealis_site.py:185-217, 411-443).  A format that is not restructureable
raises the same exception as a failure; `siteToArray` has that case. -/
def arraysOf (fmt : Format) (rs : Records) : Except Err Rec :=
  let res : Except Err Rec := do
    let r ← siteToArray fmt rs
    checkArrays fmt.arraySingleTypes fmt.arrayArrayTypes fmt.unshared r
    .ok r
  match res with
  | .ok r => .ok r
  | .error _ => .error .restructure

/-- The property `records` of an array reader or writer
(/repo/pydarnio/borealis/borealis_array.py:165-194, 374-403). -/
def recordsOf (tkey : Elt → Except Err PyStr) (fmt : Format) (r : Rec) : Except Err Records :=
  let res : Except Err Records := do
    let rs ← arrayToSite tkey fmt r
    checkRecords fmt.siteSingleTypes fmt.siteArrayTypes rs
    .ok rs
  match res with
  | .ok rs => .ok rs
  | .error _ => .error .restructure

/-- What `BorealisRead` holds. -/
inductive Handler
  | array (r : Reader Rec)
  | site (r : Reader Records)
  deriving DecidableEq, Repr

/-- The exceptions after which the other structure is tried
(/repo/pydarnio/borealis/borealis.py:251-253, 491-493). -/
def fallsBack : Err → Bool
  | .extraField _ => true
  | .fieldMissing _ => true
  | .structure => true
  | _ => false

/-- `return_reader` (/repo/pydarnio/borealis/borealis.py:214-263). -/
def returnReader (fs : FSys) (p ft : PyStr) : Except Err Handler :=
  match arrayRead fs p ft with
  | .ok r => .ok (.array r)
  | .error e =>
    if fallsBack e then
      match siteRead fs p ft with
      | .ok r => .ok (.site r)
      | .error e => .error e
    else .error e

/-- `BorealisRead(filename, borealis_filetype, borealis_file_structure)`
(/repo/pydarnio/borealis/borealis.py:98-146). -/
def borealisRead (fs : FSys) (p ft : PyStr) (st : Option PyStr) : Except Err Handler :=
  match parseFType ft with
  | none => .error .fileType
  | some _ =>
    match st with
    | none => returnReader fs p ft
    | some s =>
      if s = py! "site" then do .ok (.site (← siteRead fs p ft))
      else if s = py! "array" then do .ok (.array (← arrayRead fs p ft))
      else .error .structure

/-- The property `records` of `BorealisRead` (/repo/pydarnio/borealis/borealis.py:180-186). -/
def Handler.records (tkey : Elt → Except Err PyStr) : Handler → Except Err Records
  | .array r => recordsOf tkey (formatOf r.version r.ftype) r.content
  | .site r => .ok r.content

/-- The property `arrays` of `BorealisRead` (/repo/pydarnio/borealis/borealis.py:188-194). -/
def Handler.arrays : Handler → Except Err Rec
  | .array r => .ok r.content
  | .site r => arraysOf (formatOf r.version r.ftype) r.content

/-! ## Writing -/

/-- Data to write: a dictionary of values or a dictionary of records.  A dictionary with both is
not modelled; an empty one is either. -/
inductive Data
  | arrays (r : Rec)
  | records (rs : Records)
  deriving DecidableEq, Repr

/-- `v.split('-')`: of a string; that of bytes does not take a string. -/
def splitText : Val → Except Err PyStr
  | .py .str (.str s) => .ok s
  | .np .npStr (.str s) => .ok s
  | .np .npBytes _ => .error .typeError
  | _ => .error .attributeError

/-- `v['borealis_git_hash']` for a value that is no dictionary: arrays and numbers of NumPy raise
`IndexError`. -/
def indexByName : Val → Err
  | .arr _ => .indexError
  | .np .npStr _ => .typeError
  | .np .npBytes _ => .typeError
  | .np _ _ => .indexError
  | .py _ _ => .typeError

/-- The version of the data for a site file (/repo/pydarnio/borealis/borealis_site.py:353-367). -/
def siteDataHash (d : Data) : Except Err PyStr :=
  asStructure [.indexError, .valueError] (
    match d with
    | .arrays r =>
      match sortStrs r.keys with
      | [] => .error .indexError
      | n :: _ => do .error (indexByName (← field r n))
    | .records rs =>
      match sortStrs rs.keys with
      | [] => .error .indexError
      | n :: _ => do splitText (← field (← field rs n) (py! "borealis_git_hash")))

/-- The version of the data for an array file (/repo/pydarnio/borealis/borealis_array.py:329-336).  A
record has no `split`. -/
def arrayDataHash (d : Data) : Except Err PyStr :=
  asStructure [.keyError] (
    match d with
    | .arrays r => do splitText (← field r (py! "borealis_git_hash"))
    | .records rs => do
      let _ ← field rs (py! "borealis_git_hash")
      .error .attributeError)

/-- Open the file for appending, write, and close it, also after an exception. -/
def writing (fs : FSys) (p : PyStr) (w : H5 → Except Err Unit × H5) : Except Err Unit × FSys :=
  match fs.openA p with
  | .error e => (.error e, fs)
  | .ok f =>
    match w f with
    | (res, f') => (res, fs.put p (.h5 f'))

/-- The part of `BorealisSiteWrite` before the file is opened
(/repo/pydarnio/borealis/borealis_site.py:314-379, 486-489): the format and the records.  For an unknown
file type the exception is made of `self.filename`, which is not set yet. -/
def siteWriteCheck (d : Data) (ft : PyStr) : Except Err (Format × Records) :=
  match parseFType ft with
  | none => .error .attributeError
  | some t => do
    let v ← selectVersion (← siteDataHash d)
    tables (formatOf v t)
    match d with
    | .arrays _ => .error .unmodelled
    | .records rs =>
      checkRecords (formatOf v t).siteSingleTypes (formatOf v t).siteArrayTypes rs
      .ok (formatOf v t, rs)

/-- `BorealisSiteWrite(filename, borealis_records, borealis_filetype, hdf5_compression)`
(/repo/pydarnio/borealis/borealis_site.py:314-379, 460-491). -/
def siteWrite (h : H5Cfg) (fs : FSys) (p : PyStr) (d : Data) (ft : PyStr) (comp : Option PyStr) :
    Except Err Unit × FSys :=
  match siteWriteCheck d ft with
  | .error e => (.error e, fs)
  | .ok (fmt, rs) => writing fs p fun f => writeRecords h comp fmt f rs

/-- The part of `BorealisArrayWrite` before the file is opened
(/repo/pydarnio/borealis/borealis_array.py:290-346, 452-456). -/
def arrayWriteCheck (d : Data) (ft : PyStr) : Except Err (Format × Rec) :=
  match parseFType ft with
  | none => .error .fileType
  | some t => do
    let v ← selectVersion (← arrayDataHash d)
    tables (formatOf v t)
    match d with
    | .records _ => .error .unmodelled
    | .arrays r =>
      checkArrays (formatOf v t).arraySingleTypes (formatOf v t).arrayArrayTypes (formatOf v t).unshared r
      .ok (formatOf v t, r)

/-- `BorealisArrayWrite(filename, borealis_arrays, borealis_filetype, hdf5_compression)`
(/repo/pydarnio/borealis/borealis_array.py:290-347, 428-458). -/
def arrayWrite (h : H5Cfg) (fs : FSys) (p : PyStr) (d : Data) (ft : PyStr) (comp : Option PyStr) :
    Except Err Unit × FSys :=
  match arrayWriteCheck d ft with
  | .error e => (.error e, fs)
  | .ok (fmt, r) => writing fs p fun f => writeArrays h comp fmt f r

/-- The default of `hdf5_compression` of `BorealisArrayWrite`
(/repo/pydarnio/borealis/borealis_array.py:291). -/
def arrayCompression : Option PyStr := some (py! "zlib")

/-- The default of `hdf5_compression` of `BorealisSiteWrite`
(/repo/pydarnio/borealis/borealis_site.py:317). -/
def siteCompression : Option PyStr := none

/-- The structure of the file that was written. -/
inductive Struct
  | array | site
  deriving DecidableEq, Repr

/-- `return_writer` (/repo/pydarnio/borealis/borealis.py:446-504); `comp`: the argument
`hdf5_compression` if it is given. -/
def returnWriter (h : H5Cfg) (fs : FSys) (p : PyStr) (d : Data) (ft : PyStr) (comp : Option (Option PyStr)) :
    Except Err Struct × FSys :=
  match arrayWrite h fs p d ft (comp.getD arrayCompression) with
  | (.ok (), fs) => (.ok .array, fs)
  | (.error e, fs) =>
    if fallsBack e then
      match siteWrite h fs p d ft (comp.getD siteCompression) with
      | (.ok (), fs) => (.ok .site, fs)
      | (.error e, fs) => (.error e, fs)
    else (.error e, fs)

/-- `BorealisWrite(filename, borealis_data, borealis_filetype, borealis_file_structure, …)`
(/repo/pydarnio/borealis/borealis.py:320-365). -/
def borealisWrite (h : H5Cfg) (fs : FSys) (p : PyStr) (d : Data) (ft : PyStr) (st : Option PyStr)
    (comp : Option (Option PyStr)) : Except Err Struct × FSys :=
  match st with
  | none => returnWriter h fs p d ft comp
  | some s =>
    if s = py! "site" then
      match siteWrite h fs p d ft (comp.getD siteCompression) with
      | (.ok (), fs) => (.ok .site, fs)
      | (.error e, fs) => (.error e, fs)
    else if s = py! "array" then
      match arrayWrite h fs p d ft (comp.getD arrayCompression) with
      | (.ok (), fs) => (.ok .array, fs)
      | (.error e, fs) => (.error e, fs)
    else (.error .structure, fs)

end Verif.Bor
