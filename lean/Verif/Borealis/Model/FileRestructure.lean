import Verif.Borealis.Model.Objects
/-!
# Restructuring files: `BorealisRestructure`

Model of /repo/pydarnio/borealis/borealis_restructure.py, of `site_get_max_dims`
(/repo/pydarnio/borealis/base_format.py:553-626 and its overrides) and of
/repo/pydarnio/borealis/borealis_utilities.py:516-617.

* As in `Restructure.lean` the loops over records and fields are done field by field, so which of
  several exceptions is raised first can differ from the code.
* A value of `h5py.Empty` is a number of a type that no table lists.  Assigning one to an element
  of an array of strings stores a text made of its type, which is not modelled.
-/
namespace Verif.Bor

/-! ## The file -/

/-- `get_record_names` (/repo/pydarnio/borealis/borealis_utilities.py:516-543): the names in the
file, which h5py sorts, and the attributes of the root. -/
def recordNames (f : H5) : List PyStr :=
  sortStrs f.keys ++ f.root.attrs.keys.filter fun k => k ∉ defaultAttrs

/-- `get_borealis_structure` (/repo/pydarnio/borealis/borealis_utilities.py:545-566). -/
def structureOf (names : List PyStr) : Struct :=
  if py! "borealis_git_hash" ∈ names then .array else .site

/-- `get_borealis_version` up to the version of the hash
(/repo/pydarnio/borealis/borealis_utilities.py:568-612): only `KeyError` is caught. -/
def fileHash (f : H5) : Struct → Except Err PyStr
  | .array => asStructure [.keyError] (hashOf f.root.attrs)
  | .site =>
    asStructure [.keyError] (
      match sortStrs f.keys with
      | [] => .error .indexError
      | n :: _ =>
        match f.groups.get? n with
        | none => .error .keyError
        | some g => hashOf g.attrs)

/-- `borealis_version_dict[version]` (/repo/pydarnio/borealis/borealis_restructure.py:130-131). -/
def restructureVersion (hash : PyStr) : Except Err Version :=
  match lookupVersion (versionOf hash) with
  | some v => .ok v
  | none => .error .keyError

/-- `h5py.Empty` as a value of a dictionary.  It is no scalar: its `shape` is `None`, so the type
check of the attributes passes it.  Where it would get there the model stops (`unmodelled`). -/
def emptyValue : Val := .np (.other 0) (.bytes [])

/-- `b.decode('ascii')`, which NumPy does when bytes are stored in an array of strings. -/
def decodeAscii : Bytes → Except Err PyStr
  | [] => .ok []
  | b :: bs => if b.toNat < 128 then do .ok (Char.ofNat b.toNat :: (← decodeAscii bs)) else .error .valueError

/-! ## From site to array -/

/-- What `site_get_max_dims` returns. -/
structure MaxDims where
  dims : Dict PyStr (List Nat)
  seqs : Int
  beams : Nat
  deriving DecidableEq, Repr

/-- An attribute that is an integer. -/
def Attr.int : Attr → Except Err Int
  | .value v => v.int
  | _ => .error .unmodelled

/-- The shape of `pulse_phase_offset` (/repo/pydarnio/borealis/base_format.py:601-612); `none`: a
`KeyError`, after which the field is skipped. -/
def ppoShape (g : Group) (d : NdArr) : Except Err (Option (List Nat)) :=
  match g.dsets.get? (py! "data_dimensions") with
  | none => .ok none
  | some dd => do
    let ns ← (Val.arr dd.arr).elemInt 1
    match g.dsets.get? (py! "pulses") with
    | none => .ok none
    | some p =>
      let size : Int := prod d.shape
      if size ≠ ns * (prod p.arr.shape : Int) ∧ size ≠ 0 then
        if size = 1 then .ok (some [0]) else .error .valueError
      else .ok (some d.shape)

/-- The shape of a dataset of a record, or `none` if it is skipped
(/repo/pydarnio/borealis/base_format.py:598-614). -/
def dsetShape (g : Group) (k : PyStr) : Except Err (Option (List Nat)) :=
  match g.dsets.get? k with
  | none => .ok none
  | some d => if k = py! "pulse_phase_offset" then ppoShape g d.arr else .ok (some d.arr.shape)

/-- The first record sets the dimensions, and alone the number of beams; the other records
increase the dimensions (/repo/pydarnio/borealis/base_format.py:615-625). -/
def addShape (first : Bool) (k : PyStr) (s : List Nat) (m : MaxDims) : Except Err MaxDims :=
  if first then
    let m' := { m with dims := m.dims.set k s }
    if k = py! "beam_nums" then
      match s with
      | [] => .error .indexError
      | n :: _ => .ok { m' with beams := max n m.beams }
    else .ok m'
  else do
    let old ← field m.dims k
    .ok { m with dims := m.dims.set k (List.zipWith max old s) }

/-- One field of one record (/repo/pydarnio/borealis/base_format.py:590-625). -/
def maxDimsField (g : Group) (first : Bool) (k : PyStr) (m : MaxDims) : Except Err MaxDims :=
  match g.attrs.get? k with
  | some a =>
    if k = py! "num_sequences" then do .ok { m with seqs := max m.seqs (← a.int) } else .ok m
  | none => do
    match ← dsetShape g k with
    | none => .ok m
    | some s => addShape first k s m

/-- The fields of one record. -/
def maxDimsFields (g : Group) (first : Bool) : List PyStr → MaxDims → Except Err MaxDims
  | [], m => .ok m
  | k :: ks, m => do maxDimsFields g first ks (← maxDimsField g first k m)

/-- The loop over the records; a dataset has no fields. -/
def maxDimsLoop (f : H5) (ks : List PyStr) : Bool → List PyStr → MaxDims → Except Err MaxDims
  | _, [], m => .ok m
  | first, n :: ns, m =>
    match f.groups.get? n with
    | none => .error .valueError
    | some g => do maxDimsLoop f ks false ns (← maxDimsFields g first ks m)

/-- `BaseFormat.site_get_max_dims` (/repo/pydarnio/borealis/base_format.py:553-626). -/
def baseMaxDims (f : H5) (unshared : List PyStr) : Except Err MaxDims :=
  maxDimsLoop f unshared true (sortStrs f.keys) ⟨unshared.map fun k => (k, []), 0, 0⟩

/-- A dimension of the main data. -/
inductive MainDim
  | seqs | beams
  /-- An element of the dimensions in the first record. -/
  | first (i : Nat)
  deriving DecidableEq, Repr

/-- What a format's `site_get_max_dims` changes. -/
structure MainDims where
  /-- The field with the dimensions of the first record. -/
  source : PyStr
  /-- How many dimensions it must have. -/
  count : Nat
  fields : List PyStr
  dims : List MainDim

/-- The overrides of `site_get_max_dims` (/repo/pydarnio/borealis/borealis_formats.py:739-774,
1063-1094, 1370-1403, 2366-2401). -/
def mainDims : Version → FType → MainDims
  | .v07, .rawacf =>
    ⟨py! "data_dimensions", 3, [py! "main_acfs", py! "intf_acfs", py! "xcfs"], [.beams, .first 1, .first 2]⟩
  | _, .rawacf =>
    ⟨py! "correlation_dimensions", 3, [py! "main_acfs", py! "intf_acfs", py! "xcfs"],
      [.beams, .first 1, .first 2]⟩
  | _, .bfiq => ⟨py! "data_dimensions", 4, [py! "data"], [.first 0, .seqs, .beams, .first 3]⟩
  | _, .antennasIq => ⟨py! "data_dimensions", 3, [py! "data"], [.first 0, .seqs, .first 2]⟩
  | _, .rawrf => ⟨[], 0, [], []⟩

/-- The size of a dimension of the main data. -/
def mainSize (m : MaxDims) (ds : List Nat) : MainDim → Nat
  | .seqs => m.seqs.toNat
  | .beams => m.beams
  | .first i => ds.getD i 0

/-- The dimensions in the first record of the file. -/
def firstDims (f : H5) (source : PyStr) : Except Err (List Nat) :=
  match sortStrs f.keys with
  | [] => .error .indexError
  | n :: _ =>
    match f.groups.get? n with
    | none => .error .valueError
    | some g => do (Val.arr (← field g.dsets source).arr).dimsOf

/-- `site_get_max_dims` of a format. -/
def maxDims (f : H5) (unshared : List PyStr) (md : MainDims) : Except Err MaxDims := do
  let m ← baseMaxDims f unshared
  let ds ← firstDims f md.source
  if ds.length = md.count then
    .ok { m with dims := update m.dims (md.fields.map fun k => (k, md.dims.map (mainSize m ds))) }
  else .error .valueError

/-- An attribute as it is in the dictionary of a record
(/repo/pydarnio/borealis/borealis_restructure.py:334-339). -/
def rawAttr : Attr → Val
  | .bytes b => .np .npBytes (.bytes b)
  | .empty _ => emptyValue
  | .value v => v

/-- `dset[()]`: an array, or a number. -/
def rawDset (d : Dset) : Val :=
  match d.arr.shape, d.arr.data with
  | [], e :: _ => .np d.arr.ty e
  | _, _ => .arr d.arr

/-- The names of boolean fields (/repo/pydarnio/borealis/base_format.py:999-1011). -/
def boolFields (fmt : Format) : List PyStr := Dict.keys (fmt.single.filter fun p => p.2 = .npBool)

/-- Boolean fields must be attributes (/repo/pydarnio/borealis/borealis_restructure.py:338-339). -/
def boolCheck (attrs : Dict PyStr Attr) : List PyStr → Except Err Unit
  | [] => .ok ()
  | k :: ks => do
    let _ ← field attrs k
    boolCheck attrs ks

/-- The dictionary of a record (/repo/pydarnio/borealis/borealis_restructure.py:329-339). -/
def rawRecord (fmt : Format) (g : Group) : Except Err Rec := do
  boolCheck g.attrs (boolFields fmt)
  .ok (update (g.dsets.map fun p => (p.1, rawDset p.2))
    ((g.attrs.filter fun p => p.1 ∉ [py! "CLASS", py! "TITLE", py! "VERSION"]).map
      fun p => (p.1, rawAttr p.2)))

/-- The dictionaries of all records; a name that is no group has no `keys`
(/repo/pydarnio/borealis/borealis_restructure.py:327-330). -/
def rawRecords (fmt : Format) (f : H5) : List PyStr → Except Err Records
  | [] => .ok []
  | n :: ns =>
    match f.groups.get? n with
    | none => .error (if n ∈ f.root.dsets.keys then .attributeError else .keyError)
    | some g => do
      let r ← rawRecord fmt g
      let rs ← rawRecords fmt f ns
      .ok ((n, r) :: rs)

/-- The text of a shared field of one text (/repo/pydarnio/borealis/borealis_restructure.py:353-363);
`Empty` of another type than bytes and everything else raise `TypeError`.  Without an attribute
the value is that of a dataset. -/
def sharedText (v : Val) : Option Attr → Except Err Val
  | some (.bytes b) => do .ok (.py .str (.str (← decodeUtf8 b)))
  | some (.empty .npBytes) => .ok (.py .str (.str []))
  | some _ => .error .typeError
  | none =>
    match v with
    | .np .npBytes (.bytes b) => do .ok (.py .str (.str (← decodeUtf8 b)))
    | _ => .error .typeError

/-- A dataset of texts (/repo/pydarnio/borealis/borealis_restructure.py:216-218, 365-367). -/
def textDset (ds : Dict PyStr Dset) (k : PyStr) : Except Err Val := do
  let d ← field ds k
  match d.itemsize with
  | none => .error .keyError
  | some w => do .ok (.arr (← viewText w (← d.all)))

/-- A shared field, from the first record (/repo/pydarnio/borealis/borealis_restructure.py:349-369). -/
def sharedOfRecord (fmt : Format) (g : Group) (r : Rec) (k : PyStr) : Except Err Val := do
  let v ← field r k
  if fmt.single.get? k = some .str then sharedText v (g.attrs.get? k)
  else if fmt.arrays.get? k = some .npStr then textDset g.dsets k
  else
    match g.attrs.get? k with
    | some (.empty _) => .error .unmodelled
    | _ => .ok v

/-- A generated field (/repo/pydarnio/borealis/borealis_restructure.py:371-391). -/
def generatedOf (fmt : Format) (rs : Records) (k : PyStr) : GenA → Except Err Val
  | .lens fl => do
    let t ← field fmt.single k
    .ok (vec t ((← lensOf fl rs).map fun (n : Nat) => .int (Int.ofNat n)))
  | .const t l => .ok (vec t (l.map (constElt t)))

/-- A value to be stored in an array made for the type: bytes become a string.  `Empty` is no
number, and what it is as a string or a boolean is not modelled. -/
def storable (t : Ty) (v : Val) : Except Err Val :=
  if t = .str then
    match v with
    | .np .npBytes (.bytes b) => do .ok (.py .str (.str (← decodeAscii b)))
    | .np (.other _) _ => .error .unmodelled
    | _ => .ok v
  else
    match v with
    | .np (.other _) _ => .error (if t = .npBool then .unmodelled else .typeError)
    | _ => .ok v

/-- The loop over the records that fills the array of a field
(/repo/pydarnio/borealis/borealis_restructure.py:425-439). -/
def fillFromFile (t : Ty) (k : PyStr) : Nat → NdArr → Records → Except Err NdArr
  | _, a, [] => .ok a
  | i, a, (_, r) :: rs => do
    let v ← field r k
    let v ← storable t v
    let a' ← assign t a i (match v with | .arr b => b.shape | _ => []) v.asArr
    fillFromFile t k (i + 1) a' rs

/-- The array of an unshared field (/repo/pydarnio/borealis/borealis_restructure.py:394-439). -/
def buildFromFile (fmt : Format) (m : MaxDims) (rs : Records) (k : PyStr) : Except Err Val := do
  let shape ← field m.dims k
  let t ← fmt.typeOf k
  let e ← fillOf t
  .ok (.arr (← fillFromFile t k 0 (.ofFn (arrayTy t) (rs.length :: shape) fun _ => e) rs))

/-- The arrays of a site file (/repo/pydarnio/borealis/borealis_restructure.py:315-439). -/
def arraysOfFile (fmt : Format) (md : MainDims) (f : H5) : Except Err Rec := do
  let m ← maxDims f fmt.unshared md
  let rs ← rawRecords fmt f (recordNames f)
  let rs ← mapRecords (reshapeRec fmt) rs
  match recordNames f, rs with
  | n :: _, (_, first) :: _ =>
    match f.groups.get? n with
    | none => .error .keyError
    | some g => do
      let shared ← forFields (fun k (_ : Unit) => sharedOfRecord fmt g first k)
        (fmt.shared.map fun k => (k, ()))
      let spec ← forFields (generatedOf fmt rs) fmt.genArray
      let un ← forFields (fun k (_ : List DimA) => buildFromFile fmt m rs k) fmt.dimsArray
      .ok (update (update (update [] shared) spec) un)
  | _, _ => .ok []

/-- An `except` clause that raises `BorealisRestructureError` instead. -/
def asRestructure {α : Type} (caught : Err → Bool) (x : Except Err α) : Except Err α :=
  match x with
  | .ok a => .ok a
  | .error e => if caught e then .error .restructure else .error e

/-- `_site_to_array_restructure` (/repo/pydarnio/borealis/borealis_restructure.py:302-452): only
`TypeError` is caught.  The input file is closed before the output file is written. -/
def siteFileToArray (h : H5Cfg) (fs : FSys) (f : H5) (out : PyStr) (v : Version) (t : FType)
    (comp : Option PyStr) : Except Err Unit × FSys :=
  let fmt := formatOf v t
  match (do
    let r ← arraysOfFile fmt (mainDims v t) f
    checkArrays fmt.arraySingleTypes fmt.arrayArrayTypes fmt.unshared r
    .ok r : Except Err Rec) with
  | .error e => (asRestructure (· == .typeError) (.error e), fs)
  | .ok r =>
    match writing fs out fun o => writeArrays h comp fmt o r with
    | (res, fs') => (asRestructure (· == .typeError) res, fs')

/-! ## From array to site -/

/-- An attribute of the root (/repo/pydarnio/borealis/borealis_restructure.py:212-214).  `Empty`
would pass the check and be written again. -/
def loadAttr : Attr → Except Err Val
  | .bytes b => do .ok (.py .str (.str (← decodeUtf8 b)))
  | .empty _ => .error .unmodelled
  | .value v => .ok v

/-- A shared field (/repo/pydarnio/borealis/borealis_restructure.py:210-221). -/
def sharedOfFile (fmt : Format) (root : Group) (k : PyStr) : Except Err Val :=
  if k ∈ fmt.siteSingleTypes.keys then do loadAttr (← field root.attrs k)
  else if fmt.arrays.get? k = some .npStr then textDset root.dsets k
  else do .ok (.arr (← (← field root.dsets k).all))

/-- A field with one element per record (/repo/pydarnio/borealis/borealis_restructure.py:225-233). -/
def singlesOfFile (fmt : Format) (root : Group) (k : PyStr) : Except Err Val :=
  if fmt.single.get? k = some .str then textDset root.dsets k
  else do .ok (.arr (← (← field root.dsets k).all))

/-- The datasets of the root, as the dimension functions see them. -/
def rootDsets (root : Group) : Rec := root.dsets.map fun p => (p.1, .arr p.2.arr)

/-- An unshared field of one record (/repo/pydarnio/borealis/borealis_restructure.py:258-284). -/
def siteFieldOfFile (fmt : Format) (root : Group) (i : Nat) (k : PyStr) (dims : List DimS) :
    Except Err Val :=
  match fmt.single.get? k with
  | some t => do singleOf t (← singlesOfFile fmt root k) i
  | none => do
    let ls ← evalSiteDims (rootDsets root) i dims
    let d ← field root.dsets k
    .ok (.arr (← getRow d.arr i (ls.filter (· ≠ -1))))

/-- One record (/repo/pydarnio/borealis/borealis_restructure.py:244-284). -/
def recordOfFile (fmt : Format) (root : Group) (i : Nat) : Except Err Rec := do
  let shared ← forFields (fun k (_ : Unit) => sharedOfFile fmt root k) (fmt.shared.map fun k => (k, ()))
  let spec ← forFields (fun _ g => evalGenS (rootDsets root) i g) fmt.genSite
  let un ← forFields (fun k dims => siteFieldOfFile fmt root i k dims) fmt.dimsSite
  .ok (update (update (update [] shared) spec) un)

/-- One record with its name, ready to be written
(/repo/pydarnio/borealis/borealis_restructure.py:237-290); the types of the arrays are checked with
`array_dtypes()`. -/
def rowOfFile (tkey : Elt → Except Err PyStr) (fmt : Format) (root : Group) (ts : NdArr) (i : Nat) :
    Except Err (PyStr × Rec) := do
  let key ← rowKey tkey ts i
  let r ← recordOfFile fmt root i
  let r ← flattenRec fmt r
  let r ← ppoSiteFix1 r
  checkRecords fmt.siteSingleTypes fmt.arrays [(key, r)]
  .ok (key, r)

/-- The loop over the records; every record is written on its own
(/repo/pydarnio/borealis/borealis_restructure.py:237-294).  The input file is open: the same file
cannot be opened for writing. -/
def writeRows (h : H5Cfg) (tkey : Elt → Except Err PyStr) (fmt : Format) (root : Group) (ts : NdArr)
    (same : Bool) (out : PyStr) (comp : Option PyStr) : List Nat → FSys → Except Err Unit × FSys
  | [], fs => (.ok (), fs)
  | i :: is, fs =>
    match rowOfFile tkey fmt root ts i with
    | .error e => (.error e, fs)
    | .ok p =>
      if same then (.error .osError, fs)
      else
        match writing fs out fun o => writeRecords h comp fmt o [p] with
        | (.error e, fs') => (.error e, fs')
        | (.ok (), fs') => writeRows h tkey fmt root ts same out comp is fs'

/-- What is done once before the loop
(/repo/pydarnio/borealis/borealis_restructure.py:206-235): fields that cannot be loaded raise an
exception before anything is written.  The result is `sqn_timestamps`. -/
def loadOnce (fmt : Format) (root : Group) : Except Err NdArr := do
  let _ ← forFields (fun k (_ : Unit) => sharedOfFile fmt root k) (fmt.shared.map fun k => (k, ()))
  let _ ← forFields (fun k (_ : Unit) => singlesOfFile fmt root k)
    ((fmt.unshared.filter fun k => k ∈ fmt.single.keys).map fun k => (k, ()))
  (← field root.dsets (py! "sqn_timestamps")).all

/-- `_array_to_site_restructure` (/repo/pydarnio/borealis/borealis_restructure.py:190-300): every
exception is caught; the records written before it stay in the output file. -/
def arrayFileToSite (h : H5Cfg) (tkey : Elt → Except Err PyStr) (fs : FSys) (f : H5) (inp out : PyStr)
    (fmt : Format) (comp : Option PyStr) : Except Err Unit × FSys :=
  match loadOnce fmt f.root with
  | .error _ => (.error .restructure, fs)
  | .ok ts =>
    match writeRows h tkey fmt f.root ts (decide (fs.node inp = fs.node out)) out comp
        (List.range (ts.shape.headD 0)) fs with
    | (.ok (), fs') => (.ok (), fs')
    | (.error _, fs') => (.error .restructure, fs')

/-! ## `BorealisRestructure` -/

/-- `borealis_filetype in ['antennas_iq', 'bfiq', 'rawacf']`
(/repo/pydarnio/borealis/borealis_restructure.py:110). -/
def restructureType (ft : PyStr) : Option FType :=
  [FType.antennasIq, .bfiq, .rawacf].find? fun t => t.name = ft

/-- `outfile_structure in ['site', 'array']` (/repo/pydarnio/borealis/borealis_restructure.py:115). -/
def restructureTo (st : PyStr) : Option Struct :=
  if st = py! "site" then some .site else if st = py! "array" then some .array else none

/-- The file, its structure and its version (/repo/pydarnio/borealis/borealis_restructure.py:125-131). -/
def examine (fs : FSys) (p : PyStr) : Except Err (H5 × Struct × Version) := do
  let f ← fs.openR p
  let s := structureOf (recordNames f)
  let v ← restructureVersion (← fileHash f s)
  .ok (f, s, v)

/-- `restructure` (/repo/pydarnio/borealis/borealis_restructure.py:168-188). -/
def restructure (h : H5Cfg) (tkey : Elt → Except Err PyStr) (fs : FSys) (f : H5) (s s' : Struct)
    (inp out : PyStr) (v : Version) (t : FType) (comp : Option PyStr) : Except Err Unit × FSys :=
  if s = s' then (.ok (), fs)
  else if (formatOf v t).restructureable then
    match s' with
    | .site => arrayFileToSite h tkey fs f inp out (formatOf v t) comp
    | .array => siteFileToArray h fs f out v t comp
  else (.error .restructure, fs)

/-- `BorealisRestructure(infile_name, outfile_name, borealis_filetype, outfile_structure,
hdf5_compression)` (/repo/pydarnio/borealis/borealis_restructure.py:78-133). -/
def borealisRestructure (h : H5Cfg) (tkey : Elt → Except Err PyStr) (fs : FSys) (inp out ft st : PyStr)
    (comp : Option PyStr) : Except Err Unit × FSys :=
  match restructureType ft with
  | none => (.error .fileType, fs)
  | some t =>
    match restructureTo st with
    | none => (.error .structure, fs)
    | some s' =>
      if inp = out then (.error .overwrite, fs)
      else
        match examine fs inp with
        | .error e => (.error e, fs)
        | .ok (f, s, v) => restructure h tkey fs f s s' inp out v t comp

end Verif.Bor
