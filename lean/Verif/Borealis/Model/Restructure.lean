import Verif.Borealis.Model.Formats
/-!
# Restructuring in memory: `_site_to_array` and `_array_to_site`

Model of /repo/pydarnio/borealis/base_format.py:1014-1232, 1436-1572 with the reshape and flatten
functions and the dimension functions of /repo/pydarnio/borealis/borealis_formats.py.

* The loops over records and fields are done field by field.  Which of several exceptions is
  raised first can therefore differ from the code; that one is raised does not.
* Lengths and dimensions stored in `uint32` arrays are kept as integers (no array has 2³² rows).
* Converting an element to another type does not fail and gives `Elt.cast`.
* Arrays are values: that `_array_to_site` returns views is not modelled.
* `tkey` is the record name made of a timestamp
  (/repo/pydarnio/borealis/base_format.py:1188-1190), a parameter of the model.
-/
namespace Verif.Bor

/-! ## Numpy indexing -/

/-- Length of `slice(0, i)` of a dimension `d`. -/
def sliceLen (i : Int) (d : Nat) : Nat :=
  if 0 ≤ i then min i.toNat d else ((d : Int) + i).toNat

/-- Shape of `a[slice(0, i), …]` for the shape of `a`; `none`: too many indices. -/
def slicedShape : List Int → List Nat → Option (List Nat)
  | [], ds => some ds
  | _ :: _, [] => none
  | i :: is, d :: ds => (slicedShape is ds).map (sliceLen i d :: ·)

/-- `a[i, slice(0, l), …]`. -/
def getRow (a : NdArr) (i : Nat) (ls : List Int) : Except Err NdArr :=
  match a.shape with
  | [] => .error .indexError
  | n :: ds =>
    if i < n then
      match slicedShape ls ds with
      | none => .error .indexError
      | some s => .ok (.ofFn a.ty s fun idx => a.get (i :: idx))
    else .error .indexError

/-- Drop leading dimensions of one until the rank is at most `n`. -/
def stripOnes (n : Nat) : List Nat → List Nat
  | 1 :: ds => if ds.length ≥ n then stripOnes n ds else 1 :: ds
  | ds => ds

/-- Dimensions from the last one on: equal, or one in the value. -/
def fitsRev : List Nat → List Nat → Bool
  | [], _ => true
  | _ :: _, [] => false
  | d :: ds, e :: es => (d == e || d == 1) && fitsRev ds es

/-- A value of shape `s` can be assigned to a target of shape `t`. -/
def broadcasts (s t : List Nat) : Bool := fitsRev (stripOnes t.length s).reverse t.reverse

/-- The index into the value for an index of the target, from the last dimension on. -/
def bidxRev : List Nat → List Nat → List Nat
  | [], _ => []
  | _ :: ds, [] => 0 :: bidxRev ds []
  | d :: ds, i :: is => (if d = 1 then 0 else i) :: bidxRev ds is

/-- The index into a value of shape `s` for an index of the target. -/
def bidx (s idx : List Nat) : List Nat := (bidxRev s.reverse idx.reverse).reverse

/-- What numpy keeps of a string in an array of `|U256`: at most 256 characters, and no NUL
characters at the end. -/
def u256 (s : PyStr) : PyStr := ((s.take 256).reverse.dropWhile (· = '\x00')).reverse

/-- An element of type `src` stored in an array created for the table type `t`
(/repo/pydarnio/borealis/base_format.py:1105-1109). -/
def storeAs (t src : Ty) (e : Elt) : Elt :=
  if t = .str then
    match e with
    | .str s => .str (u256 s)
    | _ => .cast .npStr e
  else if src = t then e
  else .cast t e

/-- `dtype.type` of an array created for the table type. -/
def arrayTy (t : Ty) : Ty := if t = .str then .npStr else t

/-- `a[i, slice(0, l), …] = b` for the table type `t` of `a`. -/
def assign (t : Ty) (a : NdArr) (i : Nat) (ls : List Nat) (b : NdArr) : Except Err NdArr :=
  match a.shape with
  | [] => .error .indexError
  | n :: ds =>
    if i < n then
      match slicedShape (ls.map Int.ofNat) ds with
      | none => .error .indexError
      | some s =>
        if broadcasts b.shape s then
          .ok (.ofFn a.ty a.shape fun idx =>
            match idx with
            | [] => a.get idx
            | j :: is =>
              if j = i ∧ inBounds s is = true then storeAs t b.ty (b.get (bidx b.shape is)) else a.get idx)
        else .error .valueError
    else .error .indexError

/-- A value as something to assign: a scalar is an array without dimensions. -/
def Val.asArr : Val → NdArr
  | .py t e => ⟨t, [], [e]⟩
  | .np t e => ⟨t, [], [e]⟩
  | .arr a => a

/-! ## Helpers of the formats -/

/-- `len(v)`; that of a string scalar of NumPy is not modelled. -/
def Val.len : Val → Except Err Nat
  | .arr a =>
    match a.shape with
    | [] => .error .typeError
    | n :: _ => .ok n
  | .py .str (.str s) => .ok s.length
  | .np .npStr _ | .np .npBytes _ => .error .unmodelled
  | _ => .error .typeError

/-- A scalar used as an integer. -/
def Val.int : Val → Except Err Int
  | .py _ (.int i) => .ok i
  | .np _ (.int i) => .ok i
  | _ => .error .unmodelled

/-- `v[i]` of a one-dimensional array of integers. -/
def Val.elemInt (v : Val) (i : Nat) : Except Err Int :=
  match v with
  | .arr a =>
    match a.shape with
    | [_] =>
      match a.get? [i] with
      | some (.int j) => .ok j
      | some _ => .error .unmodelled
      | none => .error .indexError
    | _ => .error .unmodelled
  | _ => .error .unmodelled

/-- `v.shape[i]`. -/
def Val.shapeAt (v : Val) (i : Nat) : Except Err Nat := do
  let s ← v.shape?
  match s[i]? with
  | some d => .ok d
  | none => .error .indexError

/-- `records[first_key]`. -/
def firstRec : Records → Except Err Rec
  | [] => .error .indexError
  | p :: _ => .ok p.2

/-- `find_max_sequences` (/repo/pydarnio/borealis/base_format.py:1436-1462). -/
def findMaxSequences : Records → Except Err Int
  | rs => go 0 rs
where
  go (m : Int) : Records → Except Err Int
    | [] => .ok m
    | (_, r) :: rs => do
      let v ← field r (py! "num_sequences")
      let n ← v.int
      go (if m < n then n else m) rs

/-- `find_max_field_len_func(f)` (/repo/pydarnio/borealis/base_format.py:1494-1536), and with
`beam_nums` `find_max_beams` (1465-1491). -/
def findMaxLen (f : PyStr) : Records → Except Err Nat
  | rs => go 0 rs
where
  go (m : Nat) : Records → Except Err Nat
    | [] => .ok m
    | (_, r) :: rs => do
      let v ← field r f
      let n ← v.len
      go (if m < n then n else m) rs

/-- The loop of `find_max_pulse_phase_offset` (/repo/pydarnio/borealis/base_format.py:1566-1569);
shapes of different rank make no array. -/
def maxPpoShape (m : List Nat) : Records → Except Err (List Nat)
  | [] => .ok m
  | (_, r) :: rs => do
    let v ← field r (py! "pulse_phase_offset")
    let s ← v.shape?
    if s.length = m.length then maxPpoShape (List.zipWith max s m) rs else .error .valueError

/-- `find_max_pulse_phase_offset` (/repo/pydarnio/borealis/base_format.py:1539-1571). -/
def findMaxPpo (rs : Records) : Except Err (List Nat) := do
  let first ← firstRec rs
  let v ← field first (py! "pulse_phase_offset")
  let s ← v.shape?
  match s with
  | [] => .error .indexError
  | 0 :: _ => .ok [0]
  | _ => maxPpoShape s rs

/-- A function of `unshared_fields_dims_array`; a list of dimensions is spliced in
(/repo/pydarnio/borealis/base_format.py:1082-1092). -/
def evalDimA (rs : Records) : DimA → Except Err (List Int)
  | .maxSeqs => do .ok [← findMaxSequences rs]
  | .maxBeams => do .ok [Int.ofNat (← findMaxLen (py! "beam_nums") rs)]
  | .maxLen f => do .ok [Int.ofNat (← findMaxLen f rs)]
  | .maxPpo => do .ok ((← findMaxPpo rs).map Int.ofNat)
  | .firstElem f i => do
    let first ← firstRec rs
    let v ← field first f
    .ok [← v.elemInt i]
  | .firstShape f i => do
    let first ← firstRec rs
    let v ← field first f
    .ok [Int.ofNat (← v.shapeAt i)]

/-- All dimensions of a field. -/
def evalDims (rs : Records) : List DimA → Except Err (List Int)
  | [] => .ok []
  | d :: ds => do
    let x ← evalDimA rs d
    let xs ← evalDims rs ds
    .ok (x ++ xs)

/-- A function of `unshared_fields_dims_site`; a list of dimensions is spliced in
(/repo/pydarnio/borealis/base_format.py:1213-1222). -/
def evalDimS (arrs : Rec) (i : Nat) : DimS → Except Err (List Int)
  | .elem f => do
    let v ← field arrs f
    .ok [← v.elemInt i]
  | .shape f j => do
    let v ← field arrs f
    .ok [Int.ofNat (← v.shapeAt j)]
  | .lenElem _ => .error .unmodelled
  | .ppo => do
    let v ← field arrs (py! "pulse_phase_offset")
    let s ← v.shape?
    let n ← field arrs (py! "num_sequences")
    let ns ← n.elemInt i
    if (prod s : Int) < ns then .ok [-1]
    else
      match s with
      | [] => .error .indexError
      | m :: ds => if i < m then .ok (ns :: (ds.drop 1).map Int.ofNat) else .error .indexError

/-- All dimensions of a field in one record. -/
def evalSiteDims (arrs : Rec) (i : Nat) : List DimS → Except Err (List Int)
  | [] => .ok []
  | d :: ds => do
    let x ← evalDimS arrs i d
    let xs ← evalSiteDims arrs i ds
    .ok (x ++ xs)

/-- The lengths of a field in all records. -/
def lensOf (f : PyStr) : Records → Except Err (List Nat)
  | [] => .ok []
  | (_, r) :: rs => do
    let v ← field r f
    let n ← v.len
    let ns ← lensOf f rs
    .ok (n :: ns)

/-- A fixed string as an element. -/
def constElt (t : Ty) (s : PyStr) : Elt :=
  if t = .npBytes then .bytes (s.map fun c => UInt8.ofNat c.toNat) else .str s

/-- A one-dimensional array. -/
def vec (t : Ty) (l : List Elt) : Val := .arr ⟨t, [l.length], l⟩

/-- A function of `array_specific_fields_generate`. -/
def evalGenA (rs : Records) : GenA → Except Err Val
  | .lens f => do .ok (vec .u32 ((← lensOf f rs).map fun (n : Nat) => .int (Int.ofNat n)))
  | .const t l => .ok (vec t (l.map (constElt t)))

/-- A function of `site_specific_fields_generate`. -/
def evalGenS (arrs : Rec) (i : Nat) : GenS → Except Err Val
  | .const t l => .ok (vec t (l.map (constElt t)))
  | .dims l => do .ok (vec .u32 ((← evalSiteDims arrs i l).map .int))

/-- A list of non-negative integers used as a shape. -/
def toShape : List Int → Except Err (List Nat)
  | [] => .ok []
  | i :: is => if 0 ≤ i then do .ok (i.toNat :: (← toShape is)) else .error .valueError

/-- The elements of a one-dimensional array as a shape; what `reshape` makes of negative ones is
not modelled. -/
def Val.dimsOf : Val → Except Err (List Nat)
  | .arr a =>
    match a.shape with
    | [_] => do
      let l ← ints a.data
      toShape l
    | _ => .error .unmodelled
  | _ => .error .unmodelled
where
  ints : List Elt → Except Err (List Int)
    | [] => .ok []
    | .int i :: es => if 0 ≤ i then do .ok (i :: (← ints es)) else .error .unmodelled
    | _ :: _ => .error .unmodelled

/-- `v.reshape(dims)`. -/
def Val.reshape (v : Val) (dims : List Nat) : Except Err Val :=
  match v with
  | .arr a => if prod dims = a.data.length then .ok (.arr { a with shape := dims }) else .error .valueError
  | .np _ _ => .error .unmodelled
  | .py _ _ => .error .attributeError

/-- `v.flatten()`. -/
def Val.flatten (v : Val) : Except Err Val :=
  match v with
  | .arr a => .ok (.arr { a with shape := [a.data.length] })
  | .np _ _ => .error .unmodelled
  | .py _ _ => .error .attributeError

/-- Replace fields of a record by a function of their value. -/
def mapFieldsOf (g : Val → Except Err Val) (r : Rec) : List PyStr → Except Err Rec
  | [] => .ok r
  | k :: ks => do
    let v ← field r k
    let v' ← g v
    mapFieldsOf g (r.set k v') ks

/-- `reshape_site_arrays` of one record
(/repo/pydarnio/borealis/borealis_formats.py:698-702, 1022-1026, 1329-1333). -/
def reshapeRec (f : Format) (r : Rec) : Except Err Rec :=
  match f.reshape with
  | none => .ok r
  | some (df, ks) => do
    let d ← field r df
    let dims ← d.dimsOf
    mapFieldsOf (fun v => v.reshape dims) r ks

/-- `flatten_site_arrays` of one record
(/repo/pydarnio/borealis/borealis_formats.py:732-734, 1056-1058, 1363-1365). -/
def flattenRec (f : Format) (r : Rec) : Except Err Rec := mapFieldsOf Val.flatten r f.flatten

/-- The same for all records. -/
def mapRecords (g : Rec → Except Err Rec) : Records → Except Err Records
  | [] => .ok []
  | (n, r) :: rs => do
    let r' ← g r
    let rs' ← mapRecords g rs
    .ok ((n, r') :: rs')

/-! ## `_site_to_array` -/

/-- The type of a field (/repo/pydarnio/borealis/base_format.py:1101-1104). -/
def Format.typeOf (f : Format) (k : PyStr) : Except Err Ty :=
  match f.single.get? k with
  | some t => .ok t
  | none => field f.arrays k

/-- Bits of the float32 and float64 that `np.nan` becomes. -/
def nan32 : Nat := 0x7fc00000
/-- Bits of the float64 `np.nan`. -/
def nan64 : Nat := 0x7ff8000000000000

/-- The value an array is filled with (/repo/pydarnio/borealis/base_format.py:1113-1118); `np.nan`
cannot be converted to the other integer types. -/
def fillOf : Ty → Except Err Elt
  | .i64 => .ok (.int (-1))
  | .u32 | .u8 => .ok (.int 0)
  | .f32 => .ok (.flt nan32)
  | .f64 | .pyFloat => .ok (.flt nan64)
  | .c64 => .ok (.cpx nan32 0)
  | .npBool => .ok (.int 1)
  | .str => .ok (.str (py! "nan"))
  | .u16 | .i16 | .i32 | .pyInt => .error .valueError
  | .npStr | .npBytes | .other _ => .error .unmodelled

/-- The dimensions `buffer_shape`, or none when the value is assigned as it is. -/
def sliceDims (isA : Bool) (v : Val) : Except Err (List Nat) :=
  if isA then v.shape? else .ok []

/-- The loop over the records that fills the array of a field
(/repo/pydarnio/borealis/base_format.py:1123-1138); `isA`: the value in the first record is an
array. -/
def fillField (t : Ty) (k : PyStr) (isA : Bool) : Nat → NdArr → Records → Except Err NdArr
  | _, a, [] => .ok a
  | i, a, (_, r) :: rs => do
    let v ← field r k
    let ls ← sliceDims isA v
    let a' ← assign t a i (ls.filter (· ≠ 0)) v.asArr
    fillField t k isA (i + 1) a' rs

/-- The array of an unshared field (/repo/pydarnio/borealis/base_format.py:1081-1138). -/
def buildField (f : Format) (rs : Records) (first : Rec) (k : PyStr) (dims : List DimA) :
    Except Err Val := do
  let ds ← evalDims rs dims
  let shape ← toShape ds
  let t ← f.typeOf k
  let e ← fillOf t
  let v ← field first k
  let a ← fillField t k v.isArr 0 (.ofFn (arrayTy t) (rs.length :: shape) fun _ => e) rs
  .ok (.arr a)

/-- Evaluate something for every entry of a table. -/
def forFields {α : Type} (g : PyStr → α → Except Err Val) : List (PyStr × α) → Except Err Rec
  | [] => .ok []
  | (k, x) :: l => do
    let v ← g k x
    let r ← forFields g l
    .ok ((k, v) :: r)

/-- `_site_to_array` after the reshaping (/repo/pydarnio/borealis/base_format.py:1066-1142). -/
def stackRecords (f : Format) (rs : Records) : Except Err Rec := do
  let first ← firstRec rs
  let shared ← forFields (fun k (_ : Unit) => field first k) (f.shared.map fun k => (k, ()))
  let spec ← forFields (fun _ g => evalGenA rs g) f.genArray
  let un ← forFields (fun k dims => buildField f rs first k dims) f.dimsArray
  .ok (update (update (update [] shared) spec) un)

/-- `_site_to_array` (/repo/pydarnio/borealis/base_format.py:1014-1142). -/
def siteToArray (f : Format) (rs : Records) : Except Err Rec :=
  if f.restructureable then do
    let rs ← mapRecords (reshapeRec f) rs
    stackRecords f rs
  else .error .restructure

/-! ## `_array_to_site` -/

/-- `datatype(a[i])` (/repo/pydarnio/borealis/base_format.py:1208-1209). -/
def singleOf (t : Ty) (v : Val) (i : Nat) : Except Err Val :=
  match v with
  | .arr a =>
    match a.shape with
    | [_] =>
      match a.get? [i] with
      | none => .error .indexError
      | some e =>
        if t = .str then
          match e with
          | .str s => .ok (.py .str (.str s))
          | _ => .ok (.py .str (.cast .str e))
        else .ok (.np t (if a.ty = t then e else .cast t e))
    | _ => .error .unmodelled
  | _ => .error .unmodelled

/-- An unshared field of one record (/repo/pydarnio/borealis/base_format.py:1203-1228). -/
def siteField (f : Format) (arrs : Rec) (i : Nat) (k : PyStr) (dims : List DimS) : Except Err Val :=
  match f.single.get? k with
  | some t => do
    let v ← field arrs k
    singleOf t v i
  | none => do
    let _ ← field f.arrays k
    let ls ← evalSiteDims arrs i dims
    let v ← field arrs k
    match v with
    | .arr a => do .ok (.arr (← getRow a i ls))
    | _ => .error .unmodelled

/-- One record (/repo/pydarnio/borealis/base_format.py:1192-1228). -/
def siteRecord (f : Format) (arrs : Rec) (i : Nat) : Except Err Rec := do
  let shared ← forFields (fun k (_ : Unit) => field arrs k) (f.shared.map fun k => (k, ()))
  let spec ← forFields (fun _ g => evalGenS arrs i g) f.genSite
  let un ← forFields (fun k dims => siteField f arrs i k dims) f.dimsSite
  .ok (update (update (update [] shared) spec) un)

/-- The name of a record (/repo/pydarnio/borealis/base_format.py:1188-1190). -/
def rowKey (tkey : Elt → Except Err PyStr) (ts : NdArr) (i : Nat) : Except Err PyStr :=
  match ts.shape with
  | [_, _] =>
    match ts.get? [i, 0] with
    | some e => tkey e
    | none => .error .indexError
  | [_] => .error .indexError
  | _ => .error .unmodelled

/-- The loop over the records. -/
def siteRows (tkey : Elt → Except Err PyStr) (f : Format) (arrs : Rec) (ts : NdArr) :
    List Nat → Except Err (List (PyStr × Rec))
  | [] => .ok []
  | i :: is => do
    let key ← rowKey tkey ts i
    let r ← siteRecord f arrs i
    let l ← siteRows tkey f arrs ts is
    .ok ((key, r) :: l)

/-- `_array_to_site` (/repo/pydarnio/borealis/base_format.py:1145-1232).  A record whose name
already occurred replaces the one before (`Dict.ofList`). -/
def arrayToSite (tkey : Elt → Except Err PyStr) (f : Format) (arrs : Rec) : Except Err Records :=
  if f.restructureable then do
    let v ← field arrs (py! "sqn_timestamps")
    match v with
    | .arr ts =>
      match ts.shape with
      | [] => .error .typeError
      | n :: _ => do
        let l ← siteRows tkey f arrs ts (List.range n)
        mapRecords (flattenRec f) (Dict.ofList l)
    | _ => .error .unmodelled
  else .error .restructure

end Verif.Bor
