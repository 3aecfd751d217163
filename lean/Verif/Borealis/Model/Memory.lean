import Verif.Borealis.Model.Restructure
/-!
# Which objects hold the fields of restructured records and arrays

`_site_to_array` and `_array_to_site` once more, with the identity of the object that holds each value.  A NumPy array that is made
by slicing or reshaping is a new object that uses the memory of the array it was made from; `copy.deepcopy` makes one copy of every
object (it keeps a table of the copies made, so that what was one object is one object in the copy); `flatten` always makes a new
array.
-/
namespace Verif.Bor

/-- An object. -/
inductive Obj
  /-- An object of the caller's, with its `id`. -/
  | given (id : Nat)
  /-- Made by slicing the caller's object, for a field of row `i`. -/
  | row (id i : Nat) (k : PyStr)
  /-- Newly made for a field of row `i`. -/
  | made (i : Nat) (k : PyStr)
  /-- The copy of an object. -/
  | copy (o : Obj)
  /-- The result of `flatten` for a field of a record. -/
  | flat (name k : PyStr)
  deriving DecidableEq, Repr

/-- The object in whose memory the elements are: a slice has none of its own. -/
def Obj.memory : Obj → Obj
  | .row id _ _ => .given id
  | o => o

/-- A record, with the objects. -/
abbrev HRec := Dict PyStr (Val × Obj)
/-- Records, with the objects. -/
abbrev HRecords := Dict PyStr HRec

/-- Evaluate something for every entry of a table. -/
def forFieldsH {α : Type} (g : PyStr → α → Except Err Val) (h : PyStr → Obj) : List (PyStr × α) → Except Err HRec
  | [] => .ok []
  | (k, x) :: l => do
    let v ← g k x
    let r ← forFieldsH g h l
    .ok ((k, (v, h k)) :: r)

/-- Replace fields of a record by a function of their value, held by another object. -/
def mapFieldsOfH (g : Val → Except Err Val) (h : PyStr → Obj → Obj) (r : HRec) : List PyStr → Except Err HRec
  | [] => .ok r
  | k :: ks => do
    let p ← field r k
    let v' ← g p.1
    mapFieldsOfH g h (r.set k (v', h k p.2)) ks

/-- The same for all records. -/
def mapRecordsH (g : PyStr → HRec → Except Err HRec) : HRecords → Except Err HRecords
  | [] => .ok []
  | (n, r) :: rs => do
    let r' ← g n r
    let rs' ← mapRecordsH g rs
    .ok ((n, r') :: rs')

/-- `copy.deepcopy(records)`. -/
def deepcopyH (rs : HRecords) : HRecords := rs.map fun p => (p.1, p.2.map fun q => (q.1, (q.2.1, Obj.copy q.2.2)))

/-- One record (/repo/pydarnio/borealis/base_format.py:1192-1228); `id k`: that of `data_dict[k]`. -/
def siteRecordH (f : Format) (id : PyStr → Nat) (arrs : Rec) (i : Nat) : Except Err HRec := do
  let shared ← forFieldsH (fun k (_ : Unit) => field arrs k) (fun k => .given (id k)) (f.shared.map fun k => (k, ()))
  let spec ← forFieldsH (fun _ g => evalGenS arrs i g) (.made i) f.genSite
  let un ← forFieldsH (fun k dims => siteField f arrs i k dims)
    (fun k => if (f.single.get? k).isSome then .made i k else .row (id k) i k) f.dimsSite
  .ok (update (update (update [] shared) spec) un)

/-- The loop over the records. -/
def siteRowsH (tkey : Elt → Except Err PyStr) (f : Format) (id : PyStr → Nat) (arrs : Rec) (ts : NdArr) :
    List Nat → Except Err (List (PyStr × HRec))
  | [] => .ok []
  | i :: is => do
    let key ← rowKey tkey ts i
    let r ← siteRecordH f id arrs i
    let l ← siteRowsH tkey f id arrs ts is
    .ok ((key, r) :: l)

/-- `_array_to_site` (/repo/pydarnio/borealis/base_format.py:1145-1232); `flatten_site_arrays` of every class begins with a deep copy
(/repo/pydarnio/borealis/base_format.py:550, borealis_formats.py:731-736, 1055-1060, 1362-1367, 1609-1614, 2362). -/
def arrayToSiteH (tkey : Elt → Except Err PyStr) (f : Format) (id : PyStr → Nat) (arrs : Rec) : Except Err HRecords :=
  if f.restructureable then do
    let v ← field arrs (py! "sqn_timestamps")
    match v with
    | .arr ts =>
      match ts.shape with
      | [] => .error .typeError
      | n :: _ => do
        let l ← siteRowsH tkey f id arrs ts (List.range n)
        mapRecordsH (fun n r => mapFieldsOfH Val.flatten (fun k _ => .flat n k) r f.flatten) (deepcopyH (Dict.ofList l))
    | _ => .error .unmodelled
  else .error .restructure

/-- `reshape_site_arrays` of one record: the reshaped array uses the memory of the copy
(/repo/pydarnio/borealis/borealis_formats.py:697-704, 1021-1028, 1328-1335, 2336). -/
def reshapeRecH (f : Format) (r : HRec) : Except Err HRec :=
  match f.reshape with
  | none => .ok r
  | some (df, ks) => do
    let d ← field r df
    let dims ← d.1.dimsOf
    mapFieldsOfH (fun v => v.reshape dims) (fun _ o => o) r ks

/-- The records without the objects. -/
def HRec.plain (r : HRec) : Rec := r.map fun q => (q.1, q.2.1)
/-- The records without the objects. -/
def HRecords.plain (rs : HRecords) : Records := rs.map fun p => (p.1, HRec.plain p.2)

/-- The first record (/repo/pydarnio/borealis/base_format.py:1067). -/
def firstRecH : HRecords → Except Err HRec
  | [] => .error .indexError
  | p :: _ => .ok p.2

/-- `_site_to_array` after the reshaping (/repo/pydarnio/borealis/base_format.py:1066-1142). -/
def stackRecordsH (f : Format) (hs : HRecords) : Except Err HRec := do
  let first ← firstRecH hs
  let shared ← forFieldsH (fun k (_ : Unit) => do .ok (← field first k).1)
    (fun k => ((Dict.get? first k).map Prod.snd).getD (.made 0 k)) (f.shared.map fun k => (k, ()))
  let spec ← forFieldsH (fun _ g => evalGenA (HRecords.plain hs) g) (.made 0) f.genArray
  let un ← forFieldsH (fun k dims => buildField f (HRecords.plain hs) (HRec.plain first) k dims) (.made 0) f.dimsArray
  .ok (update (update (update [] shared) spec) un)

/-- `_site_to_array` (/repo/pydarnio/borealis/base_format.py:1014-1142); `id n k`: that of `data_dict[n][k]`. -/
def siteToArrayH (f : Format) (id : PyStr → PyStr → Nat) (rs : Records) : Except Err HRec :=
  if f.restructureable then do
    let hs := deepcopyH (rs.map fun p => (p.1, p.2.map fun q => (q.1, (q.2, Obj.given (id p.1 q.1)))))
    let hs ← mapRecordsH (fun _ r => reshapeRecH f r) hs
    stackRecordsH f hs
  else .error .restructure

end Verif.Bor
