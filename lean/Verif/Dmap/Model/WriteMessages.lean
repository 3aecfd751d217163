import Verif.Dmap.Model.Writer
import Verif.Dmap.Model.Messages
/-!
# Texts of exceptions when writing

`Model/Writer.lean` says which exception is raised; here is the text of each as well.  `Props/WriteMessages.lean` shows that the
two models agree otherwise.
-/
namespace Verif

/-- What the texts depend on besides the records: which characters `repr` shows as they are, and the text of the class of a value
that is no DMAP structure, by record and name. -/
structure Shown where
  printable : Char → Bool
  type : Nat → PyStr → PyStr

/-- `DmapCharError(data_name, rec_num)` (/repo/pydarnio/exceptions/dmap_exceptions.py:67-77).  Because of the comma at the end of
`self.data_name = data_name,` the name is shown as a tuple. -/
def charErrorText (sh : Shown) (name : PyStr) (rn : Nat) : PyStr :=
  py! "Error: For field " ++ (py! "(" ++ reprStr sh.printable name ++ py! ",)") ++ py! " at record number " ++ decText rn ++
    py! " is a string type trying to be written in as a char. DMAP treats char as int8. Please revise this field type"

/-- `DmapTypeError(filename, data_type, rec_num)` (/repo/pydarnio/exceptions/dmap_exceptions.py:209-221): the name of the file is
given to `format` but the text has no place for it. -/
def typeErrorText (type : PyStr) (rn : Nat) : PyStr :=
  py! "Error: " ++ type ++ py! " does not match the DMAP data type structures: DmapScalar, DmapArray." ++
    py! " Please make sure you have the correct Data Structure. Failed at record " ++ decText rn

/-- The text for an array of strings (/repo/pydarnio/dmap/dmap.py:1134-1137). -/
def stringArrayText (fn : PyStr) (rn : Nat) : PyStr :=
  dataText fn (py! "Error: Trying to read array of strings. Currently not implemented. Failed at record " ++ decText rn)

/-- `FilenameRequiredError()` (/repo/pydarnio/exceptions/dmap_exceptions.py:224-230). -/
def filenameText : PyStr := py! "Error: Filename is required"

/-- An exception of Python itself. -/
def plainly {α : Type} : Except Err α → Except Exc α
  | .ok a => .ok a
  | .error e => .error ⟨e, none⟩

/-- Value bytes of a scalar (/repo/pydarnio/dmap/dmap.py:1091-1107): the only exception of pyDARNio is that of line 1099. -/
def scalarValueBytesM (sh : Shown) (rn : Nat) (s : DmapScalar) : Except Exc Bytes :=
  match s.fmt, s.value with
  | .c, .str _ => .error ⟨.dmapCharError s.name rn, some (charErrorText sh s.name rn)⟩
  | _, _ => plainly (scalarValueBytes rn s)

/-- `dmap_scalar_to_bytes` (/repo/pydarnio/dmap/dmap.py:1067-1112). -/
def scalarToBytesM (sh : Shown) (rn : Nat) (s : DmapScalar) : Except Exc Bytes := do
  let tb ← plainly (typeByte s.dataType)
  let vb ← scalarValueBytesM sh rn s
  .ok (packStr s.name ++ tb ++ vb)

/-- The two type checks at the start of `dmap_array_to_bytes` (/repo/pydarnio/dmap/dmap.py:1131-1137). -/
def arrayTypeCheckM (sh : Shown) (fn : PyStr) (rn : Nat) (a : DmapArray) : Except Exc Unit :=
  match a.fmt with
  | .c =>
    match a.value.shape with
    | [] => .error ⟨.indexError, none⟩
    | 0 :: _ => .error ⟨.indexError, none⟩
    | [_] =>
      match a.value.dtype with
      | .other _ true => .error ⟨.dmapCharError a.name rn, some (charErrorText sh a.name rn)⟩
      | _ => .ok ()
    | _ => .ok ()
  | .s => .error ⟨.dmapDataError, some (stringArrayText fn rn)⟩
  | _ => .ok ()

/-- `dmap_array_to_bytes` (/repo/pydarnio/dmap/dmap.py:1114-1160). -/
def arrayToBytesM (sh : Shown) (fn : PyStr) (rn : Nat) (a : DmapArray) : Except Exc Bytes × DmapArray :=
  match arrayTypeCheckM sh fn rn a with
  | .error e => (.error e, a)
  | .ok () =>
    match arrayToBytes rn a with
    | (res, a') => (plainly res, a')

/-- The field loop of `_dmap_record_to_bytes` (/repo/pydarnio/dmap/dmap.py:1041-1054). -/
def encodeFieldsM (sh : Shown) (fn : PyStr) (rn : Nat) : Rec → Except Exc Encoded × Rec
  | [] => (.ok ⟨[], 0, 0⟩, [])
  | (k, .scalar s) :: r =>
    match scalarToBytesM sh rn s with
    | .error e => (.error e, (k, .scalar s) :: r)
    | .ok bs =>
      match encodeFieldsM sh fn rn r with
      | (.error e, r') => (.error e, (k, .scalar s) :: r')
      | (.ok enc, r') => (.ok ⟨bs ++ enc.data, enc.numScalars + 1, enc.numArrays⟩, (k, .scalar s) :: r')
  | (k, .array a) :: r =>
    match arrayToBytesM sh fn rn a with
    | (.error e, a') => (.error e, (k, .array a') :: r)
    | (.ok bs, a') =>
      match encodeFieldsM sh fn rn r with
      | (.error e, r') => (.error e, (k, .array a') :: r')
      | (.ok enc, r') => (.ok ⟨bs ++ enc.data, enc.numScalars, enc.numArrays + 1⟩, (k, .array a') :: r')
  | (k, .other) :: r => (.error ⟨.dmapTypeError rn, some (typeErrorText (sh.type rn k) rn)⟩, (k, .other) :: r)

/-- `_dmap_record_to_bytes` (/repo/pydarnio/dmap/dmap.py:1024-1065). -/
def recordToBytesM (sh : Shown) (fn : PyStr) (rn : Nat) (buf : Bytes) (r : Rec) : Except Exc Unit × Bytes × Rec :=
  match encodeFieldsM sh fn rn r with
  | (.error e, r') => (.error e, buf, r')
  | (.ok enc, r') =>
    match appendInts buf [encodingIdentifier, enc.data.length + 16, enc.numScalars, enc.numArrays] with
    | (.error e, buf') => (.error ⟨e, none⟩, buf', r')
    | (.ok (), buf') => (.ok (), buf' ++ enc.data, r')

/-- The record loop of `dmap_records_to_bytes` (/repo/pydarnio/dmap/dmap.py:1020-1022). -/
def recordsToBytesM (sh : Shown) (fn : PyStr) : Nat → Nat → Bytes → List Rec → Except Exc Unit × Bytes × Nat × List Rec
  | _, rn, buf, [] => (.ok (), buf, rn, [])
  | k, _, buf, r :: rs =>
    match recordToBytesM sh fn k buf r with
    | (.error e, buf', r') => (.error e, buf', k, r' :: rs)
    | (.ok (), buf', r') =>
      match recordsToBytesM sh fn (k + 1) k buf' rs with
      | (res, buf'', rn, rs') => (res, buf'', rn, r' :: rs')

/-- `_empty_record_check` (/repo/pydarnio/dmap/dmap.py:985-989). -/
def Writer.emptyRecordCheckM (w : Writer) : Except Exc Unit :=
  if w.isEmptyList then .error ⟨.dmapDataError, some (dataText w.filename (py! "DMap record is empty there is nothing to write."))⟩
  else .ok ()

/-- `write_dmap_stream(dmap_records)` (/repo/pydarnio/dmap/dmap.py:964-983). -/
def Writer.writeStreamM (sh : Shown) (w : Writer) (inp : WInput) : Except Exc Bytes × Writer :=
  match (if w.isEmptyList then plainly (checkDmapDict inp) else .ok (w.isList, w.recs)) with
  | .error e => (.error e, w)
  | .ok (isList, recs) =>
    let w := { w with isList := isList, recs := recs }
    match w.emptyRecordCheckM with
    | .error e => (.error e, w)
    | .ok () =>
      match recordsToBytesM sh w.filename 0 w.recNum w.buf w.recs with
      | (.error e, buf, rn, rs) => (.error e, { w with buf := buf, recNum := rn, recs := rs })
      | (.ok (), buf, rn, rs) => (.ok buf, { w with buf := buf, recNum := rn, recs := rs })

/-- `write_dmap(filename)` (/repo/pydarnio/dmap/dmap.py:944-962); `FilenameRequiredError` from line 1006. -/
def Writer.writeDmapM (sh : Shown) (w : Writer) (fs : FileSys) (filename : PyStr) : Except Exc Unit × Writer × FileSys :=
  match w.filenameCheck filename with
  | (.error e, w) => (.error ⟨e, some filenameText⟩, w, fs)
  | (.ok (), w) =>
    match w.writeStreamM sh noRecords with
    | (.error e, w) => (.error e, w, fs)
    | (.ok _, w) => (.ok (), w, fs.write w.filename w.buf)

end Verif
