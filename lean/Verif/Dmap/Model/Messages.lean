import Verif.Dmap.Model.ReaderObj
import Verif.Py.Repr
/-!
# Texts of exceptions when reading

`Model/Reader.lean` says which exception is raised; here is the text of each as well.  `Props/Messages.lean` shows that the two
models agree otherwise.  `fn` is the name of the file, or `stream`.
-/
namespace Verif

/-- An exception with its text (`str(e)`); no text for the exceptions of Python and NumPy themselves. -/
structure Exc where
  err : Err
  text : Option PyStr
  deriving DecidableEq, Repr

/-! ## The classes of exceptions -/

/-- `CursorError(cursor, expected, rec_num)` (/repo/pydarnio/exceptions/dmap_exceptions.py:23-34). -/
def cursorText (cursor expected : Int) (rn : Nat) : PyStr :=
  py! "Error: Cursor is at " ++ decText cursor ++ py! " andit needs to be " ++ decText expected ++ py! ". Failed at record " ++ decText rn

/-- `DmapDataTypeError(filename, data_name, data_type, rec_num)` (/repo/pydarnio/exceptions/dmap_exceptions.py:95-105). -/
def dataTypeText (fn name : PyStr) (code rn : Nat) : PyStr :=
  py! "Error: Dmap data type " ++ decText code ++ py! " for " ++ name ++ py! " at record " ++ decText rn ++
    py! " does not exist in dmap data types. Filename: " ++ fn

/-- `NegativeByteError(filename, element_info, rec_num)` (/repo/pydarnio/exceptions/dmap_exceptions.py:119-126). -/
def negativeText (fn info : PyStr) (rn : Nat) : PyStr :=
  py! "Error: " ++ fn ++ py! " contains an " ++ info ++ py! " < 0 at record " ++ decText rn ++ py! "."

/-- `ZeroByteError(filename, element_info, rec_num)` (/repo/pydarnio/exceptions/dmap_exceptions.py:142-149). -/
def zeroText (fn info : PyStr) (rn : Nat) : PyStr :=
  py! "Error: " ++ fn ++ py! " contains an " ++ info ++ py! " == 0 at record " ++ decText rn ++ py! "."

/-- `MismatchByteError(filename, element_info, rec_num)` (/repo/pydarnio/exceptions/dmap_exceptions.py:165-173). -/
def mismatchText (fn info : PyStr) (rn : Nat) : PyStr :=
  py! "Error: " ++ fn ++ py! " contains an " ++ info ++ py! " at record = " ++ decText rn ++ py! "."

/-- `DmapDataError(filename, message)` (/repo/pydarnio/exceptions/dmap_exceptions.py:187-193). -/
def dataText (fn message : PyStr) : PyStr := py! " The following error for " ++ fn ++ py! " was raised: " ++ message

/-! ## Reading -/

/-- A method of `DmapRead` that only touches `self.cursor`, see `Rd`. -/
def RdM (α : Type) := Int → Except Exc α × Int

namespace RdM

/-- Return a value without moving the cursor. -/
def pure {α : Type} (a : α) : RdM α := fun c => (.ok a, c)

/-- Sequencing. -/
def bind {α β : Type} (x : RdM α) (f : α → RdM β) : RdM β := fun c =>
  match x c with
  | (.ok a, c') => f a c'
  | (.error e, c') => (.error e, c')

instance : Monad RdM where
  pure := RdM.pure
  bind := RdM.bind

/-- `raise e` with a text. -/
def raise {α : Type} (e : Err) (text : PyStr) : RdM α := fun c => (.error ⟨e, some text⟩, c)

/-- A computation that only raises exceptions without a text of pyDARNio. -/
def ofRd {α : Type} (x : Rd α) : RdM α := fun c =>
  match x c with
  | (.ok a, c') => (.ok a, c')
  | (.error e, c') => (.error ⟨e, none⟩, c')

end RdM

/-- `zero_negative_check(element, element_name)` (/repo/pydarnio/dmap/dmap.py:228-255). -/
def zeroNegativeCheckM (fn : PyStr) (rn : Nat) (x : Int) (name : PyStr) : RdM Unit :=
  if x = 0 then RdM.raise (.zeroByte rn) (zeroText fn (name ++ py! " " ++ decText x) rn)
  else if x < 0 then RdM.raise (.negativeByte rn) (negativeText fn (name ++ py! " " ++ decText x) rn)
  else RdM.pure ()

/-- `bytes_check(element, element_name, byte_check, byte_check_name)` (/repo/pydarnio/dmap/dmap.py:257-288). -/
def bytesCheckM (fn : PyStr) (rn : Nat) (x : Int) (name : PyStr) (bound : Int) (boundName : PyStr) : RdM Unit :=
  if x > bound then
    RdM.raise (.mismatchByte rn)
      (mismatchText fn (name ++ py! " " ++ decText x ++ py! " > " ++ boundName ++ py! " " ++ decText bound) rn)
  else RdM.pure ()

/-- `check_data_type` (/repo/pydarnio/dmap/dmap.py:290-310). -/
def checkDataTypeM (fn : PyStr) (rn : Nat) (code : Nat) (name : PyStr) : RdM (Fmt × Nat) :=
  match dmapDataTypes.lookup code with
  | some p => RdM.pure p
  | none => RdM.raise (.dmapDataType name code rn) (dataTypeText fn name code rn)

/-- The two cursor checks at the start of `read_data` (/repo/pydarnio/dmap/dmap.py:667-683). -/
def readPreM (buf : Bytes) (rn : Nat) (n : Nat) : RdM Unit := fun c =>
  if c ≥ buf.length then
    (.error ⟨.cursorError, some (py! "Error: Cursor " ++ decText c ++ py! " extends out of buffer " ++ decText buf.length ++
      py! ". Fails at record " ++ decText rn)⟩, c)
  else if (buf.length : Int) - c < n then
    (.error ⟨.cursorError, some (py! "Error: Byte offsets " ++ decText (buf.length - c) ++ py! " into buffer " ++ decText n ++
      py! " are not aligned. Failed at record " ++ decText rn)⟩, c)
  else (.ok (), c)

/-- `read_data('c', 1)` (/repo/pydarnio/dmap/dmap.py:690-696). -/
def readDataCM (buf : Bytes) (rn : Nat) : RdM Nat := do
  readPreM buf rn 1
  RdM.ofRd (do
    let c ← Rd.cursor
    match pyIndex buf c with
    | none => Rd.raise .indexError
    | some b => do
      Rd.setCursor (c + 1)
      return b.toNat)

/-- `read_data('s', 1)` (/repo/pydarnio/dmap/dmap.py:697-716). -/
def readDataSM (fn : PyStr) (buf : Bytes) (rn : Nat) : RdM PyStr := do
  readPreM buf rn 1
  let c ← RdM.ofRd Rd.cursor
  match scanNul buf c ((buf.length - c).toNat + 1) 0 with
  | none => RdM.ofRd (Rd.raise .indexError)
  | some n => do
    bytesCheckM fn rn (c + n) (py! "cursor") buf.length (py! "Total number of Bytes")
    RdM.ofRd (
      match unpackFrom buf n c with
      | none => Rd.raise .structError
      | some bs => do
        Rd.setCursor (c + n + 1)
        match utf8Decode bs with
        | none => Rd.raise .unicodeDecodeError
        | some s => return s)

/-- The last branch of `read_data` (/repo/pydarnio/dmap/dmap.py:717-722). -/
def readDataNM (buf : Bytes) (rn : Nat) (n : Nat) : RdM Bytes := do
  readPreM buf rn n
  RdM.ofRd (do
    let c ← Rd.cursor
    match unpackFrom buf n c with
    | none => Rd.raise (unpackErr c)
    | some bs => do
      Rd.setCursor (c + n)
      return bs)

/-- `read_data('i', 4)`. -/
def readIntM (buf : Bytes) (rn : Nat) : RdM Int := do
  let bs ← readDataNM buf rn 4
  return toSigned 4 (leNat bs)

/-- `read_data(fmt, size)` (/repo/pydarnio/dmap/dmap.py:636-722). -/
def readDataM (fn : PyStr) (buf : Bytes) (rn : Nat) (fmt : Fmt) (size : Nat) : RdM PyVal :=
  match fmt with
  | .c => do let n ← readDataCM buf rn; return .int n
  | .s => do let s ← readDataSM fn buf rn; return .str s
  | fmt => do let bs ← readDataNM buf rn size; return decodeNum fmt bs

/-- `read_scalar` (/repo/pydarnio/dmap/dmap.py:480-523). -/
def readScalarM (fn : PyStr) (buf : Bytes) (rn : Nat) : RdM DmapScalar := do
  let name ← readDataSM fn buf rn
  let code ← readDataCM buf rn
  let (fmt, size) ← checkDataTypeM fn rn code name
  if fmt ≠ .dmap then do
    let v ← readDataM fn buf rn fmt size
    return { name := name, value := v, dataType := code, fmt := fmt }
  else
    RdM.raise .dmapDataError
      (dataText fn (py! "Error: Trying to read DMap data type for a scalar. Failed at record " ++ decText rn))

/-- `[self.read_data('i', 4) for i in range(0, n)]` (/repo/pydarnio/dmap/dmap.py:563-564). -/
def readIntsM (buf : Bytes) (rn : Nat) : Nat → RdM (List Int)
  | 0 => RdM.pure []
  | n + 1 => do
    let x ← readIntM buf rn
    let xs ← readIntsM buf rn n
    return x :: xs

/-- `'{}'.format(l)` of a list of integers, after the bracket. -/
def intsText : List Int → PyStr
  | [] => [']']
  | [x] => decText x ++ [']']
  | x :: y :: l => decText x ++ (',' :: ' ' :: intsText (y :: l))

/-- The first dimension that is too large, and its index (/repo/pydarnio/dmap/dmap.py:577-586). -/
def tooLargeDim (recordSize : Int) : Nat → List Int → Option (Nat × Int)
  | _, [] => none
  | i, x :: l => if x ≥ recordSize then some (i, x) else tooLargeDim recordSize (i + 1) l

/-- `read_array(record_size)` (/repo/pydarnio/dmap/dmap.py:525-634). -/
def readArrayM (cfg : NpCfg) (fn : PyStr) (buf : Bytes) (rn : Nat) (recordSize : Int) : RdM DmapArray := do
  let name ← readDataSM fn buf rn
  let code ← readDataCM buf rn
  let (fmt, size) ← checkDataTypeM fn rn code name
  let dim ← readIntM buf rn
  bytesCheckM fn rn dim (py! "array dimension") recordSize (py! "record size")
  zeroNegativeCheckM fn rn dim (name ++ py! " array dimension")
  let dims ← readIntsM buf rn dim.toNat
  let shape := if dim > 1 then dims.reverse else dims
  if (shape.any fun x => decide (x ≤ 0)) = true ∧ name ≠ slist then
    RdM.raise .dmapDataError (dataText fn (py! "Error: Array shape " ++ ('[' :: intsText shape) ++
      py! " contains dimension size <= 0. Failed at record " ++ decText rn))
  else
    match tooLargeDim recordSize 0 shape with
    | some (i, x) =>
      RdM.raise .dmapDataError (dataText fn (py! "Error: Array " ++ decText i ++ py! "-dimension size " ++ decText x ++
        py! " exceeds record size: " ++ decText recordSize ++ py! ". Failed at record " ++ decText rn))
    | none => do
      let total := prodInt shape
      bytesCheckM fn rn total (py! "total number of cells") recordSize (py! "record size")
      bytesCheckM fn rn (total * size) (py! "total number of cells in bytes") recordSize (py! "record size")
      if fmt = .s then
        RdM.raise .dmapDataError
          (dataText fn (py! "Error: Trying to read array of strings. Currently not implemented. Failed at record " ++ decText rn))
      else if code = 0 then
        RdM.raise .dmapDataError (dataText fn (py! "Trying to read DMap array data type. Failed at record " ++ decText rn))
      else do
        let v ← RdM.ofRd (readNumericalArray cfg buf shape fmt total size)
        return { name := name, value := v, dataType := code, fmt := fmt, dimension := dim, shape := shape }

/-- The scalar loop of `read_record` (/repo/pydarnio/dmap/dmap.py:463-466). -/
def readScalarsM (fn : PyStr) (buf : Bytes) (rn : Nat) : Nat → Rec → RdM Rec
  | 0, r => RdM.pure r
  | n + 1, r => do
    let s ← readScalarM fn buf rn
    readScalarsM fn buf rn n (r.set s.name (.scalar s))

/-- The array loop of `read_record` (/repo/pydarnio/dmap/dmap.py:469-471). -/
def readArraysM (cfg : NpCfg) (fn : PyStr) (buf : Bytes) (rn : Nat) (blockSize : Int) : Nat → Rec → RdM Rec
  | 0, r => RdM.pure r
  | n + 1, r => do
    let a ← readArrayM cfg fn buf rn blockSize
    readArraysM cfg fn buf rn blockSize n (r.set a.name (.array a))

/-- `read_record` (/repo/pydarnio/dmap/dmap.py:409-478).  The last text tells the size of the block as the position that the
cursor should have. -/
def readRecordM (cfg : NpCfg) (fn : PyStr) (buf : Bytes) (rn : Nat) : RdM Rec := do
  let start ← RdM.ofRd Rd.cursor
  RdM.ofRd (Rd.setCursor (start + 4))
  let blockSize ← readIntM buf rn
  let c ← RdM.ofRd Rd.cursor
  bytesCheckM fn rn blockSize (py! "block size") (buf.length - c + 8) (py! "remaining bytes")
  zeroNegativeCheckM fn rn blockSize (py! "block size")
  let numScalars ← readIntM buf rn
  let numArrays ← readIntM buf rn
  zeroNegativeCheckM fn rn numScalars (py! "number of scalars")
  zeroNegativeCheckM fn rn numArrays (py! "number of arrays")
  bytesCheckM fn rn (numScalars + numArrays) (py! "number of scalars + arrays") blockSize (py! "block size")
  let r ← readScalarsM fn buf rn numScalars.toNat []
  let r ← readArraysM cfg fn buf rn blockSize numArrays.toNat r
  let c' ← RdM.ofRd Rd.cursor
  if c' - start ≠ blockSize then RdM.raise .cursorError (cursorText c' blockSize rn) else return r

/-- The loop of `test_initial_data_integrity` (/repo/pydarnio/dmap/dmap.py:333-363). -/
def integrityLoopM (fn : PyStr) (buf : Bytes) (rn : Nat) : Nat → Int → Int → Except Exc Int × Int
  | fuel, total, c =>
    if c < buf.length then
      match fuel with
      | 0 => (.error ⟨.diverged, none⟩, c)
      | fuel + 1 =>
        match (do
            let blockSize ← readIntM buf rn
            zeroNegativeCheckM fn rn blockSize (py! "block size")
            bytesCheckM fn rn (total + blockSize) (py! "total block size") buf.length (py! "total bytes in file")
            return blockSize : RdM Int) (c + 4) with
        | (.error e, c') => (.error e, c')
        | (.ok blockSize, c') => integrityLoopM fn buf rn fuel (total + blockSize) (c' + blockSize - 8)
    else (.ok total, c)

/-- `test_initial_data_integrity` (/repo/pydarnio/dmap/dmap.py:312-373). -/
def Reader.testIntegrityM (fn : PyStr) (r : Reader) : Except Exc Unit × Reader :=
  if r.cursor ≠ 0 then (.error ⟨.cursorError, some (cursorText r.cursor 0 r.recNum)⟩, r)
  else
    match integrityLoopM fn r.buf r.recNum r.buf.length 0 r.cursor with
    | (.error e, c) => (.error e, { r with cursor := c })
    | (.ok total, c) =>
      if total ≠ r.buf.length then (.error ⟨.attributeError, none⟩, { r with cursor := c })
      else (.ok (), { r with cursor := 0 })

/-- The `while` loop of `read_records` (/repo/pydarnio/dmap/dmap.py:398-401). -/
def Reader.readLoopM (cfg : NpCfg) (fn : PyStr) : Nat → Reader → Except Exc Unit × Reader
  | fuel, r =>
    if r.cursor < r.buf.length then
      match fuel with
      | 0 => (.error ⟨.diverged, none⟩, r)
      | fuel + 1 =>
        match readRecordM cfg fn r.buf r.recNum r.cursor with
        | (.error e, c) => (.error e, { r with cursor := c })
        | (.ok rec, c) =>
          Reader.readLoopM cfg fn fuel
            { r with cursor := c, dmapRecords := r.dmapRecords ++ [rec], recNum := r.recNum + 1 }
    else (.ok (), r)

/-- `read_records` (/repo/pydarnio/dmap/dmap.py:375-407). -/
def Reader.readRecordsM (cfg : NpCfg) (fn : PyStr) (r : Reader) : Except Exc (List PlainRec) × Reader :=
  match r.readLoopM cfg fn (r.buf.length - r.cursor).toNat with
  | (.error e, r) => (.error e, r)
  | (.ok (), r) =>
    if r.cursor > r.buf.length then
      (.error ⟨.mismatchByte r.recNum, some (mismatchText fn
        (py! "cursor " ++ decText r.cursor ++ py! " > total bytes in the file " ++ decText r.buf.length) r.recNum)⟩, r)
    else
      match dmap2dict cfg r.dmapRecords with
      | .error e => (.error ⟨e, none⟩, r)
      | .ok ds => (.ok ds, { r with records := ds })

end Verif
