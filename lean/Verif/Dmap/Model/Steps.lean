import Verif.Dmap.Model.ReaderObj
/-!
# How long reading takes

The reader once more, counting steps: calls of `read_data`, bytes looked at in strings, dimensions looked at, blocks looked at by
the test of integrity.  The loops over records, scalars and arrays make at least one call of `read_data` each time.
`np.frombuffer` and `reshape` make views, they do not go through the cells.  `Props/Steps.lean` shows that the results are those of
`Model/Reader.lean`.
-/
namespace Verif

/-- A method of `DmapRead`, with the number of steps. -/
def RdS (α : Type) := Int → (Except Err α × Int) × Nat

namespace RdS

/-- Return a value. -/
def pure {α : Type} (a : α) : RdS α := fun c => ((.ok a, c), 0)

/-- Sequencing: steps add up. -/
def bind {α β : Type} (x : RdS α) (f : α → RdS β) : RdS β := fun c =>
  match x c with
  | ((.ok a, c'), t) => ((f a c').1, t + (f a c').2)
  | ((.error e, c'), t) => ((.error e, c'), t)

instance : Monad RdS where
  pure := RdS.pure
  bind := RdS.bind

/-- A computation without steps that count. -/
def ofRd {α : Type} (x : Rd α) : RdS α := fun c => (x c, 0)

/-- A number of steps. -/
def charge (n : Nat) : RdS Unit := fun c => ((.ok (), c), n)

end RdS

/-- How often the loop over the bytes of a string runs (/repo/pydarnio/dmap/dmap.py:698-703), see `scanNul`. -/
def scanSteps (buf : Bytes) (c : Int) : Nat → Nat → Nat
  | 0, _ => 0
  | fuel + 1, n =>
    match pyIndex buf (c + n) with
    | none => 1
    | some b => if b ≠ 0 ∨ c + n ≥ buf.length then 1 + scanSteps buf c fuel (n + 1) else 1

/-- `read_data('s', 1)` (/repo/pydarnio/dmap/dmap.py:697-716). -/
def readDataSS (buf : Bytes) (rn : Nat) : RdS PyStr := fun c =>
  (readDataS buf rn c, 1 + if c ≥ buf.length then 0 else scanSteps buf c ((buf.length - c).toNat + 1) 0)

/-- `read_data('c', 1)` (/repo/pydarnio/dmap/dmap.py:690-696). -/
def readDataCS (buf : Bytes) : RdS Nat := do
  RdS.charge 1
  RdS.ofRd (readDataC buf)

/-- The last branch of `read_data` (/repo/pydarnio/dmap/dmap.py:717-722). -/
def readDataNS (buf : Bytes) (n : Nat) : RdS Bytes := do
  RdS.charge 1
  RdS.ofRd (readDataN buf n)

/-- `read_data('i', 4)`. -/
def readIntS (buf : Bytes) : RdS Int := do
  let bs ← readDataNS buf 4
  return toSigned 4 (leNat bs)

/-- `read_data(fmt, size)` (/repo/pydarnio/dmap/dmap.py:636-722). -/
def readDataFS (buf : Bytes) (rn : Nat) (fmt : Fmt) (size : Nat) : RdS PyVal :=
  match fmt with
  | .c => do let n ← readDataCS buf; return .int n
  | .s => do let s ← readDataSS buf rn; return .str s
  | fmt => do let bs ← readDataNS buf size; return decodeNum fmt bs

/-- `read_scalar` (/repo/pydarnio/dmap/dmap.py:480-523). -/
def readScalarS (buf : Bytes) (rn : Nat) : RdS DmapScalar := do
  let name ← readDataSS buf rn
  let code ← readDataCS buf
  let (fmt, size) ← RdS.ofRd (checkDataType rn code name)
  if fmt ≠ .dmap then do
    let v ← readDataFS buf rn fmt size
    return { name := name, value := v, dataType := code, fmt := fmt }
  else RdS.ofRd (Rd.raise .dmapDataError)

/-- `[self.read_data('i', 4) for i in range(0, n)]` (/repo/pydarnio/dmap/dmap.py:563-564). -/
def readIntsS (buf : Bytes) : Nat → RdS (List Int)
  | 0 => RdS.pure []
  | n + 1 => do
    let x ← readIntS buf
    let xs ← readIntsS buf n
    return x :: xs

/-- `read_array(record_size)` (/repo/pydarnio/dmap/dmap.py:525-634).  There are three loops over the dimensions (570-593). -/
def readArrayS (cfg : NpCfg) (buf : Bytes) (rn : Nat) (recordSize : Int) : RdS DmapArray := do
  let name ← readDataSS buf rn
  let code ← readDataCS buf
  let (fmt, size) ← RdS.ofRd (checkDataType rn code name)
  let dim ← readIntS buf
  RdS.ofRd (bytesCheck rn dim recordSize)
  RdS.ofRd (zeroNegativeCheck rn dim)
  let dims ← readIntsS buf dim.toNat
  RdS.charge (3 * dims.length)
  let shape := if dim > 1 then dims.reverse else dims
  if (shape.any fun x => decide (x ≤ 0)) = true ∧ name ≠ slist then RdS.ofRd (Rd.raise .dmapDataError)
  else if (shape.any fun x => decide (x ≥ recordSize)) = true then RdS.ofRd (Rd.raise .dmapDataError)
  else do
    let total := prodInt shape
    RdS.ofRd (bytesCheck rn total recordSize)
    RdS.ofRd (bytesCheck rn (total * size) recordSize)
    if fmt = .s then RdS.ofRd (Rd.raise .dmapDataError)
    else if code = 0 then RdS.ofRd (Rd.raise .dmapDataError)
    else do
      let v ← RdS.ofRd (readNumericalArray cfg buf shape fmt total size)
      return { name := name, value := v, dataType := code, fmt := fmt, dimension := dim, shape := shape }

/-- The scalar loop of `read_record` (/repo/pydarnio/dmap/dmap.py:463-466). -/
def readScalarsS (buf : Bytes) (rn : Nat) : Nat → Rec → RdS Rec
  | 0, r => RdS.pure r
  | n + 1, r => do
    let s ← readScalarS buf rn
    readScalarsS buf rn n (r.set s.name (.scalar s))

/-- The array loop of `read_record` (/repo/pydarnio/dmap/dmap.py:469-471). -/
def readArraysS (cfg : NpCfg) (buf : Bytes) (rn : Nat) (blockSize : Int) : Nat → Rec → RdS Rec
  | 0, r => RdS.pure r
  | n + 1, r => do
    let a ← readArrayS cfg buf rn blockSize
    readArraysS cfg buf rn blockSize n (r.set a.name (.array a))

/-- `read_record` (/repo/pydarnio/dmap/dmap.py:409-478). -/
def readRecordS (cfg : NpCfg) (buf : Bytes) (rn : Nat) : RdS Rec := do
  let start ← RdS.ofRd Rd.cursor
  RdS.ofRd (Rd.setCursor (start + 4))
  let blockSize ← readIntS buf
  let c ← RdS.ofRd Rd.cursor
  RdS.ofRd (bytesCheck rn blockSize (buf.length - c + 8))
  RdS.ofRd (zeroNegativeCheck rn blockSize)
  let numScalars ← readIntS buf
  let numArrays ← readIntS buf
  RdS.ofRd (zeroNegativeCheck rn numScalars)
  RdS.ofRd (zeroNegativeCheck rn numArrays)
  RdS.ofRd (bytesCheck rn (numScalars + numArrays) blockSize)
  let r ← readScalarsS buf rn numScalars.toNat []
  let r ← readArraysS cfg buf rn blockSize numArrays.toNat r
  let c' ← RdS.ofRd Rd.cursor
  if c' - start ≠ blockSize then RdS.ofRd (Rd.raise .cursorError) else return r

/-- The loop of `test_initial_data_integrity` (/repo/pydarnio/dmap/dmap.py:333-363). -/
def integrityLoopS (buf : Bytes) (rn : Nat) : Nat → Int → Int → (Except Err Int × Int) × Nat
  | fuel, total, c =>
    if c < buf.length then
      match fuel with
      | 0 => ((.error .diverged, c), 0)
      | fuel + 1 =>
        match (do
            let blockSize ← readIntS buf
            RdS.ofRd (zeroNegativeCheck rn blockSize)
            RdS.ofRd (bytesCheck rn (total + blockSize) buf.length)
            return blockSize : RdS Int) (c + 4) with
        | ((.error e, c'), t) => ((.error e, c'), t)
        | ((.ok blockSize, c'), t) =>
          let r := integrityLoopS buf rn fuel (total + blockSize) (c' + blockSize - 8)
          (r.1, t + r.2)
    else ((.ok total, c), 0)

/-- The `while` loop of `read_records` (/repo/pydarnio/dmap/dmap.py:398-401). -/
def Reader.readLoopS (cfg : NpCfg) : Nat → Reader → (Except Err Unit × Reader) × Nat
  | fuel, r =>
    if r.cursor < r.buf.length then
      match fuel with
      | 0 => ((.error .diverged, r), 0)
      | fuel + 1 =>
        match readRecordS cfg r.buf r.recNum r.cursor with
        | ((.error e, c), t) => ((.error e, { r with cursor := c }), t)
        | ((.ok rec, c), t) =>
          let x := Reader.readLoopS cfg fuel
            { r with cursor := c, dmapRecords := r.dmapRecords ++ [rec], recNum := r.recNum + 1 }
          (x.1, t + x.2)
    else ((.ok (), r), 0)

/-- The steps of `read_records` (/repo/pydarnio/dmap/dmap.py:375-407) before the records become dictionaries. -/
def Reader.readSteps (cfg : NpCfg) (r : Reader) : Nat := (r.readLoopS cfg (r.buf.length - r.cursor).toNat).2

/-- The steps of `test_initial_data_integrity` (/repo/pydarnio/dmap/dmap.py:312-373) of a new reader. -/
def integritySteps (bs : Bytes) : Nat := (integrityLoopS bs 0 bs.length 0 0).2

end Verif
