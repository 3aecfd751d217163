import Verif.Dmap.Model.Types
/-!
# `DmapRead`: decoding one record

Model of /repo/pydarnio/dmap/dmap.py:228-310 and 409-722, 775-810.  A reading
step takes the cursor and returns a result *and* the cursor, also when it
raises, because the cursor of the object keeps its value after an exception.
The cursor is an `Int`: an `slist` array with negative dimensions moves it
backwards, possibly below zero.
-/
namespace Verif

/-- A method of `DmapRead` that only touches `self.cursor`. -/
def Rd (α : Type) := Int → Except Err α × Int

namespace Rd

/-- Return a value without moving the cursor. -/
def pure {α : Type} (a : α) : Rd α := fun c => (.ok a, c)

/-- Sequencing; an exception stops the computation and keeps the cursor. -/
def bind {α β : Type} (x : Rd α) (f : α → Rd β) : Rd β := fun c =>
  match x c with
  | (.ok a, c') => f a c'
  | (.error e, c') => (.error e, c')

instance : Monad Rd where
  pure := Rd.pure
  bind := Rd.bind

/-- `raise e`. -/
def raise {α : Type} (e : Err) : Rd α := fun c => (.error e, c)

/-- `self.cursor`. -/
def cursor : Rd Int := fun c => (.ok c, c)

/-- `self.cursor = c`. -/
def setCursor (c : Int) : Rd Unit := fun _ => (.ok (), c)

/-- Run a pure computation that may raise. -/
def lift {α : Type} (x : Except Err α) : Rd α := fun c => (x, c)

end Rd

/-- `bytearray.__getitem__(i)` with Python's negative indices; `none` is
`IndexError`. -/
def pyIndex (buf : Bytes) (i : Int) : Option UInt8 :=
  if 0 ≤ i then buf[i.toNat]?
  else if 0 ≤ i + buf.length then buf[(i + buf.length).toNat]?
  else none

/-- `struct.unpack_from(fmt, buf, off)` of a format of `n` bytes: the raw bytes,
or `none` for `struct.error`.  CPython semantics of negative offsets. -/
def unpackFrom (buf : Bytes) (n : Nat) (off : Int) : Option Bytes :=
  if off < 0 then
    if 0 < off + n then none
    else if off + buf.length < 0 then none
    else some ((buf.drop (off + buf.length).toNat).take n)
  else if (buf.length : Int) - off < n then none
  else some ((buf.drop off.toNat).take n)

/-- `zero_negative_check` (/repo/pydarnio/dmap/dmap.py:228-255). -/
def zeroNegativeCheck (rn : Nat) (x : Int) : Rd Unit :=
  if x = 0 then Rd.raise (.zeroByte rn)
  else if x < 0 then Rd.raise (.negativeByte rn)
  else Rd.pure ()

/-- `bytes_check` (/repo/pydarnio/dmap/dmap.py:257-288). -/
def bytesCheck (rn : Nat) (x bound : Int) : Rd Unit :=
  if x > bound then Rd.raise (.mismatchByte rn) else Rd.pure ()

/-- `check_data_type` (/repo/pydarnio/dmap/dmap.py:290-310) together with the
table lookups that follow it (510-511, 553-554): returns format and size. -/
def checkDataType (rn : Nat) (code : Nat) (name : PyStr) : Rd (Fmt × Nat) :=
  match dmapDataTypes.lookup code with
  | some p => Rd.pure p
  | none => Rd.raise (.dmapDataType name code rn)

/-- The two cursor checks at the start of `read_data`
(/repo/pydarnio/dmap/dmap.py:667-683). -/
def readPre (buf : Bytes) (n : Nat) : Rd Unit := fun c =>
  if c ≥ buf.length then (.error .cursorError, c)
  else if (buf.length : Int) - c < n then (.error .cursorError, c)
  else (.ok (), c)

/-- `read_data('c', 1)` (/repo/pydarnio/dmap/dmap.py:690-696): the byte as an
int in 0..255. -/
def readDataC (buf : Bytes) : Rd Nat := do
  readPre buf 1
  let c ← Rd.cursor
  match pyIndex buf c with
  | none => Rd.raise .indexError
  | some b => do
    Rd.setCursor (c + 1)
    return b.toNat

/-- The scanning loop of `read_data('s', 1)` (/repo/pydarnio/dmap/dmap.py:698-703):
number of bytes before the terminator, `none` for `IndexError`.  The loop cannot
run longer than `fuel`: at `c + n = len(buf)` indexing raises. -/
def scanNul (buf : Bytes) (c : Int) : Nat → Nat → Option Nat
  | 0, _ => none
  | fuel + 1, n =>
    match pyIndex buf (c + n) with
    | none => none
    | some b =>
      if b ≠ 0 ∨ c + n ≥ buf.length then scanNul buf c fuel (n + 1) else some n

/-- `read_data('s', 1)` (/repo/pydarnio/dmap/dmap.py:697-716). -/
def readDataS (buf : Bytes) (rn : Nat) : Rd PyStr := do
  readPre buf 1
  let c ← Rd.cursor
  match scanNul buf c ((buf.length - c).toNat + 1) 0 with
  | none => Rd.raise .indexError
  | some n => do
    bytesCheck rn (c + n) buf.length
    match unpackFrom buf n c with
    | none => Rd.raise .structError
    | some bs => do
      Rd.setCursor (c + n + 1)
      match utf8Decode bs with
      | none => Rd.raise .unicodeDecodeError
      | some s => return s

/-- What `struct.unpack_from` raises: an offset must fit a C `ssize_t`. -/
def unpackErr (off : Int) : Err := if off < -2 ^ 63 then .overflowError else .structError

/-- The last branch of `read_data` (/repo/pydarnio/dmap/dmap.py:717-722): the raw
bytes of a fixed-size value. -/
def readDataN (buf : Bytes) (n : Nat) : Rd Bytes := do
  readPre buf n
  let c ← Rd.cursor
  match unpackFrom buf n c with
  | none => Rd.raise (unpackErr c)
  | some bs => do
    Rd.setCursor (c + n)
    return bs

/-- `read_data('i', 4)`: a signed 32-bit integer. -/
def readInt (buf : Bytes) : Rd Int := do
  let bs ← readDataN buf 4
  return toSigned 4 (leNat bs)

/-- `struct.unpack(fmt, bs)[0]` for the fixed-size numeric formats.  A `'f'` is cast to
`double`, which makes signalling NaNs quiet.  The two
non-numeric formats and `'c'` have their own branches in `read_data`; they are
not reached here. -/
def decodeNum (fmt : Fmt) (bs : Bytes) : PyVal :=
  match fmt with
  | .f => .f32 (quiet32 (BitVec.ofNat 32 (leNat bs)))
  | .d => .f64 (BitVec.ofNat 64 (leNat bs))
  | .h => .int (toSigned 2 (leNat bs))
  | .i => .int (toSigned 4 (leNat bs))
  | .q => .int (toSigned 8 (leNat bs))
  | _ => .int (leNat bs)

/-- `read_data(fmt, size)` (/repo/pydarnio/dmap/dmap.py:636-722). -/
def readData (buf : Bytes) (rn : Nat) (fmt : Fmt) (size : Nat) : Rd PyVal :=
  match fmt with
  | .c => do let n ← readDataC buf; return .int n
  | .s => do let s ← readDataS buf rn; return .str s
  | fmt => do let bs ← readDataN buf size; return decodeNum fmt bs

/-- `read_scalar` (/repo/pydarnio/dmap/dmap.py:480-523). -/
def readScalar (buf : Bytes) (rn : Nat) : Rd DmapScalar := do
  let name ← readDataS buf rn
  let code ← readDataC buf
  let (fmt, size) ← checkDataType rn code name
  if fmt ≠ .dmap then do
    let v ← readData buf rn fmt size
    return { name := name, value := v, dataType := code, fmt := fmt }
  else Rd.raise .dmapDataError

/-- dtype that `np.frombuffer` creates for a format character
(/repo/pydarnio/dmap/dmap.py:800-807); see `DType` for `'q'`/`'Q'`. -/
def Fmt.readDtype : Fmt → DType
  | .c => .int8 | .h => .int16 | .i => .int32 | .q => .longlong
  | .B => .uint8 | .H => .uint16 | .I => .uint32 | .Q => .ulonglong
  | .f => .float32 | .d => .float64
  | .s => .other 1 true | .dmap => .other 0 false

/-- Split into `k` pieces of `sz` bytes. -/
def chunks (sz : Nat) : Nat → Bytes → List Bytes
  | 0, _ => []
  | k + 1, bs => bs.take sz :: chunks sz k (bs.drop sz)

/-- `np.frombuffer(buf, dtype, count, offset)`: the raw cells.  Any negative
count means "all the rest"; too little data or a bad offset is `ValueError`, and a count
that does not fit a C `ssize_t` is `OverflowError` (only a negative one can be that large:
the others have been compared with the size of the record). -/
def npFrombuffer (buf : Bytes) (sz : Nat) (count offset : Int) : Except Err (List Bytes) :=
  if count < -2 ^ 63 then .error .overflowError
  else if offset < 0 ∨ offset > buf.length then .error .valueError
  else
    let rest := buf.drop offset.toNat
    if count < 0 then
      if sz = 0 then .error .valueError
      else if rest.length % sz ≠ 0 then .error .valueError
      else .ok (chunks sz (rest.length / sz) rest)
    else if (rest.length : Int) < count * sz then .error .valueError
    else .ok (chunks sz count.toNat rest)

/-- Product of dimension sizes (/repo/pydarnio/dmap/dmap.py:591-593). -/
def prodInt (l : List Int) : Int := l.foldl (· * ·) 1

/-- The number of bytes that NumPy computes for a shape: dimensions of zero are passed over. -/
def npBytes (sz : Nat) : List Nat → Nat
  | [] => sz
  | d :: ds => (if d = 0 then 1 else d) * npBytes sz ds

/-- The shape, unless it is too big for NumPy: also that of an empty array can be. -/
def npShape (sz : Nat) (shape : List Nat) : Except Err (List Nat) :=
  if npBytes sz shape < 2 ^ 63 then .ok shape else .error .valueError

/-- `np.reshape` of `n` cells of `sz` bytes to `shape`: the resulting shape.  One negative
entry is inferred; more than one, a size mismatch or too many dimensions is
`ValueError`. -/
def npReshape (cfg : NpCfg) (sz n : Nat) (shape : List Int) : Except Err (List Nat) :=
  if shape.length > cfg.maxDims then .error .valueError
  else
    match (shape.filter (· < 0)).length with
    | 0 => if prodInt shape = n then npShape sz (shape.map Int.toNat) else .error .valueError
    | 1 =>
      let known := prodInt (shape.filter (0 ≤ ·))
      if known = 0 ∨ (n : Int) % known ≠ 0 then .error .valueError
      else npShape sz (shape.map fun x => if x < 0 then ((n : Int) / known).toNat else x.toNat)
    | _ => .error .valueError

/-- `read_numerical_array` (/repo/pydarnio/dmap/dmap.py:775-810).  The cursor has
already moved when `reshape` raises. -/
def readNumericalArray (cfg : NpCfg) (buf : Bytes) (shape : List Int) (fmt : Fmt)
    (total : Int) (size : Nat) : Rd NdArr := do
  let c ← Rd.cursor
  let cells ← Rd.lift (npFrombuffer buf size total c)
  Rd.setCursor (c + total * size)
  let shp ← Rd.lift (npReshape cfg size cells.length shape)
  return { dtype := fmt.readDtype, shape := shp, cells := cells }

/-- `[self.read_data('i', 4) for i in range(0, n)]` (/repo/pydarnio/dmap/dmap.py:563-564). -/
def readInts (buf : Bytes) : Nat → Rd (List Int)
  | 0 => Rd.pure []
  | n + 1 => do
    let x ← readInt buf
    let xs ← readInts buf n
    return x :: xs

/-- The field name that may have empty dimensions (/repo/pydarnio/dmap/dmap.py:570). -/
def slist : PyStr := py! "slist"

/-- `read_array(record_size)` (/repo/pydarnio/dmap/dmap.py:525-634). -/
def readArray (cfg : NpCfg) (buf : Bytes) (rn : Nat) (recordSize : Int) : Rd DmapArray := do
  let name ← readDataS buf rn
  let code ← readDataC buf
  let (fmt, size) ← checkDataType rn code name
  let dim ← readInt buf
  bytesCheck rn dim recordSize
  zeroNegativeCheck rn dim
  let dims ← readInts buf dim.toNat
  let shape := if dim > 1 then dims.reverse else dims
  if (shape.any fun x => decide (x ≤ 0)) = true ∧ name ≠ slist then Rd.raise .dmapDataError
  else if (shape.any fun x => decide (x ≥ recordSize)) = true then Rd.raise .dmapDataError
  else do
    let total := prodInt shape
    bytesCheck rn total recordSize
    bytesCheck rn (total * size) recordSize
    if fmt = .s then Rd.raise .dmapDataError
    else if code = 0 then Rd.raise .dmapDataError
    else do
      let v ← readNumericalArray cfg buf shape fmt total size
      return { name := name, value := v, dataType := code, fmt := fmt,
               dimension := dim, shape := shape }

/-- The scalar loop of `read_record` (/repo/pydarnio/dmap/dmap.py:463-466). -/
def readScalars (buf : Bytes) (rn : Nat) : Nat → Rec → Rd Rec
  | 0, r => Rd.pure r
  | n + 1, r => do
    let s ← readScalar buf rn
    readScalars buf rn n (r.set s.name (.scalar s))

/-- The array loop of `read_record` (/repo/pydarnio/dmap/dmap.py:469-471). -/
def readArrays (cfg : NpCfg) (buf : Bytes) (rn : Nat) (blockSize : Int) : Nat → Rec → Rd Rec
  | 0, r => Rd.pure r
  | n + 1, r => do
    let a ← readArray cfg buf rn blockSize
    readArrays cfg buf rn blockSize n (r.set a.name (.array a))

/-- `read_record` (/repo/pydarnio/dmap/dmap.py:409-478). -/
def readRecord (cfg : NpCfg) (buf : Bytes) (rn : Nat) : Rd Rec := do
  let start ← Rd.cursor
  Rd.setCursor (start + 4)
  let blockSize ← readInt buf
  let c ← Rd.cursor
  bytesCheck rn blockSize (buf.length - c + 8)
  zeroNegativeCheck rn blockSize
  let numScalars ← readInt buf
  let numArrays ← readInt buf
  zeroNegativeCheck rn numScalars
  zeroNegativeCheck rn numArrays
  bytesCheck rn (numScalars + numArrays) blockSize
  let r ← readScalars buf rn numScalars.toNat []
  let r ← readArrays cfg buf rn blockSize numArrays.toNat r
  let c' ← Rd.cursor
  if c' - start ≠ blockSize then Rd.raise .cursorError else return r

end Verif
