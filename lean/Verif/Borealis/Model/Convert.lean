import Verif.Borealis.Model.Restructure
import Verif.Dmap.Model.Conversions
import Verif.SDarn.Model.Objects
/-!
# `BorealisConvert`: the convertibility checks and the conversion of records

Model of /repo/pydarnio/borealis/borealis_convert.py:57-97, 299-1021.

Floating point arithmetic is a parameter (`Ops`): the properties say which number is computed from
which, not how it is rounded.  Only the clamping of samples to 16 bits is modelled in full.
A result that is stored in an integer type is a bit vector of its size, since that is all that
NumPy can return.
-/
namespace Verif.Bor

/-- A `datetime`, with its text in the format `%c`.  The parts of a date fit their types. -/
structure Date where
  text : PyStr
  year : BitVec 16
  month : BitVec 16
  day : BitVec 16
  hour : BitVec 16
  minute : BitVec 16
  second : BitVec 16
  micro : BitVec 32
  deriving DecidableEq, Repr

/-- Floating point operations. -/
structure Ops where
  /-- `x.astype(np.complex64) / norm * 32767 * factor`: real and imaginary part as float64
  (/repo/pydarnio/borealis/borealis_convert.py:565-567, 604-605). -/
  iq : Elt → Val → Int → BitVec 64 × BitVec 64
  /-- `x.astype(np.complex64) * (32767**2 * factor / norm**2)`: real and imaginary part as float32
  (/repo/pydarnio/borealis/borealis_convert.py:827-842, 881-883). -/
  acf : Elt → Val → Int → BitVec 32 × BitVec 32
  /-- The absolute value of the same number, as float32
  (/repo/pydarnio/borealis/borealis_convert.py:866, 1011). -/
  power : Elt → Val → Int → BitVec 32
  /-- `np.int16(x)`. -/
  toI16 : Elt → BitVec 16
  /-- `np.float32(x)`. -/
  toF32 : Elt → BitVec 32
  /-- `np.int16(1e6 / x)`. -/
  period : Elt → BitVec 16
  /-- `np.int16(np.floor(x))`. -/
  floor : Elt → BitVec 16
  /-- `np.int32(np.fmod(x, 1.0) * 1e6)`. -/
  micros : Elt → BitVec 32
  /-- `round(x)`, a Python `int`; infinities and NaNs raise. -/
  round : Elt → Except Err Int
  /-- `np.int32(x / y)`. -/
  quot : Elt → Elt → BitVec 32
  /-- `np.floor(x/1e3)` as element of an int32 array; infinities, NaNs and large numbers raise. -/
  tsc : Elt → Except Err (BitVec 32)
  /-- `np.fmod(x, 1000.0) * 1e3` as element of an int32 array. -/
  tus : Elt → Except Err (BitVec 32)
  /-- `np.abs(x) > 0`. -/
  isOn : Elt → Bool
  /-- `x == 0` for a floating point number. -/
  isZero : Elt → Bool
  /-- `datetime.utcfromtimestamp(x)`; out of range it raises. -/
  utc : Elt → Except Err Date
  /-- A NaN as int16, which depends on the platform. -/
  nan16 : BitVec 16

/-! ## Numbers -/

/-- Absolute value of a float64 that is not infinite or NaN, rounded towards zero. -/
def f64Trunc (b : BitVec 64) : Nat :=
  let e := b.toNat / 2 ^ 52 % 2 ^ 11
  let m := b.toNat % 2 ^ 52
  let mant := if e = 0 then m else 2 ^ 52 + m
  let e' := if e = 0 then 1 else e
  if 1075 ≤ e' then mant * 2 ^ (e' - 1075) else mant / 2 ^ (1075 - e')

/-- `np.minimum(x, 32767)`, `np.maximum(x, -32768)` and the conversion to int16, which rounds towards
zero (/repo/pydarnio/borealis/borealis_convert.py:607-610). -/
def clamp16 (nan : BitVec 16) (b : BitVec 64) : Int :=
  if b.toNat / 2 ^ 52 % 2 ^ 11 = 2047 then
    if b.toNat % 2 ^ 52 = 0 then (if b.toNat / 2 ^ 63 = 0 then 32767 else -32768)
    else nan.toInt
  else if b.toNat / 2 ^ 63 = 0 then min (f64Trunc b) 32767
  else max (-(f64Trunc b : Int)) (-32768)

/-- Conversion of a NumPy integer to a signed type of `k` bytes: the low bytes. -/
def wrapInt (k : Nat) (n : Int) : Int := toSigned k (n % (256 ^ k : Nat)).toNat

/-- `np.intN(n)` of a Python `int`. -/
def pyIntTo (cfg : NpCfg) (k : Nat) (n : Int) : Except Err Int :=
  match npIntCast cfg true k n with
  | .ok v => .ok v
  | .error _ => .error .overflowError

/-- White space that `int` ignores around a number. -/
def isWhite (c : Char) : Bool := c = ' ' ∨ ('\t' ≤ c ∧ c ≤ '\r')

/-- Decimal digits, with single underscores between them; `acc`: the number so far. -/
def parseDigits : Option Nat → PyStr → Option Nat
  | none, [] => none
  | some n, [] => some n
  | acc, c :: s =>
    if c.isDigit then parseDigits (some (acc.getD 0 * 10 + (c.toNat - 48))) s
    else if c = '_' ∧ acc.isSome then
      match s with
      | d :: _ => if d.isDigit then parseDigits acc s else none
      | [] => none
    else none

/-- `int(s)` (ASCII digits only; Python also knows those of other scripts). -/
def parseInt (s : PyStr) : Except Err Int :=
  let s := ((s.dropWhile isWhite).reverse.dropWhile isWhite).reverse
  let p : Int × PyStr := match s with
    | '-' :: t => (-1, t)
    | '+' :: t => (1, t)
    | t => (1, t)
  match parseDigits none p.2 with
  | some n => .ok (p.1 * n)
  | none => .error .valueError

/-- `np.int16(v)` for a scalar. -/
def npI16 (cfg : NpCfg) (ops : Ops) : Val → Except Err Int
  | .py .pyInt (.int n) => pyIntTo cfg 2 n
  | .py .pyFloat e => .ok (ops.toI16 e).toInt
  | .np .f32 e => .ok (ops.toI16 e).toInt
  | .np .f64 e => .ok (ops.toI16 e).toInt
  | .np _ (.int n) => .ok (wrapInt 2 n)
  | _ => .error .unmodelled

/-- `np.int32(v)` for an integer scalar. -/
def npI32 (cfg : NpCfg) : Val → Except Err Int
  | .py .pyInt (.int n) => pyIntTo cfg 4 n
  | .np _ (.int n) => .ok (wrapInt 4 n)
  | _ => .error .unmodelled

/-- A floating point number. -/
def Val.flt : Val → Except Err Elt
  | .np .f32 e => .ok e
  | .np .f64 e => .ok e
  | .py .pyFloat e => .ok e
  | _ => .error .unmodelled

/-- A string; others cannot be joined to one. -/
def Val.text : Val → Except Err PyStr
  | .py .str (.str s) => .ok s
  | .np .npStr (.str s) => .ok s
  | _ => .error .typeError

/-- An array. -/
def Val.arr? : Val → Except Err NdArr
  | .arr a => .ok a
  | _ => .error .unmodelled

/-- The elements of a one-dimensional array. -/
def Val.elems : Val → Except Err (List Elt)
  | .arr a =>
    match a.shape with
    | [_] => .ok a.data
    | _ => .error .unmodelled
  | _ => .error .unmodelled

/-- Evaluate for every member of a list. -/
def mapE {α β : Type} (g : α → Except Err β) : List α → Except Err (List β)
  | [] => .ok []
  | x :: l => do
    let y ← g x
    let ys ← mapE g l
    .ok (y :: ys)

/-- `l[i]`. -/
def at_ {α : Type} (l : List α) (i : Nat) : Except Err α :=
  match l[i]? with
  | some x => .ok x
  | none => .error .indexError

/-! ## Version numbers -/

/-- `borealis_major_revision`, `borealis_minor_revision`: a string or 255. -/
inductive Revision
  | text (s : PyStr)
  | num (n : Int)
  deriving DecidableEq, Repr

/-- The version numbers of a record
(/repo/pydarnio/borealis/borealis_convert.py:367-373, 443-449, 571-577, 846-852). -/
def revisions (hash : PyStr) : Except Err (Revision × Revision) :=
  match hash with
  | [] => .error .indexError
  | 'v' :: _ =>
    match pySplit '.' ((pySplit '-' hash).headD []) with
    | maj :: min :: _ => .ok (.text (maj.drop 1), .text min)
    | _ => .error .indexError
  | _ => .ok (.num 255, .num 255)

/-- `np.int8(revision)`. -/
def Revision.i8 (cfg : NpCfg) : Revision → Except Err Int
  | .num n => pyIntTo cfg 1 n
  | .text s => do pyIntTo cfg 1 (← parseInt s)

/-- `revision == 0`: a string equals no number. -/
def Revision.isZero : Revision → Bool
  | .num n => n == 0
  | .text _ => false

/-- `revision <= 5`; a string cannot be compared. -/
def Revision.atMost5 : Revision → Except Err Bool
  | .num n => .ok (n ≤ 5)
  | .text _ => .error .typeError

/-- `major == 0 and minor <= 5`. -/
def oldVersion (p : Revision × Revision) : Except Err Bool :=
  if p.1.isZero then p.2.atMost5 else .ok false

/-! ## The convertibility checks -/

/-- `int(record['tau_spacing'] / record['tx_pulse_len'])`
(/repo/pydarnio/borealis/borealis_convert.py:362-363, 438-439).  The quotient of two 32-bit
integers as float64 has the integer part of the exact quotient: a quotient that is not an
integer is further from the next one than the rounding error.  Division by zero gives `inf`
or `nan`, which `int` rejects. -/
def sampleSpacing (r : Rec) : Except Err Nat := do
  let t ← (← field r (py! "tau_spacing")).int
  let l ← (← field r (py! "tx_pulse_len")).int
  if t < 0 ∨ l < 0 then .error .unmodelled
  else if l = 0 then (if t = 0 then .error .valueError else .error .overflowError)
  else .ok (t.toNat / l.toNat)

/-- The elements of a one-dimensional uint32 array. -/
def Val.u32s (v : Val) : Except Err (List Nat) := do
  let a ← v.arr?
  if a.ty = .u32 then v.dimsOf else .error .unmodelled

/-- Insert into a sorted list. -/
def insertNat (n : Nat) : List Nat → List Nat
  | [] => [n]
  | m :: l => if n ≤ m then n :: m :: l else m :: insertNat n l

/-- `np.sort`. -/
def sortNat : List Nat → List Nat
  | [] => []
  | n :: l => insertNat n (sortNat l)

/-- `pulses * spacing` in uint32. -/
def pulseSamples (ps : List Nat) (s : Nat) : List Nat := ps.map fun p => p * s % 2 ^ 32

/-- `x + 1` in uint32. -/
def nextSamples (l : List Nat) : List Nat := l.map fun n => (n + 1) % 2 ^ 32

/-- The expected blanked samples (/repo/pydarnio/borealis/borealis_convert.py:375-388, 451-464). -/
def expectedBlanked (old : Bool) (ps : List Nat) (s : Nat) (blanked : List Nat) : List Nat :=
  let one := pulseSamples ps s
  if old then one
  else if one = blanked then one
  else sortNat (one ++ nextSamples one)

/-- The check of `blanked_samples` of one record
(/repo/pydarnio/borealis/borealis_convert.py:362-400, 438-476). -/
def blankedCheck (r : Rec) : Except Err Unit := do
  let s ← sampleSpacing r
  let h ← (← field r (py! "borealis_git_hash")).text
  let old ← oldVersion (← revisions h)
  let ps ← (← field r (py! "pulses")).u32s
  let bs ← (← field r (py! "blanked_samples")).u32s
  if bs = expectedBlanked old ps s bs then .ok () else .error .notConvertible

/-- `all([x == 0 for x in a])` for an array.  The comparison of a row is an array; only one element
has a truth value (an empty array has none from NumPy 2.2 on, which is not distinguished here). -/
def allZero (ops : Ops) (a : NdArr) : Except Err Bool :=
  match a.shape with
  | [] => .error .typeError
  | n :: ds =>
    if n = 0 then .ok true
    else if prod ds = 1 then .ok (a.data.all ops.isZero)
    else .error .valueError

/-- The check of `pulse_phase_offset` of one record
(/repo/pydarnio/borealis/borealis_convert.py:401-407). -/
def phaseCheck (ops : Ops) (r : Rec) : Except Err Unit := do
  let a ← (← field r (py! "pulse_phase_offset")).arr?
  if ← allZero ops a then .ok () else .error .notConvertible

/-- The loop of `_is_convertible_to_iqdat` (/repo/pydarnio/borealis/borealis_convert.py:338-408). -/
def checkIqdat (ops : Ops) : Records → Except Err Unit
  | [] => .ok ()
  | (_, r) :: rs => do
    blankedCheck r
    phaseCheck ops r
    checkIqdat ops rs

/-- The loop of `_is_convertible_to_rawacf` (/repo/pydarnio/borealis/borealis_convert.py:410-478). -/
def checkRawacf : Records → Except Err Unit
  | [] => .ok ()
  | (_, r) :: rs => do
    blankedCheck r
    checkRawacf rs

/-! ## Conversion of a record -/

/-- `code_to_stid` (/repo/pydarnio/borealis/borealis_convert.py:57-97). -/
def codeToStid : Dict PyStr Int :=
  [(py! "tst", 0), (py! "gbr", 1), (py! "sch", 2), (py! "kap", 3), (py! "hal", 4), (py! "sas", 5),
   (py! "pgr", 6), (py! "kod", 7), (py! "sto", 8), (py! "pyk", 9), (py! "han", 10), (py! "san", 11),
   (py! "sys", 12), (py! "sye", 13), (py! "tig", 14), (py! "ker", 15), (py! "ksr", 16),
   (py! "unw", 18), (py! "zho", 19), (py! "mcm", 20), (py! "fir", 21), (py! "sps", 22),
   (py! "bpk", 24), (py! "wal", 32), (py! "bks", 33), (py! "hok", 40), (py! "hkw", 41),
   (py! "inv", 64), (py! "rkn", 65), (py! "cly", 66), (py! "dce", 96), (py! "svb", 128),
   (py! "fhw", 204), (py! "fhe", 205), (py! "cvw", 206), (py! "cve", 207), (py! "adw", 208),
   (py! "ade", 209), (py! "ekb", 512)]

/-- An entry of a dictionary display: the key and the evaluation of its value. -/
abbrev Entry := PyStr × Except Err PlainVal

/-- A dictionary display: the values are evaluated in their order. -/
def dictOf : List Entry → Except Err PlainRec
  | [] => .ok []
  | (k, x) :: l => do
    let v ← x
    let d ← dictOf l
    .ok ((k, v) :: d)

/-- An `np.int8`. -/
def i8 (x : Except Err Int) : Except Err PlainVal := do .ok (.scalar (.np .int8) (.int (← x)))
/-- An `np.int16`. -/
def i16 (x : Except Err Int) : Except Err PlainVal := do .ok (.scalar (.np .int16) (.int (← x)))
/-- An `np.int32`. -/
def i32 (x : Except Err Int) : Except Err PlainVal := do .ok (.scalar (.np .int32) (.int (← x)))
/-- An `np.float32`. -/
def f32 (x : Except Err (BitVec 32)) : Except Err PlainVal := do .ok (.scalar (.np .float32) (.f32 (← x)))
/-- A `str`. -/
def text (x : Except Err PyStr) : Except Err PlainVal := do .ok (.scalar .str (.str (← x)))

/-- An array of int16. -/
def arr16 (shape : List Nat) (l : List Int) : PlainVal := .arr ⟨.int16, shape, l.map (intLE 2)⟩
/-- An array of int32. -/
def arr32 (shape : List Nat) (l : List Int) : PlainVal := .arr ⟨.int32, shape, l.map (intLE 4)⟩
/-- An array of float32. -/
def arrF32 (shape : List Nat) (l : List (BitVec 32)) : PlainVal :=
  .arr ⟨.float32, shape, l.map fun b => natLE 4 b.toNat⟩

/-- `astype(np.int16)` of an element. -/
def eltI16 (ops : Ops) : Elt → Int
  | .int n => wrapInt 2 n
  | e => (ops.toI16 e).toInt

/-- `v.astype(np.int16)`. -/
def asI16 (ops : Ops) (v : Val) : Except Err PlainVal := do
  let a ← v.arr?
  .ok (arr16 a.shape (a.data.map (eltI16 ops)))

/-- Decimal digits. -/
def natText (n : Nat) : PyStr := Nat.toDigits 10 n
/-- `str(n)`. -/
def intText (n : Int) : PyStr := if n < 0 then '-' :: natText n.natAbs else natText n.natAbs

/-- The record and what goes with it: the arguments of `__convert_bfiq_record` and
`__convert_rawacf_record`. -/
structure Source where
  slice : Val
  name : PyStr
  fields : Rec
  origin : PyStr
  factor : Int

/-- `datetime.utcfromtimestamp(record_dict['sqn_timestamps'][0])`. -/
def Source.date (ops : Ops) (s : Source) : Except Err Date := do
  let l ← (← field s.fields (py! "sqn_timestamps")).elems
  ops.utc (← at_ l 0)

/-- `np.int16` of a field. -/
def Source.i16 (cfg : NpCfg) (ops : Ops) (s : Source) (k : PyStr) : Except Err PlainVal :=
  Bor.i16 (do npI16 cfg ops (← field s.fields k))

/-- `np.int16` of a function of a floating point field. -/
def Source.fl16 (g : Elt → BitVec 16) (s : Source) (k : PyStr) : Except Err PlainVal :=
  Bor.i16 (do .ok (g (← (← field s.fields k).flt)).toInt)

/-- `np.int16(round(x))` of a floating point field. -/
def Source.round16 (cfg : NpCfg) (ops : Ops) (s : Source) (k : PyStr) : Except Err PlainVal :=
  Bor.i16 (do pyIntTo cfg 2 (← ops.round (← (← field s.fields k).flt)))

/-- A status word that is zero if the field is missing
(/repo/pydarnio/borealis/borealis_convert.py:614-624, 898-908). -/
def Source.status (cfg : NpCfg) (ops : Ops) (s : Source) (k : PyStr) : Except Err PlainVal :=
  Bor.i16 (match s.fields.get? k with
    | none => pyIntTo cfg 2 0
    | some v => npI16 cfg ops v)

/-- `origin.command` (/repo/pydarnio/borealis/borealis_convert.py:635-637, 929-931). -/
def Source.command (s : Source) : Except Err PlainVal :=
  text (do
    let h ← (← field s.fields (py! "borealis_git_hash")).text
    let n ← (← field s.fields (py! "experiment_name")).text
    .ok (py! "Borealis " ++ h ++ py! " " ++ n))

/-- `combf` (/repo/pydarnio/borealis/borealis_convert.py:708-714, 1001-1007). -/
def Source.combf (s : Source) : Except Err PlainVal :=
  text (do
    let n ← (← field s.fields (py! "beam_nums")).len
    let e ← (← field s.fields (py! "experiment_comment")).text
    let c ← (← field s.fields (py! "slice_comment")).text
    .ok (py! "Converted from Borealis file: " ++ s.origin ++ py! " record " ++ s.name ++
      py! " with scaling factor = " ++ intText s.factor ++ py! " ; Number of beams in record: " ++
      natText n ++ py! " ; " ++ e ++ py! " ; " ++ c))

/-- The fields that both conversions make in the same way, up to `xcf`
(/repo/pydarnio/borealis/borealis_convert.py:628-699, 922-993); `txpow` and `nrang` differ. -/
def commonFields (cfg : NpCfg) (ops : Ops) (s : Source) (rev : Revision × Revision) (beam : Elt) (b : Nat)
    (txpow nrang : Except Err Int) : List Entry :=
  [(py! "radar.revision.major", i8 (rev.1.i8 cfg)),
   (py! "radar.revision.minor", i8 (rev.2.i8 cfg)),
   (py! "origin.code", i8 (pyIntTo cfg 1 100)),
   (py! "origin.time", text (do .ok (← s.date ops).text)),
   (py! "origin.command", s.command),
   (py! "cp", s.i16 cfg ops (py! "experiment_id")),
   (py! "stid", i16 (do pyIntTo cfg 2 (← field codeToStid (← (← field s.fields (py! "station")).text)))),
   (py! "time.yr", i16 (do .ok (← s.date ops).year.toInt)),
   (py! "time.mo", i16 (do .ok (← s.date ops).month.toInt)),
   (py! "time.dy", i16 (do .ok (← s.date ops).day.toInt)),
   (py! "time.hr", i16 (do .ok (← s.date ops).hour.toInt)),
   (py! "time.mt", i16 (do .ok (← s.date ops).minute.toInt)),
   (py! "time.sc", i16 (do .ok (← s.date ops).second.toInt)),
   (py! "time.us", i32 (do .ok (← s.date ops).micro.toInt)),
   (py! "txpow", i16 txpow),
   (py! "nave", s.i16 cfg ops (py! "num_sequences")),
   (py! "atten", i16 (pyIntTo cfg 2 0)),
   (py! "lagfr", s.i16 cfg ops (py! "first_range_rtt")),
   (py! "smsep", s.fl16 ops.period (py! "rx_sample_rate")),
   (py! "ercod", i16 (pyIntTo cfg 2 0)),
   (py! "stat.agc", s.status cfg ops (py! "agc_status_word")),
   (py! "stat.lopwr", s.status cfg ops (py! "lp_status_word")),
   (py! "noise.search", f32 (do .ok (ops.toF32 (← at_ (← (← field s.fields (py! "noise_at_freq")).elems) 0)))),
   (py! "noise.mean", f32 (.ok 0)),
   (py! "channel", i16 (npI16 cfg ops s.slice)),
   (py! "bmnum", i16 (.ok (eltI16 ops beam))),
   (py! "bmazm", f32 (do .ok (ops.toF32 (← at_ (← (← field s.fields (py! "beam_azms")).elems) b)))),
   (py! "scan", s.i16 cfg ops (py! "scan_start_marker")),
   (py! "offset", i16 (pyIntTo cfg 2 0)),
   (py! "rxrise", i16 (pyIntTo cfg 2 0)),
   (py! "intt.sc", s.fl16 ops.floor (py! "int_time")),
   (py! "intt.us", i32 (do .ok (ops.micros (← (← field s.fields (py! "int_time")).flt)).toInt)),
   (py! "txpl", s.i16 cfg ops (py! "tx_pulse_len")),
   (py! "mpinc", s.i16 cfg ops (py! "tau_spacing")),
   (py! "mppul", i16 (do pyIntTo cfg 2 (← (← field s.fields (py! "pulses")).len))),
   (py! "mplgs", i16 (do pyIntTo cfg 2 ((← (← field s.fields (py! "lags")).shapeAt 0) - 1))),
   (py! "nrang", i16 nrang),
   (py! "frang", s.round16 cfg ops (py! "first_range")),
   (py! "rsep", s.round16 cfg ops (py! "range_sep"))]

/-- The samples of one beam: for each sequence, for each antenna array, all samples
(/repo/pydarnio/borealis/borealis_convert.py:588-601).  `data[:, :, beam_index, :]` and
`this_data[x, i, :]` fail if an index is too large, also when they would select nothing.
Simplification: data of more than four dimensions, which no format has, is not followed. -/
def beamSamples (a : NdArr) (b ns : Nat) : Except Err (List Elt) :=
  match a.shape with
  | [na, nq, nb, nsamp] =>
    if b < nb ∧ (na = 0 ∨ ns ≤ nq) then
      mapE (fun idx => match a.get? idx with
        | some e => .ok e
        | none => .error .indexError)
        ((List.range ns).flatMap fun i => (List.range na).flatMap fun x => (List.range nsamp).map fun s =>
          [x, i, b, s])
    else .error .indexError
  | _ => .error .indexError

/-- Real and imaginary parts of all samples, clamped
(/repo/pydarnio/borealis/borealis_convert.py:603-610). -/
def iqData (ops : Ops) (norm : Val) (factor : Int) (l : List Elt) : List Int :=
  l.flatMap fun e => [clamp16 ops.nan16 (ops.iq e norm factor).1, clamp16 ops.nan16 (ops.iq e norm factor).2]

/-- `'intf' in array`: bytes are not equal to a string. -/
def hasIntf (a : NdArr) : Bool := a.ty == .npStr && a.data.contains (.str (py! "intf"))

/-- The fields of an iqdat record: what is assigned to `sdarn_record_dict`
(/repo/pydarnio/borealis/borealis_convert.py:627-749).  `offset` is
computed in 64 bits by NumPy 1 and in 32 bits by NumPy 2; numbers that do not fit 32 bits are reduced
here (the data would have 4 GB). -/
def iqdatFields (cfg : NpCfg) (ops : Ops) (s : Source) (rev : Revision × Revision) (norm : Val)
    (nsamps nseq : Nat) (order : NdArr) (beam : Elt) (b : Nat) (l : List Elt) : List Entry :=
  let narr := order.shape.headD 0
  let offset : Nat := 2 * narr * nsamps
  commonFields cfg ops s rev beam b (pyIntTo cfg 2 (-1))
      (do npI16 cfg ops (← field s.fields (py! "num_ranges"))) ++
    [(py! "xcf", i16 (pyIntTo cfg 2 (if hasIntf order then 1 else 0))),
     (py! "tfreq", s.i16 cfg ops (py! "freq")),
     (py! "mxpwr", i32 (pyIntTo cfg 4 (-1))),
     (py! "lvmax", i32 (pyIntTo cfg 4 20000)),
     (py! "iqdata.revision.major", i32 (pyIntTo cfg 4 1)),
     (py! "iqdata.revision.minor", i32 (pyIntTo cfg 4 0)),
     (py! "combf", s.combf),
     (py! "seqnum", i32 (do npI32 cfg (← field s.fields (py! "num_sequences")))),
     (py! "chnnum", i32 (pyIntTo cfg 4 narr)),
     (py! "smpnum", i32 (do npI32 cfg (← field s.fields (py! "num_samps")))),
     (py! "skpnum", i32 (do .ok (ops.quot (← (← field s.fields (py! "first_range")).flt)
        (← (← field s.fields (py! "range_sep")).flt)).toInt)),
     (py! "ptab", do asI16 ops (← field s.fields (py! "pulses"))),
     (py! "ltab", do asI16 ops (← field s.fields (py! "lags"))),
     (py! "tsc", do
        let ts ← (← field s.fields (py! "sqn_timestamps")).elems
        .ok (arr32 [ts.length] ((← mapE ops.tsc ts).map BitVec.toInt))),
     (py! "tus", do
        let ts ← (← field s.fields (py! "sqn_timestamps")).elems
        .ok (arr32 [ts.length] ((← mapE ops.tus ts).map BitVec.toInt))),
     (py! "tatten", .ok (arr16 [nseq] (List.replicate nseq 0))),
     (py! "tnoise", do
        let a ← (← field s.fields (py! "noise_at_freq")).arr?
        .ok (arrF32 a.shape (a.data.map ops.toF32))),
     (py! "toff", .ok (arr32 [nseq] ((List.range nseq).map fun i => wrapInt 4 (i * offset : Nat)))),
     (py! "tsze", .ok (arr32 [nseq] (List.replicate nseq (wrapInt 4 offset)))),
     (py! "data", .ok (arr16 [2 * l.length] (iqData ops norm s.factor l)))]

/-- The iqdat record of one beam (/repo/pydarnio/borealis/borealis_convert.py:584-751). -/
def iqdatRecord (cfg : NpCfg) (ops : Ops) (s : Source) (rev : Revision × Revision) (data : NdArr)
    (norm : Val) (nsamps nseq : Nat) (order : NdArr) (beam : Elt) (b : Nat) : Except Err PlainRec := do
  let l ← beamSamples data b nseq
  dictOf (iqdatFields cfg ops s rev norm nsamps nseq order beam b l)

/-- `enumerate`. -/
def enumFrom {α : Type} : Nat → List α → List (Nat × α)
  | _, [] => []
  | i, x :: l => (i, x) :: enumFrom (i + 1) l

/-- A non-negative integer, for `range`. -/
def Val.nat (v : Val) : Except Err Nat := do .ok (← v.int).toNat

/-- `__convert_bfiq_record` (/repo/pydarnio/borealis/borealis_convert.py:526-752). -/
def convertBfiq (cfg : NpCfg) (ops : Ops) (s : Source) : Except Err (List PlainRec) := do
  let dims ← (← field s.fields (py! "data_dimensions")).dimsOf
  let data ← (← (← field s.fields (py! "data")).reshape dims).arr?
  let norm ← field s.fields (py! "data_normalization_factor")
  let rev ← revisions (← (← field s.fields (py! "borealis_git_hash")).text)
  let order ← (← field s.fields (py! "antenna_arrays_order")).arr?
  let _ ← (Val.arr order).shapeAt 0
  let nsamps ← (← field s.fields (py! "num_samps")).nat
  let beams ← (← field s.fields (py! "beam_nums")).elems
  let nseq ← (← field s.fields (py! "num_sequences")).nat
  mapE (fun p => iqdatRecord cfg ops s rev data norm nsamps nseq order p.2 p.1) (enumFrom 0 beams)

/-- The lags of all ranges of one beam except the last lag
(/repo/pydarnio/borealis/borealis_convert.py:871-879). -/
def beamLags (a : NdArr) (b : Nat) : Except Err (List Elt) :=
  match a.shape with
  | [nb, nr, nl] =>
    if b < nb then
      mapE (fun idx => match a.get? idx with
        | some e => .ok e
        | none => .error .indexError)
        ((List.range nr).flatMap fun i => (List.range (nl - 1)).map fun j => [b, i, j])
    else .error .indexError
  | _ => .error .indexError

/-- Lag zero of all ranges of one beam (/repo/pydarnio/borealis/borealis_convert.py:857). -/
def beamLagZero (a : NdArr) (b : Nat) : Except Err (List Elt) :=
  match a.shape with
  | [nb, nr, nl] =>
    if b < nb ∧ 0 < nl then
      mapE (fun idx => match a.get? idx with
        | some e => .ok e
        | none => .error .indexError)
        ((List.range nr).map fun i => [b, i, 0])
    else .error .indexError
  | _ => .error .indexError

/-- Real and imaginary parts of correlations, with the shape ranges × lags × 2
(/repo/pydarnio/borealis/borealis_convert.py:881-894). -/
def acfData (ops : Ops) (norm : Val) (factor : Int) (nr nl : Nat) (l : List Elt) : PlainVal :=
  arrF32 [nr, nl - 1, 2] (l.flatMap fun e => [(ops.acf e norm factor).1, (ops.acf e norm factor).2])

/-- The antennas that transmit as a number, the first one having the lowest bit. -/
def antennaBits (ops : Ops) : List Elt → Nat
  | [] => 0
  | e :: l => (if ops.isOn e then 1 else 0) + 2 * antennaBits ops l

/-- `np.int16(txpow)` (/repo/pydarnio/borealis/borealis_convert.py:913-919, 962).  The sum is an
int64 in NumPy 1 and a uint16 in NumPy 2, where a number of more than 16 bits cannot be added. -/
def txpowOf (cfg : NpCfg) (ops : Ops) (r : Rec) : Except Err Int :=
  match r.get? (py! "tx_antenna_phases") with
  | none => pyIntTo cfg 2 (-1)
  | some v => do
    let l ← v.elems
    if cfg.intWraps ∨ antennaBits ops l < 2 ^ 16 then .ok (wrapInt 2 (antennaBits ops l))
    else .error .overflowError

/-- The fields of a rawacf record: what is assigned to `sdarn_record_dict`
(/repo/pydarnio/borealis/borealis_convert.py:921-1018). -/
def rawacfFields (cfg : NpCfg) (ops : Ops) (s : Source) (rev : Revision × Revision) (norm : Val) (nr nl : Nat)
    (beam : Elt) (b : Nat) (lag0 mainLags : List Elt) (crossLags : Option (List Elt)) : List Entry :=
  commonFields cfg ops s rev beam b (txpowOf cfg ops s.fields) (.ok (wrapInt 2 nr)) ++
    [(py! "xcf", i16 (pyIntTo cfg 2 (if (s.fields.get? (py! "xcfs")).isSome then 1 else 0))),
     (py! "tfreq", s.i16 cfg ops (py! "freq")),
     (py! "mxpwr", i32 (pyIntTo cfg 4 (-1))),
     (py! "lvmax", i32 (pyIntTo cfg 4 20000)),
     (py! "rawacf.revision.major", i32 (pyIntTo cfg 4 1)),
     (py! "rawacf.revision.minor", i32 (pyIntTo cfg 4 0)),
     (py! "combf", s.combf),
     (py! "thr", f32 (.ok 0)),
     (py! "ptab", do asI16 ops (← field s.fields (py! "pulses"))),
     (py! "ltab", do asI16 ops (← field s.fields (py! "lags"))),
     (py! "pwr0", .ok (arrF32 [nr] (lag0.map fun e => ops.power e norm s.factor))),
     (py! "slist", .ok (arr16 [nr] ((List.range nr).map fun i => wrapInt 2 (i : Nat)))),
     (py! "acfd", .ok (acfData ops norm s.factor nr nl mainLags)),
     (py! "xcfd", match crossLags with
        | none => .error .keyError
        | some l => .ok (acfData ops norm s.factor nr nl l))]

/-- The lags of one beam if the correlations are there. -/
def optLags (a : Option NdArr) (b : Nat) : Except Err (Option (List Elt)) :=
  match a with
  | none => .ok none
  | some a => do .ok (some (← beamLags a b))

/-- The rawacf record of one beam (/repo/pydarnio/borealis/borealis_convert.py:855-1019). -/
def rawacfRecord (cfg : NpCfg) (ops : Ops) (s : Source) (rev : Revision × Revision) (main : NdArr)
    (intf xcfs : Option NdArr) (norm : Val) (nr nl : Nat) (beam : Elt) (b : Nat) : Except Err PlainRec := do
  let lag0 ← beamLagZero main b
  let mainLags ← beamLags main b
  let _ ← optLags intf b
  let crossLags ← optLags xcfs b
  dictOf (rawacfFields cfg ops s rev norm nr nl beam b lag0 mainLags crossLags)

/-- The correlations of a field that may be missing
(/repo/pydarnio/borealis/borealis_convert.py:833-842). -/
def shapedField (r : Rec) (k : PyStr) (dims : List Nat) : Except Err (Option NdArr) :=
  match r.get? k with
  | none => .ok none
  | some v => do .ok (some (← (← v.reshape dims).arr?))

/-- `data_dimensions` of a rawacf record (/repo/pydarnio/borealis/borealis_convert.py:820-822); `None`
if both fields are missing, which fails later. -/
def rawacfDims (r : Rec) : Except Err (List Nat) :=
  match r.get? (py! "correlation_dimensions") with
  | some v => v.dimsOf
  | none =>
    match r.get? (py! "data_dimensions") with
    | some v => v.dimsOf
    | none => .error .typeError

/-- `__convert_rawacf_record` (/repo/pydarnio/borealis/borealis_convert.py:789-1021).  Dimensions
other than three are only followed as far as the first failure. -/
def convertRawacf (cfg : NpCfg) (ops : Ops) (s : Source) : Except Err (List PlainRec) := do
  let dims ← rawacfDims s.fields
  let main ← (← (← field s.fields (py! "main_acfs")).reshape dims).arr?
  let norm ← field s.fields (py! "data_normalization_factor")
  let intf ← shapedField s.fields (py! "intf_acfs") dims
  let xcfs ← shapedField s.fields (py! "xcfs") dims
  let rev ← revisions (← (← field s.fields (py! "borealis_git_hash")).text)
  let beams ← (← field s.fields (py! "beam_nums")).elems
  match dims with
  | [_, nr, nl] =>
    mapE (fun p => rawacfRecord cfg ops s rev main intf xcfs norm nr nl p.2 p.1) (enumFrom 0 beams)
  | _ => .error .unmodelled

/-! ## Conversion of a file -/

/-- What is to be converted: an iqdat or a rawacf file. -/
inductive Target
  | iqdat | rawacf
  deriving DecidableEq, Repr

/-- The conversion of one record. -/
def convertRecord (cfg : NpCfg) (ops : Ops) : Target → Source → Except Err (List PlainRec)
  | .iqdat, s => convertBfiq cfg ops s
  | .rawacf, s => convertRawacf cfg ops s

/-- The loop of `_convert_bfiq_to_iqdat` and `_convert_rawacf_to_rawacf`
(/repo/pydarnio/borealis/borealis_convert.py:512-519, 775-782). -/
def convertAll (cfg : NpCfg) (ops : Ops) (t : Target) (slice : Val) (origin : PyStr) (factor : Int) :
    Records → Except Err (List PlainRec)
  | [] => .ok []
  | (n, r) :: rs => do
    let l ← convertRecord cfg ops t ⟨slice, n, r, origin, factor⟩
    let ls ← convertAll cfg ops t slice origin factor rs
    .ok (l ++ ls)

/-- The check before the conversion. -/
def checkTarget (ops : Ops) : Target → Records → Except Err Unit
  | .iqdat, rs => checkIqdat ops rs
  | .rawacf, rs => checkRawacf rs

/-- `_convert_records_to_dmap` (/repo/pydarnio/borealis/borealis_convert.py:318-336, 480-523, 754-786):
every exception of the conversion and of `dict2dmap` becomes a conversion error, those of the check do
not. -/
def convertToDmap (cfg : NpCfg) (ops : Ops) (t : Target) (slice : Val) (origin : PyStr) (factor : Int)
    (rs : Records) : Except Err (List Verif.Rec) :=
  match checkTarget ops t rs with
  | .error e => .error e
  | .ok () =>
    match convertAll cfg ops t slice origin factor rs with
    | .error _ => .error .notConvertible
    | .ok ds =>
      match dict2dmap ds with
      | .error _ => .error .notConvertible
      | .ok recs => .ok recs

end Verif.Bor
