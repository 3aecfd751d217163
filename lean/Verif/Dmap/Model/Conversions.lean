import Verif.Dmap.Model.Types
import Verif.Py.Float
/-!
# `utils/conversions.py`

Plain Python dictionaries to DMAP structures and back.
-/
namespace Verif

/-- Python type of a plain scalar (`type(value)`). -/
inductive PyTy
  | int | float | str
  | np (d : DType)
  deriving DecidableEq, Repr

/-- Values of a plain record dictionary.  Python lists are turned into arrays by
`np.array(value)` before anything else (/repo/pydarnio/utils/conversions.py:86-87);
NumPy's type inference for lists is not modelled, so a list is represented by
the array NumPy makes of it. -/
inductive PlainVal
  | scalar (ty : PyTy) (v : PyVal)
  | arr (a : NdArr)
  deriving DecidableEq, Repr

/-- A plain record dictionary. -/
abbrev PlainRec := Dict PyStr PlainVal

/-- `DMAP_FORMAT_TYPES` (/repo/pydarnio/utils/conversions.py:18-28): format ↦ code.
There is no entry for the empty DMAP format. -/
def dmapFormatTypes : Fmt → Option Int
  | .c => some 1 | .h => some 2 | .i => some 3 | .f => some 4 | .d => some 8
  | .s => some 9 | .q => some 10 | .B => some 16 | .H => some 17 | .I => some 18
  | .Q => some 19 | .dmap => none

/-- `FORMAT_CONVERSION` (/repo/pydarnio/utils/conversions.py:33-45): Python/NumPy type
↦ format; `none` is `KeyError`.  `np.longlong`/`np.ulonglong` have no entry. -/
def formatConversion : PyTy → Option Fmt
  | .np .int8 => some .c
  | .np .int16 => some .h
  | .int => some .i
  | .np .int32 => some .i
  | .float => some .f
  | .np .float32 => some .f
  | .np .float64 => some .d
  | .str => some .s
  | .np .int64 => some .q
  | .np .uint8 => some .B
  | .np .uint16 => some .H
  | .np .uint32 => some .I
  | .np .uint64 => some .Q
  | .np .longlong => none
  | .np .ulonglong => none
  | .np (.other _ _) => none

/-- `DMAP_CASTING_TYPES` (/repo/pydarnio/utils/conversions.py:47-57). -/
def dmapCastingTypes : Fmt → Option PyTy
  | .c => some (.np .int8)
  | .h => some (.np .int16)
  | .i => some .int
  | .f => some .float
  | .d => some (.np .float64)
  | .s => some .str
  | .q => some (.np .int64)
  | .B => some (.np .uint8)
  | .H => some (.np .uint16)
  | .I => some (.np .uint32)
  | .Q => some (.np .uint64)
  | .dmap => none

/-- One field of `dict2dmap` (/repo/pydarnio/utils/conversions.py:84-101). -/
def plainToField (name : PyStr) : PlainVal → Except Err Field
  | .arr a =>
    match formatConversion (.np a.dtype) with
    | none => .error .keyError
    | some fmt =>
      match dmapFormatTypes fmt with
      | none => .error .keyError
      | some code =>
        .ok (.array { name := name, value := a, dataType := code, fmt := fmt,
                      dimension := a.shape.length, shape := a.shape.map Int.ofNat })
  | .scalar ty v =>
    match formatConversion ty with
    | none => .error .keyError
    | some fmt =>
      match dmapFormatTypes fmt with
      | none => .error .keyError
      | some code => .ok (.scalar { name := name, value := v, dataType := code, fmt := fmt })

/-- One record of `dict2dmap` (/repo/pydarnio/utils/conversions.py:83-102). -/
def plainToRec : PlainRec → Except Err Rec
  | [] => .ok []
  | (k, v) :: d => do
    let f ← plainToField k v
    let r ← plainToRec d
    return (k, f) :: r

/-- `dict2dmap` (/repo/pydarnio/utils/conversions.py:64-103). -/
def dict2dmap : List PlainRec → Except Err (List Rec)
  | [] => .ok []
  | d :: ds => do
    let r ← plainToRec d
    let rs ← dict2dmap ds
    return r :: rs

/-- Integer range and wrap-around of `np.intN(v)` / `np.uintN(v)` with `k` bytes. -/
def npIntCast (cfg : NpCfg) (signed : Bool) (k : Nat) (v : Int) : Except Err Int :=
  let lo : Int := if signed then -(256 ^ k : Nat) / 2 else 0
  let hi : Int := if signed then (256 ^ k : Nat) / 2 else (256 ^ k : Nat)
  if lo ≤ v ∧ v < hi then .ok v
  else if cfg.intWraps then
    .ok (if signed then toSigned k (v % (256 ^ k : Nat)).toNat else v % (256 ^ k : Nat))
  else .error .overflowError

/-- `DMAP_CASTING_TYPES[fmt](value)` (/repo/pydarnio/utils/conversions.py:124-125).
Casts between different kinds of values (e.g. `np.int16` of a string) are not
modelled; they do not occur for records produced by the reader. -/
def castVal (cfg : NpCfg) (fmt : Fmt) (v : PyVal) : Except Err PlainVal :=
  match fmt, v with
  | .dmap, _ => .error .keyError
  | .c, .int v => do let v ← npIntCast cfg true 1 v; return .scalar (.np .int8) (.int v)
  | .h, .int v => do let v ← npIntCast cfg true 2 v; return .scalar (.np .int16) (.int v)
  | .i, .int v => .ok (.scalar .int (.int v))
  | .q, .int v => do let v ← npIntCast cfg true 8 v; return .scalar (.np .int64) (.int v)
  | .B, .int v => do let v ← npIntCast cfg false 1 v; return .scalar (.np .uint8) (.int v)
  | .H, .int v => do let v ← npIntCast cfg false 2 v; return .scalar (.np .uint16) (.int v)
  | .I, .int v => do let v ← npIntCast cfg false 4 v; return .scalar (.np .uint32) (.int v)
  | .Q, .int v => do let v ← npIntCast cfg false 8 v; return .scalar (.np .uint64) (.int v)
  | .f, .f32 b => .ok (.scalar .float (.f32 (quiet32 b)))
  | .f, .f64 b => .ok (.scalar .float (.f64 b))
  | .d, .f64 b => .ok (.scalar (.np .float64) (.f64 b))
  | .d, .f32 b => .ok (.scalar (.np .float64) (.f64 (f32ToF64 b)))
  | .s, .str s => .ok (.scalar .str (.str s))
  | _, _ => .error .unmodelled

/-- One field of `dmap2dict` (/repo/pydarnio/utils/conversions.py:124-125).  A value
without `.value` (not a DMAP structure) raises `AttributeError`. -/
def fieldToPlain (cfg : NpCfg) : Field → Except Err PlainVal
  | .array a => .ok (.arr a.value)
  | .scalar s => castVal cfg s.fmt s.value
  | .other => .error .attributeError

/-- One record of `dmap2dict` (/repo/pydarnio/utils/conversions.py:123-127). -/
def recToPlain (cfg : NpCfg) : Rec → Except Err PlainRec
  | [] => .ok []
  | (k, f) :: r => do
    let v ← fieldToPlain cfg f
    let d ← recToPlain cfg r
    return (k, v) :: d

/-- `dmap2dict` (/repo/pydarnio/utils/conversions.py:106-128). -/
def dmap2dict (cfg : NpCfg) : List Rec → Except Err (List PlainRec)
  | [] => .ok []
  | r :: rs => do
    let d ← recToPlain cfg r
    let ds ← dmap2dict cfg rs
    return d :: ds

end Verif
