import Verif.Borealis.Model.Scale
import Verif.Borealis.Model.Times
/-!
# Numbers in headers

The arithmetic on floating point numbers in the header of a converted record
(/repo/pydarnio/borealis/borealis_convert.py:670-699, 728-729, 741, 913-919, 964-993) and in the check of phase offsets
(/repo/pydarnio/borealis/borealis_convert.py:401).

The types are those of the formats (/repo/pydarnio/borealis/borealis_formats.py): `rx_sample_rate`, `noise_at_freq` and
`beam_azms` are float64, `first_range`, `first_range_rtt`, `range_sep`, `int_time` and `pulse_phase_offset` are float32,
`tx_antenna_phases` are complex64.
-/
namespace Verif.Bor
open Verif Verif.Ieee

/-- A whole number as int16.  What does not fit is any number, depending on processor and compiler: a parameter. -/
def int16Of (bad : Option Int → BitVec 16) (x : Option Int) : BitVec 16 :=
  match x with
  | some n => if -(2 ^ 15) ≤ n ∧ n < 2 ^ 15 then BitVec.ofInt 16 n else bad x
  | none => bad x

/-- A whole number as int32. -/
def int32Of (bad : Option Int → BitVec 32) (x : Option Int) : BitVec 32 :=
  match x with
  | some n => if -(2 ^ 31) ≤ n ∧ n < 2 ^ 31 then BitVec.ofInt 32 n else bad x
  | none => bad x

/-- A float32 of an array or a scalar; there are no others where this is used. -/
def single : Elt → Fl
  | .flt b => b32.ofBits b
  | _ => .nan

/-- A float64. -/
def double : Elt → Fl
  | .flt b => b64.ofBits b
  | _ => .nan

/-- `np.int16(x)` of a float32: towards zero (/repo/pydarnio/borealis/borealis_convert.py:671). -/
def truncOf (bad : Option Int → BitVec 16) (e : Elt) : BitVec 16 := int16Of bad ((single e).trunc? b32)

/-- `np.float32(x)` of a float64 (/repo/pydarnio/borealis/borealis_convert.py:678, 683, 741). -/
def narrowOf (e : Elt) : BitVec 32 := bits32 (b64.to b32 (double e))

/-- `np.int16(1e6 / x)` of a float64 (/repo/pydarnio/borealis/borealis_convert.py:673). -/
def periodOf (bad : Option Int → BitVec 16) (e : Elt) : BitVec 16 :=
  int16Of bad ((b64.div (fl64 1000000) (double e)).trunc? b64)

/-- `np.int16(np.floor(x))` of a float32 (/repo/pydarnio/borealis/borealis_convert.py:689). -/
def floorOf (bad : Option Int → BitVec 16) (e : Elt) : BitVec 16 := int16Of bad ((single e).floor? b32)

/-- `np.int32(np.fmod(x, 1.0) * 1e6)` of a float32 (/repo/pydarnio/borealis/borealis_convert.py:690-691).  NumPy 1
computes with float64, NumPy 2 with float32. -/
def microsOf (bad : Option Int → BitVec 32) (wide : Bool) (e : Elt) : BitVec 32 :=
  let g := precision wide
  int32Of bad ((g.mul (g.fmod (b32.to g (single e)) (g.ofRat 1)) (g.ofRat ((1000000 : Int) : Rat))).trunc? g)

/-- `round(x)` of a float32 (/repo/pydarnio/borealis/borealis_convert.py:698-699): to the nearest integer, ties to
even. -/
def roundOf (e : Elt) : Except Err Int :=
  match (single e).round? b32 with
  | some n => .ok n
  | none => if single e = .nan then .error .valueError else .error .overflowError

/-- `np.int32(x / y)` of float32 (/repo/pydarnio/borealis/borealis_convert.py:728-729). -/
def quotOf (bad : Option Int → BitVec 32) (x y : Elt) : BitVec 32 :=
  int32Of bad ((b32.div (single x) (single y)).trunc? b32)

/-- The number is not a NaN and not zero. -/
def Fl.nonzero : Fl → Bool
  | .num _ m => m != 0
  | .inf _ => true
  | .nan => false

/-- `np.abs(x) > 0` of a complex64 (/repo/pydarnio/borealis/borealis_convert.py:918): `hypot` is at least the absolute value
of each part; it is infinite if one of them is, and otherwise a NaN if one of them is. -/
def onOf : Elt → Bool
  | .cpx re im =>
    let x := b32.ofBits re
    let y := b32.ofBits im
    if x = .inf false ∨ x = .inf true ∨ y = .inf false ∨ y = .inf true then true
    else if x = .nan ∨ y = .nan then false
    else Fl.nonzero x || Fl.nonzero y
  | _ => false

/-- `x == 0` of a float32 (/repo/pydarnio/borealis/borealis_convert.py:401). -/
def phaseZero (e : Elt) : Bool :=
  match single e with
  | .num _ m => m == 0
  | _ => false

/-- The operations on numbers in headers are those of NumPy. -/
structure FloatHeader (ops : Ops) (bad16 : Option Int → BitVec 16) (bad32 : Option Int → BitVec 32) (wide : Bool) : Prop where
  toI16 : ops.toI16 = truncOf bad16
  toF32 : ops.toF32 = narrowOf
  period : ops.period = periodOf bad16
  floor : ops.floor = floorOf bad16
  micros : ops.micros = microsOf bad32 wide
  round : ops.round = roundOf
  quot : ops.quot = quotOf bad32
  isOn : ops.isOn = onOf
  isZero : ops.isZero = phaseZero

end Verif.Bor
