/-!
# IEEE 754 arithmetic

Binary floating point numbers of any format, with the operations that the code uses: the exact result,
a rational number, is rounded to the nearest number of the format, ties to even.  This is what CPython and
NumPy do on a machine with IEEE 754 arithmetic in its default rounding mode.

Simplification: there is one NaN, without sign and payload.
-/
namespace Verif.Ieee

/-- A format: bits of the mantissa, the smallest positive number is `2 ^ -unit`, and the exponent field of
infinities and NaNs. -/
structure Fmt where
  mant : Nat
  unit : Nat
  top : Nat
  deriving DecidableEq, Repr

/-- `float`, `np.float64`. -/
def b64 : Fmt := ⟨52, 1074, 2047⟩

/-- `np.float32`. -/
def b32 : Fmt := ⟨23, 149, 255⟩

/-- A number; `mag` are the bits below the sign. -/
inductive Fl
  | num (neg : Bool) (mag : Nat)
  | inf (neg : Bool)
  | nan
  deriving DecidableEq, Repr

/-- How many times the smallest positive number. -/
def units (p mag : Nat) : Nat :=
  if mag / 2 ^ p = 0 then mag else (2 ^ p + mag % 2 ^ p) * 2 ^ (mag / 2 ^ p - 1)

/-- The absolute value. -/
def Fmt.abs (f : Fmt) (mag : Nat) : Rat := (units f.mant mag : Rat) / 2 ^ f.unit

/-- With the sign. -/
def signed (neg : Bool) (x : Rat) : Rat := if neg then -x else x

/-- The value of a finite number. -/
def Fl.val? (f : Fmt) : Fl → Option Rat
  | .num neg mag => some (signed neg (f.abs mag))
  | _ => none

/-- `n / d` rounded to the nearest integer, ties to even. -/
def halfEven (n d : Nat) : Nat :=
  if 2 * (n % d) < d then n / d else if d < 2 * (n % d) then n / d + 1 else n / d + n / d % 2

/-- A non-negative number of units rounded to the bits of the nearest number of the format, as if there was
no largest one. -/
def roundUnits (p : Nat) (x : Rat) : Nat :=
  let n := x.num.toNat
  let e := (n / x.den).log2 - p
  e * 2 ^ p + halfEven n (x.den * 2 ^ e)

/-- The number of a sign and an absolute value. -/
def Fmt.ofAbs (f : Fmt) (neg : Bool) (x : Rat) : Fl :=
  let m := roundUnits f.mant (x * 2 ^ f.unit)
  if m < f.top * 2 ^ f.mant then .num neg m else .inf neg

/-- The number of a rational number; zero is positive. -/
def Fmt.ofRat (f : Fmt) (x : Rat) : Fl := if x < 0 then f.ofAbs true (-x) else f.ofAbs false x

/-- The number of a bit pattern. -/
def Fmt.ofBits (f : Fmt) (b : Nat) : Fl :=
  let s := (f.top + 1) * 2 ^ f.mant
  let neg := b / s % 2 == 1
  let m := b % s
  if m < f.top * 2 ^ f.mant then .num neg m
  else if m = f.top * 2 ^ f.mant then .inf neg
  else .nan

/-- The bit pattern of a number. -/
def Fmt.bits (f : Fmt) : Fl → Nat
  | .num neg m => (if neg then (f.top + 1) * 2 ^ f.mant else 0) + m
  | .inf neg => (if neg then (f.top + 1) * 2 ^ f.mant else 0) + f.top * 2 ^ f.mant
  | .nan => f.top * 2 ^ f.mant + 2 ^ (f.mant - 1)

/-- `x * y`. -/
def Fmt.mul (f : Fmt) : Fl → Fl → Fl
  | .num s a, .num t b => f.ofAbs (s != t) (f.abs a * f.abs b)
  | .num s a, .inf t => if a = 0 then .nan else .inf (s != t)
  | .inf s, .num t b => if b = 0 then .nan else .inf (s != t)
  | .inf s, .inf t => .inf (s != t)
  | _, _ => .nan

/-- `x / y` in IEEE 754 arithmetic (NumPy; Python raises if `y` is zero). -/
def Fmt.div (f : Fmt) : Fl → Fl → Fl
  | .num s a, .num t b =>
    if b = 0 then (if a = 0 then .nan else .inf (s != t)) else f.ofAbs (s != t) (f.abs a / f.abs b)
  | .num s _, .inf t => .num (s != t) 0
  | .inf s, .num t _ => .inf (s != t)
  | _, _ => .nan

/-- `x + y`. -/
def Fmt.add (f : Fmt) : Fl → Fl → Fl
  | .num s a, .num t b =>
    if a = 0 ∧ b = 0 then .num (s && t) 0 else f.ofRat (signed s (f.abs a) + signed t (f.abs b))
  | .num _ _, .inf t => .inf t
  | .inf s, .num _ _ => .inf s
  | .inf s, .inf t => if s = t then .inf s else .nan
  | _, _ => .nan

/-- `-x`. -/
def Fl.neg : Fl → Fl
  | .num s a => .num (!s) a
  | .inf s => .inf (!s)
  | .nan => .nan

/-- `x - y`. -/
def Fmt.sub (f : Fmt) (x y : Fl) : Fl := f.add x y.neg

/-- `fmod(x, y)`: what remains after subtracting `y` a whole number of times, with the sign of `x`. -/
def Fmt.fmod (f : Fmt) : Fl → Fl → Fl
  | .num s a, .num _ b =>
    if b = 0 then .nan
    else .num s (roundUnits f.mant ((units f.mant a % units f.mant b : Nat) : Rat))
  | .num s a, .inf _ => .num s a
  | _, _ => .nan

/-- The integer part and the fraction, `modf(x)`. -/
def Fmt.modf (f : Fmt) : Fl → Fl × Fl
  | .num s a =>
    (f.ofAbs s (units f.mant a / 2 ^ f.unit : Nat), .num s (roundUnits f.mant ((units f.mant a % 2 ^ f.unit : Nat) : Rat)))
  | .inf s => (.inf s, .num s 0)
  | .nan => (.nan, .nan)

/-- Rounded towards zero, `int(x)`. -/
def Fl.trunc? (f : Fmt) (x : Fl) : Option Int :=
  (x.val? f).map fun v => v.num.tdiv v.den

/-- Rounded down, `floor(x)`. -/
def Fl.floor? (f : Fmt) (x : Fl) : Option Int := (x.val? f).map Rat.floor

/-- Rounded to the nearest integer, ties to even, `round(x)`. -/
def Fl.round? (f : Fmt) : Fl → Option Int
  | .num s a =>
    let n : Int := halfEven (units f.mant a) (2 ^ f.unit)
    some (if s then -n else n)
  | _ => none

/-- The conversion from one format to another. -/
def Fmt.to (f g : Fmt) : Fl → Fl
  | .num s a => g.ofAbs s (f.abs a)
  | .inf s => .inf s
  | .nan => .nan

end Verif.Ieee
