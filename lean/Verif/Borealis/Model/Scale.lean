import Verif.Borealis.Model.Convert
import Verif.Py.IeeeSqrt
/-!
# Scaling of samples and correlations

The arithmetic on complex numbers of NumPy behind `Ops.iq`, `Ops.acf` and `Ops.power`
(/repo/pydarnio/borealis/borealis_convert.py:565-567, 603-605, 826-842, 866, 881-883, 1011).

The precision depends on the version of NumPy: with an `np.float64`, a complex64 array stays complex64 in NumPy 1
and becomes complex128 in NumPy 2.  It is a parameter.  Multiplications with fused additions, which some processors
have, give the same results here, as one of the two products is always zero.
-/
namespace Verif.Bor
open Verif Verif.Ieee

/-- A complex number. -/
structure Cx where
  re : Fl
  im : Fl
  deriving DecidableEq, Repr

/-- `x * y`. -/
def Cx.mul (f : Ieee.Fmt) (x y : Cx) : Cx :=
  ⟨f.sub (f.mul x.re y.re) (f.mul x.im y.im), f.add (f.mul x.re y.im) (f.mul x.im y.re)⟩

/-- Zero. -/
def fzero : Fl := .num false 0

/-- `x / n` for a real number (`CFLOAT_divide` and `CDOUBLE_divide` of NumPy, with an imaginary part of zero): the
quotient of the two parts of `n` is zero, the parts of `x` are multiplied by the reciprocal. -/
def Cx.divReal (f : Ieee.Fmt) (x : Cx) (n : Fl) : Cx :=
  if n = .num false 0 ∨ n = .num true 0 then ⟨f.div x.re fzero, f.div x.im fzero⟩
  else
    let rat := f.div fzero n
    let scl := f.div (f.ofRat 1) (f.add n (f.mul fzero rat))
    ⟨f.mul (f.add x.re (f.mul x.im rat)) scl, f.mul (f.sub x.im (f.mul x.re rat)) scl⟩

/-- The conversion from one precision to another. -/
def Cx.to (f g : Ieee.Fmt) (x : Cx) : Cx := ⟨f.to g x.re, f.to g x.im⟩

/-- The precision of complex64 or complex128. -/
def precision (wide : Bool) : Ieee.Fmt := if wide then b64 else b32

/-- A product with a real number, which is given as float64. -/
def Cx.scale (g : Ieee.Fmt) (x : Cx) (c : Fl) : Cx := Cx.mul g x ⟨b64.to g c, fzero⟩

/-- `x / norm * 32767 * factor`, as complex128 (/repo/pydarnio/borealis/borealis_convert.py:565-567, 603-605).
`wide`: NumPy computes with complex128. -/
def iqNumber (wide : Bool) (x : Cx) (norm : Fl) (factor : Int) : Cx :=
  let g := precision wide
  let y := Cx.divReal g (x.to b32 g) (b64.to g norm)
  let y := y.scale g (b64.ofRat ((32767 : Int) : Rat))
  let y := y.scale g (b64.ofRat (factor : Rat))
  y.to g b64

/-- The bits of a float64. -/
def bits64 (x : Fl) : BitVec 64 := BitVec.ofNat 64 (b64.bits x)

/-- The bits of a float32. -/
def bits32 (x : Fl) : BitVec 32 := BitVec.ofNat 32 (b32.bits x)

/-- `Ops.iq`: samples are complex64, the normalization factor is an `np.float64` (other types are outside of the
model: NaN). -/
def iqOf (wide : Bool) : Elt → Val → Int → BitVec 64 × BitVec 64
  | .cpx re im, .np .f64 (.flt n), k =>
    let y := iqNumber wide ⟨b32.ofBits re, b32.ofBits im⟩ (b64.ofBits n) k
    (bits64 y.re, bits64 y.im)
  | _, _, _ => (bits64 .nan, bits64 .nan)

/-- `32767**2 * factor / norm**2` (/repo/pydarnio/borealis/borealis_convert.py:829-830).  `square`: `norm**2`, which
the C library computes. -/
def acfFactor (square : Fl → Fl) (norm : Fl) (factor : Int) : Fl :=
  b64.div (b64.ofRat ((32767 ^ 2 * factor : Int) : Rat)) (square norm)

/-- `x * (32767**2 * factor / norm**2)` (/repo/pydarnio/borealis/borealis_convert.py:826-842). -/
def acfScaled (square : Fl → Fl) (wide : Bool) (x : Cx) (norm : Fl) (factor : Int) : Cx :=
  (x.to b32 (precision wide)).scale (precision wide) (acfFactor square norm factor)

/-- The same as complex64 (/repo/pydarnio/borealis/borealis_convert.py:881-883). -/
def acfNumber (square : Fl → Fl) (wide : Bool) (x : Cx) (norm : Fl) (factor : Int) : Cx :=
  (acfScaled square wide x norm factor).to (precision wide) b32

/-- `(x.real**2 + x.imag**2)**0.5`: NumPy computes the powers of arrays with a product and a square root
(/repo/pydarnio/borealis/borealis_convert.py:866). -/
def powerOf (f : Ieee.Fmt) (x : Cx) : Fl := f.sqrt (f.add (f.mul x.re x.re) (f.mul x.im x.im))

/-- The power of the scaled number, as float32 (/repo/pydarnio/borealis/borealis_convert.py:866, 1011). -/
def powerNumber (square : Fl → Fl) (wide : Bool) (x : Cx) (norm : Fl) (factor : Int) : Fl :=
  (precision wide).to b32 (powerOf (precision wide) (acfScaled square wide x norm factor))

/-- `Ops.acf`. -/
def acfOf (square : Fl → Fl) (wide : Bool) : Elt → Val → Int → BitVec 32 × BitVec 32
  | .cpx re im, .np .f64 (.flt n), k =>
    let y := acfNumber square wide ⟨b32.ofBits re, b32.ofBits im⟩ (b64.ofBits n) k
    (bits32 y.re, bits32 y.im)
  | _, _, _ => (bits32 .nan, bits32 .nan)

/-- `Ops.power`. -/
def powOf (square : Fl → Fl) (wide : Bool) : Elt → Val → Int → BitVec 32
  | .cpx re im, .np .f64 (.flt n), k => bits32 (powerNumber square wide ⟨b32.ofBits re, b32.ofBits im⟩ (b64.ofBits n) k)
  | _, _, _ => bits32 .nan

/-! ## Operations -/

/-- `norm**2` is right up to a relative error of `2 ^ -24` and an absolute one of `2 ^ -150`: what is assumed of `pow` of
the C library, which is far more accurate. -/
def SquareOk (square : Fl → Fl) : Prop :=
  ∀ (x : Fl) (v : Rat), x.val? b64 = some v → v.abs ≤ 2 ^ 40 → ∃ r, (square x).val? b64 = some r ∧ Rel uround utiny (v * v) r

/-- The operations on samples and correlations are those above. -/
structure FloatScale (ops : Ops) (square : Fl → Fl) (wide : Bool) : Prop where
  iq : ops.iq = iqOf wide
  acf : ops.acf = acfOf square wide
  power : ops.power = powOf square wide

end Verif.Bor
