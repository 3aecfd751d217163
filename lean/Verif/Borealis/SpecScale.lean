import Verif.Borealis.SpecConvert
/-!
# Specification of scaled numbers

The numbers that samples, correlations and normalization factors stand for.
-/
namespace Verif.Bor
open Verif

/-- The float32 is neither infinite nor a NaN. -/
def f32Finite (b : BitVec 32) : Prop := b.toNat / 2 ^ 23 % 2 ^ 8 ≠ 255

/-- The number that a finite float32 stands for, times `2 ^ 149`. -/
def f32Scaled (b : BitVec 32) : Int :=
  let e := b.toNat / 2 ^ 23 % 2 ^ 8
  let m := b.toNat % 2 ^ 23
  let v : Nat := if e = 0 then m else (2 ^ 23 + m) * 2 ^ (e - 1)
  if b.toNat / 2 ^ 31 = 0 then v else -v

/-- The float32 stands for the number. -/
def IsF32 (b : BitVec 32) (x : Rat) : Prop := f32Finite b ∧ (f32Scaled b : Rat) = x * 2 ^ 149

/-- The float64 stands for the number. -/
def IsF64 (b : BitVec 64) (x : Rat) : Prop := f64Finite b ∧ (f64Scaled b : Rat) = x * 2 ^ 1074

/-- The element is a complex64 with these parts. -/
def IsComplex (e : Elt) (re im : Rat) : Prop := ∃ r i : BitVec 32, e = .cpx r.toNat i.toNat ∧ IsF32 r re ∧ IsF32 i im

/-- The value is an `np.float64` of the number. -/
def IsDouble (v : Val) (x : Rat) : Prop := ∃ b : BitVec 64, v = .np .f64 (.flt b.toNat) ∧ IsF64 b x

/-- The nearest number between those of int16. -/
def clip16 (x : Rat) : Rat := if x < -32768 then -32768 else if 32767 < x then 32767 else x

/-- The integer is what becomes of the number if it is clipped and rounded towards zero, with the error of a float32
calculation. -/
def Near16 (x : Rat) (m : Int) : Prop := ((m : Rat) - clip16 x).abs < 1 + (clip16 x).abs / 2 ^ 21 + 1 / 2 ^ 60

/-- The float32 is the number, with the error of a float32 calculation. -/
def NearF32 (x : Rat) (b : BitVec 32) : Prop := ∃ y, IsF32 b y ∧ (y - x).abs ≤ x.abs / 2 ^ 21 + 1 / 2 ^ 80

/-- The float32 is the square root of the number, with the error of a float32 calculation. -/
def NearRoot (x : Rat) (b : BitVec 32) : Prop := ∃ y, IsF32 b y ∧ 0 ≤ y ∧ (y * y - x).abs ≤ x.abs / 2 ^ 19 + 1 / 2 ^ 130

end Verif.Bor
