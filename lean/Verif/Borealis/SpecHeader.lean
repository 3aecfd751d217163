import Verif.Borealis.SpecScale
/-!
# Specification of numbers in headers
-/
namespace Verif.Bor
open Verif

/-- The value is an `np.float32` of the number. -/
def IsSingle (v : Option Val) (x : Rat) : Prop := ∃ b : BitVec 32, v = some (.np .f32 (.flt b.toNat)) ∧ IsF32 b x

/-- The element of a float64 array is the number. -/
def IsDoubleElt (e : Elt) (x : Rat) : Prop := ∃ b : BitVec 64, e = .flt b.toNat ∧ IsF64 b x

/-- The element of a float32 array is the number. -/
def IsSingleElt (e : Elt) (x : Rat) : Prop := ∃ b : BitVec 32, e = .flt b.toNat ∧ IsF32 b x

/-- The integer is the number, rounded towards zero. -/
def Truncated (x : Rat) (m : Int) : Prop :=
  (0 ≤ x → (m : Rat) ≤ x ∧ x < m + 1) ∧ (x ≤ 0 → x ≤ m ∧ (m : Rat) - 1 < x)

/-- The integer is the one nearest to the number, the even one of two. -/
def NearestInt (x : Rat) (m : Int) : Prop :=
  ((m : Rat) - x).abs ≤ 1 / 2 ∧ (((m : Rat) - x).abs = 1 / 2 → m % 2 = 0)

/-- The float32 is the one that is nearest to the number, the one with an even mantissa of two. -/
def Nearest32 (x : Rat) (b : BitVec 32) : Prop :=
  ∃ y, IsF32 b y ∧ ∀ b' z, IsF32 b' z → (y - x).abs ≤ (z - x).abs ∧ ((z - x).abs = (y - x).abs → z = y ∨ b.toNat % 2 = 0)

/-- Numbers that are not rounded to infinity: below the middle between the largest float32 and `2 ^ 128`. -/
def InRange32 (x : Rat) : Prop := x.abs < 2 ^ 128 - 2 ^ 103

/-- What the numbers in the header of a DMAP record have to be, given the floating point numbers of the Borealis record. -/
structure NumbersOf (s : Source) (d : PlainRec) : Prop where
  /-- Microseconds to the first range. -/
  firstLag : ∀ x, IsSingle (Dict.get? s.fields (py! "first_range_rtt")) x → x.abs < 2 ^ 15 →
    ∃ m, intField d (py! "lagfr") = some m ∧ Truncated x m
  /-- Whole seconds and microseconds of the integration time. -/
  seconds : ∀ x, IsSingle (Dict.get? s.fields (py! "int_time")) x → 0 ≤ x → x < 2 ^ 15 →
    ∃ m us, intField d (py! "intt.sc") = some m ∧ intField d (py! "intt.us") = some us ∧
      (m : Rat) ≤ x ∧ x < m + 1 ∧ 0 ≤ us ∧ us < 1000000 ∧
      (us : Rat) ≤ (x - m) * 1000000 + 1 / 16 ∧ (x - m) * 1000000 < us + 1 + 1 / 16
  /-- Distances. -/
  distances : ∀ p ∈ [(py! "frang", py! "first_range"), (py! "rsep", py! "range_sep")], ∀ x,
    IsSingle (Dict.get? s.fields p.2) x → x.abs ≤ 32767 → ∃ m, intField d p.1 = some m ∧ NearestInt x m
  /-- Noise. -/
  noise : ∃ e, IsFirst (Dict.get? s.fields (py! "noise_at_freq")) e ∧ ∀ x, IsDoubleElt e x → InRange32 x →
    ∃ b, f32Field d (py! "noise.search") = some b ∧ Nearest32 x b

/-- The separation of samples in microseconds, given their rate: the quotient rounded down, but up if it is just below
an integer. -/
def Separation (x : Rat) (m : Int) : Prop := 1000000 / x - 1 < m ∧ (m : Rat) ≤ 1000000 / x + 1 / 2 ^ 38

end Verif.Bor
