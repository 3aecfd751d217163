import Verif.Dmap.Props.Floats
/-!
# The nearest double precision number
-/
namespace Verif.Ieee
open Verif

/-- The smallest number that is rounded to infinity. -/
def tooLarge64 : Rat := 2 ^ 1024 - 2 ^ 970

set_option exponentiation.threshold 3000 in
theorem round_fits64 {x : Rat} (h0 : 0 ≤ x) : roundUnits 52 (x * 2 ^ 1074) < 2047 * 2 ^ 52 ↔ x < tooLarge64 := by
  have hx : 0 ≤ x * 2 ^ 1074 := Rat.mul_nonneg h0 (Rat.le_of_lt (pow2_posR 1074))
  have e1 : (units 52 (2047 * 2 ^ 52 - 1) : Nat) = 2 ^ 2098 - 2 ^ 2045 := by decide +kernel
  have e2 : (units 52 (2047 * 2 ^ 52) : Nat) = 2 ^ 2098 := by decide +kernel
  have c1 : (((2 ^ 2098 - 2 ^ 2045 : Nat)) : Rat) = tooLarge64 * 2 ^ 1074 - 2 ^ 2044 := by decide +kernel
  have c2 : ((2 ^ 2098 : Nat) : Rat) = tooLarge64 * 2 ^ 1074 + 2 ^ 2044 := by decide +kernel
  have hmul : x < tooLarge64 ↔ x * 2 ^ 1074 < tooLarge64 * 2 ^ 1074 :=
    ⟨fun h => Rat.mul_lt_mul_of_pos_right h (pow2_posR _), fun h => Rat.lt_of_mul_lt_mul_right h (Rat.le_of_lt (pow2_posR _))⟩
  have n1 := roundUnits_nearest 52 hx (2047 * 2 ^ 52 - 1)
  have n2 := roundUnits_nearest 52 hx (2047 * 2 ^ 52)
  have t2 := roundUnits_tie (p := 52) (by decide) hx (b := 2047 * 2 ^ 52)
  have l1 : roundUnits 52 (x * 2 ^ 1074) ≤ 2047 * 2 ^ 52 - 1 →
      ((units 52 (roundUnits 52 (x * 2 ^ 1074)) : Nat) : Rat) ≤ tooLarge64 * 2 ^ 1074 - 2 ^ 2044 := by
    intro h
    rw [← c1, ← e1]
    exact Rat.natCast_le_natCast.2 (units_le h)
  have l2 : 2047 * 2 ^ 52 ≤ roundUnits 52 (x * 2 ^ 1074) →
      tooLarge64 * 2 ^ 1074 + 2 ^ 2044 ≤ ((units 52 (roundUnits 52 (x * 2 ^ 1074)) : Nat) : Rat) := by
    intro h
    rw [← c2, ← e2]
    exact Rat.natCast_le_natCast.2 (units_le h)
  have hodd : roundUnits 52 (x * 2 ^ 1074) = 2047 * 2 ^ 52 - 1 → roundUnits 52 (x * 2 ^ 1074) % 2 = 1 := by intro h; rw [h]
  have hlast : ((units 52 (roundUnits 52 (x * 2 ^ 1074)) : Nat) : Rat) = tooLarge64 * 2 ^ 1074 - 2 ^ 2044 →
      roundUnits 52 (x * 2 ^ 1074) = 2047 * 2 ^ 52 - 1 := by
    intro h
    refine units_inj (p := 52) (Rat.natCast_inj.1 ?_)
    rw [h, e1, c1]
  rw [e1, c1] at n1
  rw [e2, c2] at n2 t2
  rw [hmul]
  have hE : (0 : Rat) < 2 ^ 2044 := pow2_posR 2044
  generalize (units 52 (roundUnits 52 (x * 2 ^ 1074)) : Nat) = u at *
  generalize roundUnits 52 (x * 2 ^ 1074) = r at *
  generalize tooLarge64 * 2 ^ 1074 = L at *
  generalize x * 2 ^ 1074 = X at *
  generalize (2 : Rat) ^ 2044 = E at *
  generalize (u : Rat) = U at *
  unfold dist at n1 n2 t2
  constructor
  · intro h
    have l1 := l1 (by omega)
    rw [← Rat.not_le]
    intro hL
    have hU : U = L - E := by grind
    have hr := hodd (hlast hU)
    have := t2 (by grind)
    omega
  · intro h
    rcases Nat.lt_or_ge r (2047 * 2 ^ 52) with h' | h'
    · exact h'
    · have l2 := l2 h'
      exfalso
      grind

/-- The nearest float64, the even one of two. -/
theorem ofAbs64_nearest (neg : Bool) {x : Rat} (h0 : 0 ≤ x) (h : x < tooLarge64) : ∃ m, m < 2047 * 2 ^ 52 ∧
    b64.ofAbs neg x = .num neg m ∧
    ∀ k, (b64.abs m - x).abs ≤ (b64.abs k - x).abs ∧ ((b64.abs k - x).abs = (b64.abs m - x).abs → k = m ∨ m % 2 = 0) := by
  have hm := (round_fits64 h0).2 h
  have hP := pow2_posR b64.unit
  have hx : 0 ≤ x * 2 ^ b64.unit := Rat.mul_nonneg h0 (Rat.le_of_lt hP)
  refine ⟨_, hm, if_pos hm, fun k => ⟨?_, fun e => ?_⟩⟩
  · refine Rat.le_of_mul_le_mul_right (c := 2 ^ b64.unit) ?_ hP
    rw [abs_dist, abs_dist]
    exact roundUnits_nearest 52 hx k
  · refine roundUnits_tie (p := 52) (by decide) hx ?_
    show dist (x * 2 ^ b64.unit) (units b64.mant k : Nat) = dist (x * 2 ^ b64.unit) (units b64.mant _ : Nat)
    rw [← abs_dist, ← abs_dist, e]
    rfl

/-- What is too large becomes infinite. -/
theorem ofAbs64_infinite (neg : Bool) {x : Rat} (h : tooLarge64 ≤ x) : b64.ofAbs neg x = .inf neg := by
  have h0 : 0 ≤ x := Rat.le_trans (by decide +kernel) h
  exact if_neg fun hm => absurd ((round_fits64 h0).1 hm) (Rat.not_lt.2 h)

end Verif.Ieee

namespace Verif
open Spec Ieee Bor

/-- The float64 is the one that is nearest to the number, the one with an even mantissa of two. -/
def Nearest64 (x : Rat) (b : BitVec 64) : Prop :=
  ∃ y, IsF64 b y ∧ ∀ b' z, IsF64 b' z → (y - x).abs ≤ (z - x).abs ∧ ((z - x).abs = (y - x).abs → z = y ∨ b.toNat % 2 = 0)

/-- Numbers that are not rounded to infinity: below the middle between the largest float64 and `2 ^ 1024`. -/
def InRange64 (x : Rat) : Prop := x.abs < 2 ^ 1024 - 2 ^ 970

theorem isF64_num {s : Bool} {m : Nat} (h : m < 2047 * 2 ^ 52) :
    IsF64 (BitVec.ofNat 64 (b64.bits (.num s m))) (signed s (b64.abs m)) := by
  have hb : (BitVec.ofNat 64 (b64.bits (.num s m))).toNat = b64.bits (.num s m) := by
    rw [BitVec.toNat_ofNat]
    refine Nat.mod_eq_of_lt ?_
    show (if s then 2048 * 2 ^ 52 else 0) + m < _
    cases s <;> simp <;> omega
  rw [isF64_iff, hb, ofBits_bits h]
  rfl

/-- Rounding of a number with its sign. -/
theorem nearest64_signed {s : Bool} {x : Rat} (h0 : 0 ≤ x) (h : x < tooLarge64) : ∃ m, b64.ofAbs s x = .num s m ∧
    Nearest64 (signed s x) (BitVec.ofNat 64 (b64.bits (.num s m))) := by
  obtain ⟨k, hk1, h1, h2⟩ := ofAbs64_nearest s h0 h
  refine ⟨k, h1, signed s (b64.abs k), isF64_num hk1, fun b' z hz => ?_⟩
  have hpar : k % 2 = 0 → (BitVec.ofNat 64 (b64.bits (.num s k))).toNat % 2 = 0 := by
    intro h
    rw [BitVec.toNat_ofNat, show b64.bits (.num s k) = (if s then 2048 * 2 ^ 52 else 0) + k from rfl]
    cases s <;> simp <;> omega
  have hk := Ieee.abs_nonneg b64 k
  obtain ⟨t, n, -, rfl⟩ := num_of_val ((isF64_iff _ _).1 hz)
  have hn := Ieee.abs_nonneg b64 n
  obtain ⟨h5, h5'⟩ := h2 n
  obtain ⟨h6, h6'⟩ := h2 0
  rw [abs_zero_num] at h6 h6'
  have c1 := abs_cases (b64.abs k - x)
  have c2 := abs_cases (b64.abs n - x)
  have c3 := abs_cases (0 - x)
  have c4 := abs_cases (signed s (b64.abs k) - signed s x)
  have c5 := abs_cases (signed t (b64.abs n) - signed s x)
  have g5 : b64.abs n = b64.abs k ∨ (b64.abs n - x).abs ≠ (b64.abs k - x).abs ∨ k % 2 = 0 := by
    by_cases e : (b64.abs n - x).abs = (b64.abs k - x).abs
    · rcases h5' e with rfl | h
      · exact .inl rfl
      · exact .inr (.inr h)
    · exact .inr (.inl e)
  have g6 : b64.abs k = 0 ∨ (0 - x).abs ≠ (b64.abs k - x).abs ∨ k % 2 = 0 := by
    by_cases e : (0 - x).abs = (b64.abs k - x).abs
    · rcases h6' e with rfl | h
      · exact .inl (abs_zero_num _)
      · exact .inr (.inr h)
    · exact .inr (.inl e)
  generalize b64.abs k = K at *
  generalize b64.abs n = N at *
  refine ⟨?_, fun e => ?_⟩
  · clear g5 g6 h5' h6' hpar
    cases s <;> cases t <;> simp only [signed, Bool.false_eq_true, if_false, if_true] at * <;> grind
  · by_cases hp : k % 2 = 0
    · exact .inr (hpar hp)
    · refine .inl ?_
      clear h5' h6' hpar
      cases s <;> cases t <;> simp only [signed, Bool.false_eq_true, if_false, if_true] at * <;> grind

/-- An integer in range becomes the nearest number. -/
theorem intToF64_nearest {v : Int} (h : InRange64 v) : ∃ b, intToF64 v = some b ∧ Nearest64 v b := by
  unfold intToF64 Fmt.ofRat
  unfold InRange64 at h
  by_cases hv : (v : Rat) < 0
  · rw [if_pos hv]
    have e : (v : Rat).abs = -(v : Rat) := by unfold Rat.abs; rw [if_neg (Rat.not_le.2 hv)]
    rw [e] at h
    obtain ⟨m, h1, h2⟩ := nearest64_signed (s := true) (x := -(v : Rat)) (by grind) h
    rw [h1]
    refine ⟨_, rfl, ?_⟩
    have e2 : signed true (-(v : Rat)) = v := by simp only [signed, if_true]; grind
    rw [e2] at h2
    exact h2
  · rw [if_neg hv]
    have hv' := Rat.not_lt.1 hv
    rw [Rat.abs_of_nonneg hv'] at h
    obtain ⟨m, h1, h2⟩ := nearest64_signed (s := false) (x := (v : Rat)) hv' h
    rw [h1]
    exact ⟨_, rfl, h2⟩

/-- One out of range has none. -/
theorem intToF64_none {v : Int} (h : ¬ InRange64 v) : intToF64 v = none := by
  unfold intToF64 Fmt.ofRat
  unfold InRange64 at h
  have h := Rat.not_lt.1 h
  by_cases hv : (v : Rat) < 0
  · rw [if_pos hv]
    have e : (v : Rat).abs = -(v : Rat) := by unfold Rat.abs; rw [if_neg (Rat.not_le.2 hv)]
    rw [e] at h
    rw [ofAbs64_infinite true h]
  · rw [if_neg hv]
    rw [Rat.abs_of_nonneg (Rat.not_lt.1 hv)] at h
    rw [ofAbs64_infinite false h]

end Verif
