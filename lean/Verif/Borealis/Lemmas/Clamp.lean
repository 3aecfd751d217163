import Verif.Borealis.SpecConvert
/-!
# Clamping to 16 bits
-/
namespace Verif.Bor
open Verif
set_option exponentiation.threshold 2000

theorem shift_div (m e : Nat) (he : 1 ≤ e) :
    (if 1075 ≤ e then m * 2 ^ (e - 1075) else m / 2 ^ (1075 - e)) = m * 2 ^ (e - 1) / 2 ^ 1074 := by
  split
  · rename_i h
    have : e - 1 = (e - 1075) + 1074 := by omega
    rw [this, Nat.pow_add, ← Nat.mul_assoc, Nat.mul_div_cancel _ (Nat.two_pow_pos 1074)]
  · rename_i h
    have : 1074 = (1075 - e) + (e - 1) := by omega
    rw [this, Nat.pow_add]
    have hc : 1075 - e + (e - 1) - 1 + 1 - e + 1 = 1075 - e := by omega
    rw [Nat.mul_div_mul_right _ _ (Nat.two_pow_pos _)]

theorem f64Trunc_eq (b : BitVec 64) :
    f64Trunc b = (if b.toNat / 2 ^ 52 % 2 ^ 11 = 0 then b.toNat % 2 ^ 52
      else (2 ^ 52 + b.toNat % 2 ^ 52) * 2 ^ (b.toNat / 2 ^ 52 % 2 ^ 11 - 1)) / 2 ^ 1074 := by
  unfold f64Trunc
  generalize b.toNat / 2 ^ 52 % 2 ^ 11 = e
  generalize b.toNat % 2 ^ 52 = m
  simp only
  by_cases h : e = 0
  · subst h
    simp only [if_true]
    rw [shift_div m 1 (by omega)]
    simp
  · simp only [if_neg h]
    rw [shift_div _ e (by omega)]

theorem clamp16_finite {nan : BitVec 16} {b : BitVec 64} (h : f64Finite b) : clamp16 nan b = nearest16 b := by
  unfold clamp16 nearest16 f64Scaled f64Finite at *
  rw [if_neg h, f64Trunc_eq]
  simp only
  generalize (if b.toNat / 2 ^ 52 % 2 ^ 11 = 0 then b.toNat % 2 ^ 52
      else (2 ^ 52 + b.toNat % 2 ^ 52) * 2 ^ (b.toNat / 2 ^ 52 % 2 ^ 11 - 1)) = v
  have hc : ((2 : Int) ^ 1074) = ((2 ^ 1074 : Nat) : Int) := by simp
  rw [hc]
  generalize 2 ^ 1074 = D
  have hd : ((v : Int)).tdiv (D : Int) = ((v / D : Nat) : Int) := rfl
  split
  · rw [hd]
    generalize v / D = q
    simp only [Int.max_def, Int.min_def]
    repeat' split
    all_goals omega
  · rw [Int.neg_tdiv, hd]
    generalize v / D = q
    simp only [Int.max_def, Int.min_def]
    repeat' split
    all_goals omega

theorem clamp16_range (nan : BitVec 16) (b : BitVec 64) : -32768 ≤ clamp16 nan b ∧ clamp16 nan b ≤ 32767 := by
  unfold clamp16
  split
  · split
    · split <;> omega
    · have h1 := nan.toInt_lt
      have h2 := nan.le_toInt
      omega
  · split <;> omega

theorem clamp16_ok (nan : BitVec 16) (b : BitVec 64) : signedOk 2 (clamp16 nan b) := by
  have := clamp16_range nan b
  unfold signedOk
  omega

end Verif.Bor
