import Verif.Py.Float
import Verif.Py.IeeeLemmas
/-!
# The conversions of bit patterns are those of IEEE 754

`f64ToF32` and `f32ToF64` agree with the conversion between the formats of `Ieee.lean`.
-/
namespace Verif.Ieee
open Verif

theorem pow_split {a b c : Nat} (h : a = b + c) : 2 ^ a = 2 ^ b * 2 ^ c := by rw [h, Nat.pow_add]

theorem roundShift_halfEven (m k : Nat) : roundShift m k = halfEven m (2 ^ k) := by
  have hp := pow2_pos k
  have hr := Nat.mod_lt m hp
  unfold roundShift halfEven
  simp only
  generalize m / 2 ^ k = q at *
  generalize m % 2 ^ k = r at *
  generalize 2 ^ k = P at *
  by_cases h1 : 2 * r < P
  · rw [if_neg (by omega), if_pos h1]
  · by_cases h2 : P < 2 * r
    · rw [if_pos (by omega), if_neg h1, if_pos h2]
    · rw [if_neg h1, if_neg h2]
      split <;> omega

/-- The rounding of a fraction, which need not be in lowest terms. -/
theorem roundUnits_frac (p a d : Nat) (hd : 0 < d) :
    roundUnits p ((a : Rat) / d) = ((a / d).log2 - p) * 2 ^ p + halfEven a (d * 2 ^ ((a / d).log2 - p)) := by
  have hd0 : ((d : Nat) : Rat) ≠ 0 := by
    intro h
    have := Rat.natCast_inj.1 (h.trans rfl : ((d : Nat) : Rat) = ((0 : Nat) : Rat))
    omega
  obtain ⟨x, hx⟩ : ∃ x : Rat, x = (a : Rat) / d := ⟨_, rfl⟩
  have h0 : 0 ≤ x := by
    rw [hx, Rat.div_def]
    exact Rat.mul_nonneg Rat.natCast_nonneg (Rat.le_of_lt (Rat.inv_pos.2 (Rat.natCast_pos.2 hd)))
  have h1 : x * d = a := by rw [hx]; exact Rat.div_mul_cancel hd0
  have h2 := num_toNat h0
  have h3 : x.num.toNat * d = a * x.den := by
    refine Rat.natCast_inj.1 ?_
    rw [Rat.natCast_mul, Rat.natCast_mul, h2, ← h1]
    grind
  have hc : Nat.Coprime x.den x.num.toNat := by
    have := x.reduced
    have e : x.num.natAbs = x.num.toNat := by
      have := Rat.num_nonneg.2 h0
      omega
    rw [e] at this
    exact this.symm
  obtain ⟨c, hc⟩ : x.den ∣ d := hc.dvd_of_dvd_mul_left ⟨a, by rw [h3, Nat.mul_comm]⟩
  have hden := x.den_pos
  have ha : a = x.num.toNat * c := by
    rw [hc] at h3
    refine Nat.eq_of_mul_eq_mul_right hden ?_
    rw [← h3]
    grind
  have hcpos : 0 < c := by
    rcases Nat.eq_zero_or_pos c with rfl | h
    · rw [Nat.mul_zero] at hc; omega
    · exact h
  rw [← hx]
  unfold roundUnits
  simp only
  have e1 : a / d = x.num.toNat / x.den := by rw [ha, hc]; exact Nat.mul_div_mul_right _ _ hcpos
  rw [e1]
  congr 1
  rw [ha, hc, Nat.mul_right_comm]
  exact (halfEven_scale _ _ hcpos).symm

/-- The exponent and the mantissa of a number. -/
theorem units_fields {p e m : Nat} (hm : m < 2 ^ p) :
    units p (e * 2 ^ p + m) = (if e = 0 then m else 2 ^ p + m) * 2 ^ ((if e = 0 then 1 else e) - 1) := by
  have hp := pow2_pos p
  have h1 : (e * 2 ^ p + m) / 2 ^ p = e := by
    rw [Nat.add_comm, Nat.add_mul_div_right _ _ hp, Nat.div_eq_of_lt hm, Nat.zero_add]
  have h2 : (e * 2 ^ p + m) % 2 ^ p = m := by rw [Nat.add_comm, Nat.add_mul_mod_self_right, Nat.mod_eq_of_lt hm]
  unfold units
  rw [h1, h2]
  by_cases he : e = 0
  · subst he; simp
  · simp [he]

set_option exponentiation.threshold 1100 in
/-- The rounding of a double to single precision. -/
theorem round_narrow {e m : Nat} (he : e < 2047) (hm : m < 2 ^ 52) :
    roundUnits 23 (b64.abs (e * 2 ^ 52 + m) * 2 ^ 149) =
      if 897 ≤ (if e = 0 then 1 else e) then ((if e = 0 then 1 else e) - 897) * 2 ^ 23 + roundShift (if e = 0 then m else 2 ^ 52 + m) 29
      else roundShift (if e = 0 then m else 2 ^ 52 + m) (29 + (897 - if e = 0 then 1 else e)) := by
  have hx : b64.abs (e * 2 ^ 52 + m) * 2 ^ 149 = ((units 52 (e * 2 ^ 52 + m) : Nat) : Rat) / ((2 ^ 925 : Nat) : Rat) := by
    show ((units 52 (e * 2 ^ 52 + m) : Nat) : Rat) / 2 ^ 1074 * 2 ^ 149 = _
    rw [natCast_pow2, show (1074 : Nat) = 925 + 149 from rfl, pow2_add]
    have h1 := pow2_ne 925
    have h2 := pow2_ne 149
    generalize ((units 52 (e * 2 ^ 52 + m) : Nat) : Rat) = u
    generalize (2 : Rat) ^ 925 = A at *
    generalize (2 : Rat) ^ 149 = B at *
    grind
  rw [hx, roundUnits_frac _ _ _ (pow2_pos _), units_fields hm]
  have hE : 1 ≤ (if e = 0 then 1 else e) := by split <;> omega
  have hM : (if e = 0 then m else 2 ^ 52 + m) < 2 ^ 53 := by split <;> omega
  have hN : 897 ≤ (if e = 0 then 1 else e) → 2 ^ 52 ≤ (if e = 0 then m else 2 ^ 52 + m) := by split <;> omega
  have hE2 : (if e = 0 then 1 else e) < 2047 := by split <;> omega
  generalize (if e = 0 then 1 else e) = E at *
  generalize (if e = 0 then m else 2 ^ 52 + m) = M at *
  simp only [roundShift_halfEven]
  by_cases h : 897 ≤ E
  · rw [if_pos h]
    have hlog : (M * 2 ^ (E - 1) / 2 ^ 925).log2 = E - 874 := by
      have hN := hN h
      have hlow : 2 ^ (E - 874) ≤ M * 2 ^ (E - 1) / 2 ^ 925 := by
        rw [Nat.le_div_iff_mul_le (pow2_pos _), ← Nat.pow_add]
        have : 2 ^ (E - 874 + 925) = 2 ^ 52 * 2 ^ (E - 1) := pow_split (by omega)
        rw [this]
        exact Nat.mul_le_mul_right _ hN
      refine (Nat.log2_eq_iff ?_).2 ⟨hlow, ?_⟩
      · have := pow2_pos (E - 874)
        omega
      · rw [Nat.div_lt_iff_lt_mul (pow2_pos _), ← Nat.pow_add]
        have : 2 ^ (E - 874 + 1 + 925) = 2 ^ 53 * 2 ^ (E - 1) := pow_split (by omega)
        rw [this]
        exact Nat.mul_lt_mul_of_pos_right hM (pow2_pos _)
    rw [hlog, show E - 874 - 23 = E - 897 by omega, ← Nat.pow_add]
    have : 2 ^ (925 + (E - 897)) = 2 ^ 29 * 2 ^ (E - 1) := pow_split (by omega)
    rw [this, halfEven_scale _ _ (pow2_pos _)]
  · rw [if_neg h]
    have hlog : (M * 2 ^ (E - 1) / 2 ^ 925).log2 - 23 = 0 := by
      have hlt : M * 2 ^ (E - 1) / 2 ^ 925 < 2 ^ 24 := by
        rw [Nat.div_lt_iff_lt_mul (pow2_pos _), ← Nat.pow_add]
        have h1 : M * 2 ^ (E - 1) < 2 ^ 53 * 2 ^ (E - 1) := Nat.mul_lt_mul_of_pos_right hM (pow2_pos _)
        have h2 : 2 ^ 53 * 2 ^ (E - 1) ≤ 2 ^ (24 + 925) := by
          rw [← Nat.pow_add]
          exact Nat.pow_le_pow_right (by decide) (by omega)
        omega
      by_cases h0 : M * 2 ^ (E - 1) / 2 ^ 925 = 0
      · rw [h0]; rfl
      · have := (Nat.log2_lt h0).2 hlt
        omega
    rw [hlog]
    have : 2 ^ 925 * 2 ^ 0 = 2 ^ (29 + (897 - E)) * 2 ^ (E - 1) := by
      rw [Nat.pow_zero, Nat.mul_one]
      exact pow_split (by omega)
    rw [this, halfEven_scale _ _ (pow2_pos _)]
    simp

theorem ofBits_64 (n : Nat) : b64.ofBits n =
    if n % 2 ^ 63 < 2047 * 2 ^ 52 then .num (n / 2 ^ 63 % 2 == 1) (n % 2 ^ 63)
    else if n % 2 ^ 63 = 2047 * 2 ^ 52 then .inf (n / 2 ^ 63 % 2 == 1) else .nan := by
  have hs : (2047 + 1) * 2 ^ 52 = 2 ^ 63 := by decide
  rw [← hs]
  rfl

/-- `np.float32(x)`, for numbers and infinities. -/
theorem f64ToF32_ieee (b : BitVec 64) (h : b64.ofBits b.toNat ≠ .nan) :
    f64ToF32 b = BitVec.ofNat 32 (b32.bits (b64.to b32 (b64.ofBits b.toNat))) := by
  have hb := b.isLt
  unfold f64ToF32
  congr 1
  revert h
  rw [ofBits_64]
  obtain ⟨e, he⟩ : ∃ e, e = b.toNat / 2 ^ 52 % 2 ^ 11 := ⟨_, rfl⟩
  obtain ⟨m, hm⟩ : ∃ m, m = b.toNat % 2 ^ 52 := ⟨_, rfl⟩
  have hem : b.toNat % 2 ^ 63 = e * 2 ^ 52 + m := by omega
  have hm2 : m < 2 ^ 52 := by omega
  have he2 : e < 2048 := by omega
  rw [← he, ← hm, hem]
  have hsg : b.toNat / 2 ^ 63 * 2 ^ 31 = if (b.toNat / 2 ^ 63 % 2 == 1) = true then (255 + 1) * 2 ^ 23 else 0 := by
    rcases (show b.toNat / 2 ^ 63 = 0 ∨ b.toNat / 2 ^ 63 = 1 by omega) with h | h <;> rw [h] <;> rfl
  rw [hsg]
  generalize (b.toNat / 2 ^ 63 % 2 == 1) = neg
  by_cases h1 : e < 2047
  · intro _
    rw [if_pos (show e * 2 ^ 52 + m < 2047 * 2 ^ 52 by omega)]
    show _ = b32.bits (b32.ofAbs neg (b64.abs (e * 2 ^ 52 + m)))
    unfold Fmt.ofAbs
    simp only
    rw [show b32.mant = 23 from rfl, show b32.unit = 149 from rfl, show b32.top = 255 from rfl, round_narrow h1 hm2]
    have hn : narrow e m = if _ then _ else _ := if_neg (show ¬ e = 2047 by omega)
    rw [hn]
    generalize (if 897 ≤ _ then _ else _ : Nat) = k
    by_cases hk : k < 255 * 2 ^ 23
    · rw [if_pos hk, if_pos hk]
      rfl
    · rw [if_neg hk, if_neg hk]
      rfl
  · have h3 : e = 2047 := by omega
    subst h3
    rw [if_neg (show ¬ 2047 * 2 ^ 52 + m < 2047 * 2 ^ 52 by omega)]
    by_cases h2 : m = 0
    · subst h2
      intro _
      rfl
    · intro h
      rw [if_neg (show ¬ 2047 * 2 ^ 52 + m = 2047 * 2 ^ 52 by omega)] at h
      exact absurd rfl h

end Verif.Ieee
