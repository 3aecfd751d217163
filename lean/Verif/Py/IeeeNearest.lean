import Verif.Py.IeeeError
/-!
# Rounding to single precision

The rounded number is the nearest one, the even one of two; what is beyond the largest float32 by half of a step or more
is infinite.
-/
namespace Verif.Ieee

theorem dist_tie {x a : Rat} {q k : Nat} (ha : 0 < a) (h1 : x - q * a ≤ a / 2) (h2 : q * a - x ≤ a / 2)
    (h : dist x (k * a) = dist x (q * a)) : k = q ∨ x - q * a = a / 2 ∨ q * a - x = a / 2 := by
  rcases Nat.lt_trichotomy k q with hk | hk | hk
  · have : ((k + 1 : Nat) : Rat) ≤ q := Rat.natCast_le_natCast.2 hk
    have := Rat.mul_le_mul_of_nonneg_right this (Rat.le_of_lt ha)
    rw [Rat.natCast_add] at this
    unfold dist at h
    grind
  · exact .inl hk
  · have : ((q + 1 : Nat) : Rat) ≤ k := Rat.natCast_le_natCast.2 hk
    have := Rat.mul_le_mul_of_nonneg_right this (Rat.le_of_lt ha)
    rw [Rat.natCast_add] at this
    unfold dist at h
    grind

/-- Of two numbers that are equally near the even one is taken. -/
theorem roundUnits_tie {p : Nat} (hp : 1 ≤ p) {x : Rat} (hx : 0 ≤ x) {b : Nat}
    (h : dist x (units p b : Nat) = dist x (units p (roundUnits p x) : Nat)) : b = roundUnits p x ∨ roundUnits p x % 2 = 0 := by
  obtain ⟨e, q, h1, h2, h3, h4, h5, -, -, -, htie⟩ := roundUnits_spec p hx
  have hpar : q % 2 = 0 → roundUnits p x % 2 = 0 := by
    intro hq
    obtain ⟨r, rfl⟩ := Nat.le.dest hp
    have : e * 2 ^ (1 + r) = 2 * (e * 2 ^ r) := by rw [Nat.pow_add]; grind
    omega
  obtain ⟨e', q', -, -, g2, g3⟩ := units_form p b
  have ha := pow2_posR e
  by_cases hu : units p b = units p (roundUnits p x)
  · exact .inl (units_inj hu)
  refine .inr (hpar (htie ?_))
  rw [h2, g3] at hu
  rw [h2, g3] at h
  simp only [Rat.natCast_mul, natCast_pow2] at h
  by_cases he : e ≤ e'
  · obtain ⟨j, rfl⟩ := Nat.le.dest he
    have e1 : ((q' : Nat) : Rat) * 2 ^ (e + j) = ((q' * 2 ^ j : Nat) : Rat) * 2 ^ e := by
      rw [← natCast_pow2, ← natCast_pow2, ← Rat.natCast_mul, ← Rat.natCast_mul]
      congr 1
      rw [Nat.mul_assoc, Nat.mul_comm (2 ^ j), Nat.pow_add]
    rw [e1] at h
    refine (dist_tie ha h3 h4 h).resolve_left fun hk => hu ?_
    rw [← hk, Nat.mul_assoc, Nat.mul_comm (2 ^ j), Nat.pow_add]
  · have h6 : (2 : Rat) ^ (p + e) ≤ x := h5.resolve_left (by omega)
    have h7 : q' * 2 ^ e' < 2 ^ (p + e) := by
      refine Nat.lt_of_lt_of_le (Nat.mul_lt_mul_of_pos_right g2 (pow2_pos e')) ?_
      rw [← Nat.pow_add]
      exact Nat.pow_le_pow_right (by decide) (by omega)
    have h8 : ((q' : Nat) : Rat) * 2 ^ e' < 2 ^ (p + e) := by
      have := Rat.natCast_lt_natCast.2 h7
      simpa only [Rat.natCast_mul, natCast_pow2] using this
    have h9 := dist_multiple (k := 2 ^ p) (Rat.le_of_lt ha) h3 h4
    have h10 : ((2 ^ p : Nat) : Rat) * 2 ^ e = 2 ^ (p + e) := by
      rw [← natCast_pow2, ← Rat.natCast_mul, ← Nat.pow_add, natCast_pow2]
    rw [h10] at h9
    exfalso
    unfold dist at h h9
    grind

/-- Distances of numbers and of their units. -/
theorem abs_dist (f : Fmt) (x : Rat) (k : Nat) : (f.abs k - x).abs * 2 ^ f.unit = dist (x * 2 ^ f.unit) (units f.mant k : Nat) := by
  have hP := pow2_posR f.unit
  rw [← abs_mul]
  generalize f.abs k = y
  generalize (2 : Rat) ^ f.unit = P at *
  have h1 : (y - x).abs * P = ((y - x) * P).abs := by rw [abs_prod, Rat.abs_of_nonneg (Rat.le_of_lt hP)]
  rw [h1]
  unfold dist
  have := abs_cases ((y - x) * P)
  grind

/-- The smallest number that is rounded to infinity. -/
def tooLarge : Rat := 2 ^ 128 - 2 ^ 103

set_option exponentiation.threshold 300 in
theorem round_fits {x : Rat} (h0 : 0 ≤ x) : roundUnits 23 (x * 2 ^ 149) < 255 * 2 ^ 23 ↔ x < tooLarge := by
  have hx : 0 ≤ x * 2 ^ 149 := Rat.mul_nonneg h0 (Rat.le_of_lt (pow2_posR 149))
  have e1 : (units 23 (255 * 2 ^ 23 - 1) : Nat) = 2 ^ 277 - 2 ^ 253 := by decide +kernel
  have e2 : (units 23 (255 * 2 ^ 23) : Nat) = 2 ^ 277 := by decide +kernel
  have c1 : (((2 ^ 277 - 2 ^ 253 : Nat)) : Rat) = tooLarge * 2 ^ 149 - 2 ^ 252 := by decide +kernel
  have c2 : ((2 ^ 277 : Nat) : Rat) = tooLarge * 2 ^ 149 + 2 ^ 252 := by decide +kernel
  have hmul : x < tooLarge ↔ x * 2 ^ 149 < tooLarge * 2 ^ 149 :=
    ⟨fun h => Rat.mul_lt_mul_of_pos_right h (pow2_posR _), fun h => Rat.lt_of_mul_lt_mul_right h (Rat.le_of_lt (pow2_posR _))⟩
  have n1 := roundUnits_nearest 23 hx (255 * 2 ^ 23 - 1)
  have n2 := roundUnits_nearest 23 hx (255 * 2 ^ 23)
  have t2 := roundUnits_tie (p := 23) (by decide) hx (b := 255 * 2 ^ 23)
  have l1 : roundUnits 23 (x * 2 ^ 149) ≤ 255 * 2 ^ 23 - 1 →
      ((units 23 (roundUnits 23 (x * 2 ^ 149)) : Nat) : Rat) ≤ tooLarge * 2 ^ 149 - 2 ^ 252 := by
    intro h
    rw [← c1, ← e1]
    exact Rat.natCast_le_natCast.2 (units_le h)
  have l2 : 255 * 2 ^ 23 ≤ roundUnits 23 (x * 2 ^ 149) →
      tooLarge * 2 ^ 149 + 2 ^ 252 ≤ ((units 23 (roundUnits 23 (x * 2 ^ 149)) : Nat) : Rat) := by
    intro h
    rw [← c2, ← e2]
    exact Rat.natCast_le_natCast.2 (units_le h)
  have hodd : roundUnits 23 (x * 2 ^ 149) = 255 * 2 ^ 23 - 1 → roundUnits 23 (x * 2 ^ 149) % 2 = 1 := by intro h; rw [h]
  have hlast : ((units 23 (roundUnits 23 (x * 2 ^ 149)) : Nat) : Rat) = tooLarge * 2 ^ 149 - 2 ^ 252 →
      roundUnits 23 (x * 2 ^ 149) = 255 * 2 ^ 23 - 1 := by
    intro h
    refine units_inj (p := 23) (Rat.natCast_inj.1 ?_)
    rw [h, e1, c1]
  rw [e1, c1] at n1
  rw [e2, c2] at n2 t2
  rw [hmul]
  have hE : (0 : Rat) < 2 ^ 252 := pow2_posR 252
  generalize (units 23 (roundUnits 23 (x * 2 ^ 149)) : Nat) = u at *
  generalize roundUnits 23 (x * 2 ^ 149) = r at *
  generalize tooLarge * 2 ^ 149 = L at *
  generalize x * 2 ^ 149 = X at *
  generalize (2 : Rat) ^ 252 = E at *
  generalize (u : Rat) = U at *
  unfold dist at n1 n2 t2
  constructor
  · intro h
    have l1 := l1 (by omega)
    rw [← Rat.not_le]
    intro hL
    have hU : U = L - E := by grind
    have hr := hodd (hlast hU)
    have := t2 (by grind)
    omega
  · intro h
    rcases Nat.lt_or_ge r (255 * 2 ^ 23) with h' | h'
    · exact h'
    · have l2 := l2 h'
      exfalso
      grind

/-- The nearest float32, the even one of two. -/
theorem ofAbs32_nearest (neg : Bool) {x : Rat} (h0 : 0 ≤ x) (h : x < tooLarge) : ∃ m, m < 255 * 2 ^ 23 ∧
    b32.ofAbs neg x = .num neg m ∧
    ∀ k, (b32.abs m - x).abs ≤ (b32.abs k - x).abs ∧ ((b32.abs k - x).abs = (b32.abs m - x).abs → k = m ∨ m % 2 = 0) := by
  have hm := (round_fits h0).2 h
  have hP := pow2_posR b32.unit
  have hx : 0 ≤ x * 2 ^ b32.unit := Rat.mul_nonneg h0 (Rat.le_of_lt hP)
  refine ⟨_, hm, if_pos hm, fun k => ⟨?_, fun e => ?_⟩⟩
  · refine Rat.le_of_mul_le_mul_right (c := 2 ^ b32.unit) ?_ hP
    rw [abs_dist, abs_dist]
    exact roundUnits_nearest 23 hx k
  · refine roundUnits_tie (p := 23) (by decide) hx ?_
    show dist (x * 2 ^ b32.unit) (units b32.mant k : Nat) = dist (x * 2 ^ b32.unit) (units b32.mant _ : Nat)
    rw [← abs_dist, ← abs_dist, e]
    rfl

/-- What is too large becomes infinite. -/
theorem ofAbs32_infinite (neg : Bool) {x : Rat} (h : tooLarge ≤ x) : b32.ofAbs neg x = .inf neg := by
  have h0 : 0 ≤ x := Rat.le_trans (by decide +kernel) h
  exact if_neg fun hm => absurd ((round_fits h0).1 hm) (Rat.not_lt.2 h)

end Verif.Ieee
