import Verif.Py.Ieee
/-!
# IEEE 754 arithmetic: the rounding is to the nearest number
-/
namespace Verif.Ieee

theorem pow2_pos (k : Nat) : 0 < 2 ^ k := Nat.two_pow_pos k

theorem pow2_posR (k : Nat) : (0 : Rat) < 2 ^ k := Rat.pow_pos (by decide)

theorem natCast_pow2 (k : Nat) : ((2 ^ k : Nat) : Rat) = 2 ^ k := by
  rw [Rat.natCast_pow]
  rfl

/-! ## Numbers and their bits -/

/-- A number of at most one bit more than the mantissa, times a power of two. -/
theorem units_of {p e q : Nat} (h1 : e = 0 ∨ 2 ^ p ≤ q) (h2 : q ≤ 2 ^ (p + 1)) : units p (e * 2 ^ p + q) = q * 2 ^ e := by
  have hp := pow2_pos p
  have h3 : 2 ^ (p + 1) = 2 ^ p + 2 ^ p := by rw [Nat.pow_succ]; omega
  unfold units
  by_cases hq : q < 2 ^ p
  · have he : e = 0 := by omega
    subst he
    rw [if_pos (by rw [Nat.zero_mul, Nat.zero_add]; exact Nat.div_eq_of_lt hq)]
    simp
  · by_cases hq2 : q = 2 ^ (p + 1)
    · have : e * 2 ^ p + q = (e + 2) * 2 ^ p := by rw [hq2, h3, Nat.add_mul]; omega
      rw [this, Nat.mul_div_cancel _ hp, Nat.mul_mod_left, if_neg (by omega), hq2]
      show (2 ^ p + 0) * 2 ^ (e + 1) = _
      rw [Nat.add_zero, ← Nat.pow_add, ← Nat.pow_add]
      congr 1
      omega
    · have : e * 2 ^ p + q = (e + 1) * 2 ^ p + (q - 2 ^ p) := by rw [Nat.add_mul]; omega
      have hlt : q - 2 ^ p < 2 ^ p := by omega
      have h4 : (e * 2 ^ p + q) / 2 ^ p = e + 1 := by
        rw [this, Nat.mul_comm, Nat.mul_add_div hp, Nat.div_eq_of_lt hlt]
      have h5 : (e * 2 ^ p + q) % 2 ^ p = q - 2 ^ p := by
        rw [this, Nat.mul_comm, Nat.mul_add_mod, Nat.mod_eq_of_lt hlt]
      rw [h4, h5, if_neg (by omega)]
      show (2 ^ p + (q - 2 ^ p)) * 2 ^ e = _
      rw [Nat.add_sub_cancel' (by omega)]

/-- Every bit pattern is such a number. -/
theorem units_form (p b : Nat) : ∃ e q, b = e * 2 ^ p + q ∧ (e = 0 ∨ 2 ^ p ≤ q) ∧ q < 2 ^ (p + 1) ∧ units p b = q * 2 ^ e := by
  have hp := pow2_pos p
  have h3 : 2 ^ (p + 1) = 2 ^ p + 2 ^ p := by rw [Nat.pow_succ]; omega
  have hm := Nat.mod_lt b hp
  have hd := Nat.div_add_mod b (2 ^ p)
  by_cases h : b / 2 ^ p = 0
  · refine ⟨0, b, by simp, .inl rfl, ?_, ?_⟩
    · rw [h, Nat.mul_zero] at hd
      omega
    · unfold units
      rw [if_pos h]
      simp
  · obtain ⟨k, hk⟩ : ∃ k, b / 2 ^ p = k + 1 := Nat.exists_eq_succ_of_ne_zero h
    refine ⟨k, 2 ^ p + b % 2 ^ p, ?_, .inr (by omega), by omega, ?_⟩
    · rw [hk, Nat.mul_comm, Nat.add_mul] at hd
      omega
    · unfold units
      rw [if_neg h, hk]
      rfl

theorem units_lt_succ (p b : Nat) : units p b < units p (b + 1) := by
  obtain ⟨e, q, rfl, h1, h2, h3⟩ := units_form p b
  rw [h3, Nat.add_assoc, units_of (by omega) (by omega)]
  exact Nat.mul_lt_mul_of_pos_right (by omega) (pow2_pos e)

theorem units_mono {p b b' : Nat} (h : b < b') : units p b < units p b' := by
  induction b' with
  | zero => omega
  | succ b' ih =>
    rcases Nat.lt_succ_iff_lt_or_eq.1 h with h | rfl
    · exact Nat.lt_trans (ih h) (units_lt_succ p b')
    · exact units_lt_succ p b

theorem units_le {p b b' : Nat} (h : b ≤ b') : units p b ≤ units p b' := by
  rcases Nat.lt_or_eq_of_le h with h | rfl
  · exact Nat.le_of_lt (units_mono h)
  · exact Nat.le_refl _

theorem units_lt_iff {p b b' : Nat} : units p b < units p b' ↔ b < b' := by
  refine ⟨fun h => ?_, units_mono⟩
  rcases Nat.lt_or_ge b b' with h' | h'
  · exact h'
  · exact absurd (units_le (p := p) h') (by omega)

theorem units_inj {p b b' : Nat} (h : units p b = units p b') : b = b' := by
  rcases Nat.lt_trichotomy b b' with h' | h' | h'
  · have := units_mono (p := p) h'
    omega
  · exact h'
  · have := units_mono (p := p) h'
    omega

theorem units_zero (p : Nat) : units p 0 = 0 := by
  have := units_of (p := p) (e := 0) (q := 0) (.inl rfl) (Nat.zero_le _)
  simpa using this

theorem units_eq_zero {p b : Nat} : units p b = 0 ↔ b = 0 :=
  ⟨fun h => units_inj (h.trans (units_zero p).symm), fun h => by rw [h, units_zero]⟩

/-! ## Rounding -/

theorem halfEven_close {n d : Nat} (hd : 0 < d) :
    2 * n ≤ 2 * (d * halfEven n d) + d ∧ 2 * (d * halfEven n d) ≤ 2 * n + d := by
  have h1 := Nat.div_add_mod n d
  have h2 := Nat.mod_lt n hd
  unfold halfEven
  by_cases ha : 2 * (n % d) < d
  · rw [if_pos ha]
    omega
  · rw [if_neg ha]
    by_cases hb : d < 2 * (n % d)
    · rw [if_pos hb, Nat.mul_add, Nat.mul_one]
      omega
    · rw [if_neg hb]
      rcases Nat.mod_two_eq_zero_or_one (n / d) with h | h
      · rw [h]
        simp only [Nat.add_zero]
        omega
      · rw [h, Nat.mul_add, Nat.mul_one]
        omega

/-- Ties go to even numbers. -/
theorem halfEven_tie {n d : Nat} (hd : 0 < d) (h : 2 * n = 2 * (d * halfEven n d) + d ∨ 2 * (d * halfEven n d) = 2 * n + d) :
    halfEven n d % 2 = 0 := by
  have h1 := Nat.div_add_mod n d
  have h2 := Nat.mod_lt n hd
  unfold halfEven at *
  by_cases ha : 2 * (n % d) < d
  · rw [if_pos ha] at h
    omega
  · rw [if_neg ha] at h ⊢
    by_cases hb : d < 2 * (n % d)
    · rw [if_pos hb, Nat.mul_add, Nat.mul_one] at h
      omega
    · rw [if_neg hb]
      omega

/-- A bound of the numerator is one of the result. -/
theorem halfEven_le {n d m : Nat} (hd : 0 < d) (h : n ≤ d * m) : halfEven n d ≤ m := by
  have h1 := (halfEven_close (n := n) hd).2
  rcases Nat.lt_or_ge m (halfEven n d) with hlt | hge
  · have : d * (m + 1) ≤ d * halfEven n d := Nat.mul_le_mul_left _ hlt
    rw [Nat.mul_add, Nat.mul_one] at this
    omega
  · exact hge

theorem le_halfEven {n d m : Nat} (hd : 0 < d) (h : d * m ≤ n) : m ≤ halfEven n d := by
  have h1 := (halfEven_close (n := n) hd).1
  rcases Nat.lt_or_ge (halfEven n d) m with hlt | hge
  · have : d * (halfEven n d + 1) ≤ d * m := Nat.mul_le_mul_left _ hlt
    rw [Nat.mul_add, Nat.mul_one] at this
    omega
  · exact hge

theorem halfEven_exact (m : Nat) {d : Nat} (hd : 0 < d) : halfEven (d * m) d = m :=
  Nat.le_antisymm (halfEven_le hd (Nat.le_refl _)) (le_halfEven hd (Nat.le_refl _))

/-- What the rounding does: `n / d` lies between powers of two that are `p + 1` bits away, and the result is a
multiple of the lower one. -/
theorem roundUnits_nat (p : Nat) (x : Rat) : ∃ e q, roundUnits p x = e * 2 ^ p + q ∧
    units p (roundUnits p x) = q * 2 ^ e ∧ q = halfEven x.num.toNat (x.den * 2 ^ e) ∧
    (e = 0 ∨ x.den * 2 ^ (p + e) ≤ x.num.toNat) ∧ x.num.toNat < x.den * 2 ^ (p + 1 + e) ∧
    (e = 0 ∨ 2 ^ p ≤ q) ∧ q ≤ 2 ^ (p + 1) := by
  have hd : 0 < x.den := x.den_pos
  generalize hn : x.num.toNat = n
  obtain ⟨e, he⟩ : ∃ e, e = (n / x.den).log2 - p := ⟨_, rfl⟩
  have hr : roundUnits p x = e * 2 ^ p + halfEven n (x.den * 2 ^ e) := by
    unfold roundUnits
    simp only [hn, he]
  have hde : 0 < x.den * 2 ^ e := Nat.mul_pos hd (pow2_pos e)
  have h1 : e = 0 ∨ x.den * 2 ^ (p + e) ≤ n := by
    rcases Nat.eq_zero_or_pos e with h0 | h0
    · exact .inl h0
    · right
      have h2 : n / x.den ≠ 0 := by
        intro h
        rw [h] at he
        have : Nat.log2 0 = 0 := by decide
        omega
      have h3 := Nat.log2_self_le h2
      have h4 : p + e = (n / x.den).log2 := by omega
      rw [h4]
      calc x.den * 2 ^ (n / x.den).log2 ≤ x.den * (n / x.den) := Nat.mul_le_mul_left _ h3
        _ ≤ n := Nat.mul_div_le _ _
  have h2 : n < x.den * 2 ^ (p + 1 + e) := by
    have h3 : n / x.den < 2 ^ (p + 1 + e) := by
      refine Nat.lt_of_lt_of_le Nat.lt_log2_self (Nat.pow_le_pow_right (by decide) ?_)
      omega
    rw [Nat.mul_comm]
    exact (Nat.div_lt_iff_lt_mul hd).1 h3
  have h3 : e = 0 ∨ 2 ^ p ≤ halfEven n (x.den * 2 ^ e) := by
    rcases h1 with h1 | h1
    · exact .inl h1
    · right
      refine le_halfEven hde ?_
      rw [Nat.mul_assoc, ← Nat.pow_add, Nat.add_comm e p]
      exact h1
  have h4 : halfEven n (x.den * 2 ^ e) ≤ 2 ^ (p + 1) := by
    refine halfEven_le hde ?_
    rw [Nat.mul_assoc, ← Nat.pow_add, Nat.add_comm e]
    exact Nat.le_of_lt h2
  exact ⟨e, _, hr, by rw [hr, units_of h3 h4], rfl, h1, h2, h3, h4⟩

theorem num_toNat {x : Rat} (hx : 0 ≤ x) : (x.num.toNat : Rat) = x * x.den := by
  have h1 : 0 ≤ x.num := Rat.num_nonneg.2 hx
  have h2 : ((x.num.toNat : Nat) : Rat) = ((x.num : Int) : Rat) := by
    rw [← Rat.intCast_natCast, Int.toNat_of_nonneg h1]
  rw [h2]
  have h3 : x = (x.num : Rat) / (x.den : Rat) := by
    rw [← Rat.mkRat_eq_div, Rat.mkRat_self]
  have h4 : (x.den : Rat) ≠ 0 := by
    have := x.den_pos
    exact Rat.ne_of_gt (Rat.natCast_pos.2 this)
  have h5 : x * x.den = (x.num : Rat) / (x.den : Rat) * x.den := congrArg (· * (x.den : Rat)) h3
  rw [h5, Rat.div_mul_cancel h4]

/-- The same in terms of rational numbers. -/
theorem roundUnits_spec (p : Nat) {x : Rat} (hx : 0 ≤ x) : ∃ e q : Nat, roundUnits p x = e * 2 ^ p + q ∧
    units p (roundUnits p x) = q * 2 ^ e ∧ x - q * 2 ^ e ≤ 2 ^ e / 2 ∧ q * 2 ^ e - x ≤ 2 ^ e / 2 ∧
    (e = 0 ∨ 2 ^ (p + e) ≤ x) ∧ x < 2 ^ (p + 1 + e) ∧ (e = 0 ∨ 2 ^ p ≤ q) ∧ q ≤ 2 ^ (p + 1) ∧
    (x - q * 2 ^ e = 2 ^ e / 2 ∨ q * 2 ^ e - x = 2 ^ e / 2 → q % 2 = 0) := by
  obtain ⟨e, q, h1, h2, h3, h4, h5, h6, h7⟩ := roundUnits_nat p x
  have hd : (0 : Rat) < x.den := Rat.natCast_pos.2 x.den_pos
  have hn := num_toNat hx
  have hde : 0 < x.den * 2 ^ e := Nat.mul_pos x.den_pos (pow2_pos e)
  have hc := halfEven_close (n := x.num.toNat) hde
  have ht := halfEven_tie (n := x.num.toNat) hde
  rw [← h3] at hc ht
  have key : ∀ a b : Nat, a ≤ b → (a : Rat) ≤ b := fun a b h => Rat.natCast_le_natCast.2 h
  have c1 := key _ _ hc.1
  have c2 := key _ _ hc.2
  simp only [Rat.natCast_add, Rat.natCast_mul, natCast_pow2, hn] at c1 c2
  refine ⟨e, q, h1, h2, ?_, ?_, ?_, ?_, h6, h7, ?_⟩
  · refine Rat.le_of_mul_le_mul_right (c := x.den) ?_ hd
    grind
  · refine Rat.le_of_mul_le_mul_right (c := x.den) ?_ hd
    grind
  · refine h4.imp_right fun h => ?_
    have := key _ _ h
    simp only [Rat.natCast_mul, natCast_pow2, hn] at this
    refine Rat.le_of_mul_le_mul_right (c := x.den) ?_ hd
    grind
  · have : ((x.num.toNat : Nat) : Rat) < ((x.den * 2 ^ (p + 1 + e) : Nat) : Rat) := Rat.natCast_lt_natCast.2 h5
    simp only [Rat.natCast_mul, natCast_pow2, hn] at this
    refine Rat.lt_of_mul_lt_mul_right (c := x.den) ?_ (Rat.le_of_lt hd)
    grind
  · intro h
    refine ht (h.imp (fun h => ?_) fun h => ?_)
    · refine Rat.natCast_inj.1 ?_
      simp only [Rat.natCast_add, Rat.natCast_mul, natCast_pow2, hn]
      grind
    · refine Rat.natCast_inj.1 ?_
      simp only [Rat.natCast_add, Rat.natCast_mul, natCast_pow2, hn]
      grind

/-- The distance of two numbers. -/
def dist (x y : Rat) : Rat := if x ≤ y then y - x else x - y

theorem dist_multiple {x a : Rat} {q k : Nat} (ha : 0 ≤ a) (h1 : x - q * a ≤ a / 2) (h2 : q * a - x ≤ a / 2) :
    dist x (q * a) ≤ dist x (k * a) := by
  rcases Nat.lt_trichotomy k q with h | h | h
  · have : ((k + 1 : Nat) : Rat) ≤ q := Rat.natCast_le_natCast.2 h
    have := Rat.mul_le_mul_of_nonneg_right this ha
    rw [Rat.natCast_add] at this
    unfold dist
    grind
  · rw [h]
    exact Rat.le_refl
  · have : ((q + 1 : Nat) : Rat) ≤ k := Rat.natCast_le_natCast.2 h
    have := Rat.mul_le_mul_of_nonneg_right this ha
    rw [Rat.natCast_add] at this
    unfold dist
    grind

/-- No number of the format is closer than the rounded one. -/
theorem roundUnits_nearest (p : Nat) {x : Rat} (hx : 0 ≤ x) (b : Nat) :
    dist x (units p (roundUnits p x) : Nat) ≤ dist x (units p b : Nat) := by
  obtain ⟨e, q, -, h2, h3, h4, h5, -⟩ := roundUnits_spec p hx
  rw [h2]
  obtain ⟨e', q', -, -, g2, g3⟩ := units_form p b
  rw [g3]
  have ha : (0 : Rat) ≤ 2 ^ e := Rat.le_of_lt (pow2_posR e)
  simp only [Rat.natCast_mul, natCast_pow2]
  by_cases he : e ≤ e'
  · obtain ⟨j, rfl⟩ := Nat.le.dest he
    have : ((q' : Nat) : Rat) * 2 ^ (e + j) = ((q' * 2 ^ j : Nat) : Rat) * 2 ^ e := by
      rw [← natCast_pow2, ← natCast_pow2, ← Rat.natCast_mul, ← Rat.natCast_mul]
      congr 1
      rw [Nat.mul_assoc, Nat.mul_comm (2 ^ j), Nat.pow_add]
    rw [this]
    exact dist_multiple ha h3 h4
  · have h6 : (2 : Rat) ^ (p + e) ≤ x := h5.resolve_left (by omega)
    have h7 : q' * 2 ^ e' < 2 ^ (p + e) := by
      refine Nat.lt_of_lt_of_le (Nat.mul_lt_mul_of_pos_right g2 (pow2_pos e')) ?_
      rw [← Nat.pow_add]
      exact Nat.pow_le_pow_right (by decide) (by omega)
    have h8 : ((q' : Nat) : Rat) * 2 ^ e' < 2 ^ (p + e) := by
      have := Rat.natCast_lt_natCast.2 h7
      simpa only [Rat.natCast_mul, natCast_pow2] using this
    have h9 := dist_multiple (k := 2 ^ p) ha h3 h4
    have h10 : ((2 ^ p : Nat) : Rat) * 2 ^ e = 2 ^ (p + e) := by
      rw [← natCast_pow2, ← Rat.natCast_mul, ← Nat.pow_add, natCast_pow2]
    rw [h10] at h9
    refine Rat.le_trans h9 ?_
    unfold dist
    grind

/-- Numbers of the format are not changed. -/
theorem roundUnits_exact (p b : Nat) : roundUnits p (units p b : Nat) = b := by
  have h0 : (0 : Rat) ≤ (units p b : Nat) := Rat.natCast_nonneg
  have := roundUnits_nearest p h0 b
  refine units_inj (p := p) (Rat.natCast_inj.1 ?_)
  unfold dist at this
  grind

/-- The order to numbers of the format is kept. -/
theorem le_roundUnits {p : Nat} {x : Rat} (hx : 0 ≤ x) {b : Nat} (h : ((units p b : Nat) : Rat) ≤ x) : b ≤ roundUnits p x := by
  have h1 := roundUnits_nearest p hx b
  rcases Nat.lt_or_ge (roundUnits p x) b with h2 | h2
  · have := Rat.natCast_lt_natCast.2 (units_mono (p := p) h2)
    unfold dist at h1
    grind
  · exact h2

theorem roundUnits_le {p : Nat} {x : Rat} (hx : 0 ≤ x) {b : Nat} (h : x ≤ ((units p b : Nat) : Rat)) : roundUnits p x ≤ b := by
  have h1 := roundUnits_nearest p hx b
  rcases Nat.lt_or_ge b (roundUnits p x) with h2 | h2
  · have := Rat.natCast_lt_natCast.2 (units_mono (p := p) h2)
    unfold dist at h1
    grind
  · exact h2

/-- Between powers of two the error is at most half of the last bit. -/
theorem roundUnits_error {p e : Nat} {x : Rat} (hx : 0 ≤ x) (h : x < 2 ^ (p + 1 + e)) :
    x - (units p (roundUnits p x) : Nat) ≤ 2 ^ e / 2 ∧ (units p (roundUnits p x) : Nat) - x ≤ 2 ^ e / 2 := by
  obtain ⟨e', q, -, h2, h3, h4, h5, -⟩ := roundUnits_spec p hx
  have he : e' ≤ e := by
    rcases h5 with h5 | h5
    · omega
    · have h6 : (2 : Rat) ^ (p + e') < 2 ^ (p + 1 + e) := by grind
      rw [← natCast_pow2, ← natCast_pow2] at h6
      have := (Nat.pow_lt_pow_iff_right (by decide)).1 (Rat.natCast_lt_natCast.1 h6)
      omega
  have h7 : (2 : Rat) ^ e' ≤ 2 ^ e := by
    rw [← natCast_pow2, ← natCast_pow2]
    exact Rat.natCast_le_natCast.2 (Nat.pow_le_pow_right (by decide) he)
  rw [h2]
  simp only [Rat.natCast_mul, natCast_pow2]
  grind

/-- Relative to the number, the error is at most half of the last bit unless it is very small. -/
theorem roundUnits_relative {p : Nat} {x : Rat} (hx : (2 : Rat) ^ p ≤ x) :
    x - (units p (roundUnits p x) : Nat) ≤ x / 2 ^ (p + 1) ∧ (units p (roundUnits p x) : Nat) - x ≤ x / 2 ^ (p + 1) := by
  have hp := pow2_posR p
  have h0 : 0 ≤ x := by grind
  obtain ⟨e, q, -, h2, h3, h4, h5, -⟩ := roundUnits_spec p h0
  have h6 : (2 : Rat) ^ (p + e) ≤ x := by
    rcases h5 with rfl | h5
    · exact hx
    · exact h5
  have h7 : (2 : Rat) ^ e / 2 ≤ x / 2 ^ (p + 1) := by
    have hp1 := pow2_posR (p + 1)
    refine Rat.le_of_mul_le_mul_right (c := 2 ^ (p + 1)) ?_ hp1
    rw [Rat.div_mul_cancel (by grind)]
    have : (2 : Rat) ^ (p + e) = 2 ^ p * 2 ^ e := by
      rw [← natCast_pow2, Nat.pow_add, Rat.natCast_mul, natCast_pow2, natCast_pow2]
    rw [Rat.pow_succ]
    grind
  rw [h2]
  simp only [Rat.natCast_mul, natCast_pow2]
  grind

/-! ## Values -/

theorem pow2_add (a b : Nat) : (2 : Rat) ^ (a + b) = 2 ^ a * 2 ^ b := by
  rw [← natCast_pow2, Nat.pow_add, Rat.natCast_mul, natCast_pow2, natCast_pow2]

theorem pow2_ne (k : Nat) : (2 : Rat) ^ k ≠ 0 := Rat.ne_of_gt (pow2_posR k)

theorem abs_mul (f : Fmt) (b : Nat) : f.abs b * 2 ^ f.unit = (units f.mant b : Nat) := by
  unfold Fmt.abs
  rw [Rat.div_mul_cancel (pow2_ne _)]

theorem abs_nonneg (f : Fmt) (b : Nat) : 0 ≤ f.abs b := by
  refine Rat.le_of_mul_le_mul_right (c := 2 ^ f.unit) ?_ (pow2_posR _)
  rw [abs_mul, Rat.zero_mul]
  exact Rat.natCast_nonneg

theorem abs_le (f : Fmt) {b b' : Nat} : f.abs b ≤ f.abs b' ↔ b ≤ b' := by
  have h : f.abs b ≤ f.abs b' ↔ units f.mant b ≤ units f.mant b' := by
    rw [← Rat.natCast_le_natCast, ← abs_mul, ← abs_mul]
    exact ⟨fun h => Rat.mul_le_mul_of_nonneg_right h (Rat.le_of_lt (pow2_posR _)),
      fun h => Rat.le_of_mul_le_mul_right h (pow2_posR _)⟩
  rw [h]
  refine ⟨fun h => ?_, units_le⟩
  rcases Nat.lt_or_ge b' b with hlt | hge
  · exact absurd (units_mono (p := f.mant) hlt) (by omega)
  · exact hge

/-- A number of at most one bit more than the mantissa, times a power of two, is one of the format. -/
theorem units_rep {p m : Nat} (h : m < 2 ^ (p + 1)) : ∀ e, ∃ b, units p b = m * 2 ^ e
  | 0 => ⟨m, by
      have := units_of (p := p) (e := 0) (.inl rfl) (Nat.le_of_lt h)
      simpa using this⟩
  | e + 1 => by
    by_cases hm : m < 2 ^ p
    · obtain ⟨b, hb⟩ := units_rep (p := p) (m := 2 * m) (by rw [Nat.pow_succ]; omega) e
      exact ⟨b, by rw [hb, Nat.pow_succ, Nat.mul_comm 2 m, Nat.mul_assoc, Nat.mul_comm 2]⟩
    · exact ⟨(e + 1) * 2 ^ p + m, units_of (.inr (Nat.le_of_not_lt hm)) (Nat.le_of_lt h)⟩

/-- A number of the format is not changed. -/
theorem ofAbs_exact {f : Fmt} {b : Nat} {x : Rat} (hx : x = f.abs b) (hb : b < f.top * 2 ^ f.mant) (neg : Bool) :
    f.ofAbs neg x = .num neg b := by
  unfold Fmt.ofAbs
  rw [hx, abs_mul, roundUnits_exact]
  simp [hb]

/-- Numbers up to a power of two are not rounded to infinity. -/
theorem ofAbs_num {f : Fmt} {k : Nat} {x : Rat} (h0 : 0 ≤ x) (h : x ≤ 2 ^ k) (h1 : f.mant ≤ f.unit)
    (h2 : k + f.unit + 1 < f.top + f.mant) (neg : Bool) :
    f.ofAbs neg x = .num neg (roundUnits f.mant (x * 2 ^ f.unit)) ∧
      roundUnits f.mant (x * 2 ^ f.unit) < f.top * 2 ^ f.mant := by
  have hp := pow2_posR f.unit
  have hr : roundUnits f.mant (x * 2 ^ f.unit) < f.top * 2 ^ f.mant := by
    refine Nat.lt_of_le_of_lt (roundUnits_le (b := (k + f.unit - f.mant) * 2 ^ f.mant + 2 ^ f.mant) ?_ ?_) ?_
    · exact Rat.mul_nonneg h0 (Rat.le_of_lt hp)
    · rw [units_of (.inr (Nat.le_refl _)) (Nat.pow_le_pow_right (by decide) (by omega)), ← Nat.pow_add,
        show f.mant + (k + f.unit - f.mant) = k + f.unit from by omega, natCast_pow2, pow2_add]
      exact Rat.mul_le_mul_of_nonneg_right h (Rat.le_of_lt hp)
    · rw [← Nat.succ_mul]
      exact Nat.mul_lt_mul_of_pos_right (by omega) (pow2_pos _)
  refine ⟨?_, hr⟩
  unfold Fmt.ofAbs
  simp [hr]

theorem grid_above {x q J E : Rat} (hJ : 0 < J) (hE : 0 < E) (h : x * (J * E) - q * E ≤ E / 2) :
    x - q / J ≤ 1 / J / 2 := by
  have h1 : x * J - q ≤ 1 / 2 := by
    refine Rat.le_of_mul_le_mul_right (c := E) ?_ hE
    grind
  refine Rat.le_of_mul_le_mul_right (c := J) ?_ hJ
  have h2 : q / J * J = q := Rat.div_mul_cancel (Rat.ne_of_gt hJ)
  have h3 : 1 / J * J = 1 := Rat.div_mul_cancel (Rat.ne_of_gt hJ)
  grind

theorem grid_below {x q J E : Rat} (hJ : 0 < J) (hE : 0 < E) (h : q * E - x * (J * E) ≤ E / 2) :
    q / J - x ≤ 1 / J / 2 := by
  have h1 : q - x * J ≤ 1 / 2 := by
    refine Rat.le_of_mul_le_mul_right (c := E) ?_ hE
    grind
  refine Rat.le_of_mul_le_mul_right (c := J) ?_ hJ
  have h2 : q / J * J = q := Rat.div_mul_cancel (Rat.ne_of_gt hJ)
  have h3 : 1 / J * J = 1 := Rat.div_mul_cancel (Rat.ne_of_gt hJ)
  grind

/-- The numbers between two powers of two are multiples of a power of two, and the error is at most half of that. -/
theorem round_grid {f : Fmt} {j : Nat} (hj : j ≤ f.unit) {x : Rat} (h1 : (2 : Rat) ^ f.mant / 2 ^ j ≤ x)
    (h2 : x < (2 : Rat) ^ (f.mant + 1) / 2 ^ j) :
    ∃ q : Nat, f.abs (roundUnits f.mant (x * 2 ^ f.unit)) = q / 2 ^ j ∧ x - q / 2 ^ j ≤ 1 / 2 ^ j / 2 ∧
      q / 2 ^ j - x ≤ 1 / 2 ^ j / 2 := by
  obtain ⟨i, hi⟩ := Nat.le.dest hj
  have hpi := pow2_posR i
  have hpj := pow2_posR j
  have hu : (2 : Rat) ^ f.unit = 2 ^ j * 2 ^ i := by rw [← hi, pow2_add]
  have hpu := pow2_posR f.unit
  have hx0 : 0 ≤ x := by
    refine Rat.le_trans ?_ h1
    rw [Rat.div_def]
    exact Rat.le_of_lt (Rat.mul_pos (pow2_posR _) (Rat.inv_pos.2 hpj))
  have hx : 0 ≤ x * 2 ^ f.unit := Rat.mul_nonneg hx0 (Rat.le_of_lt hpu)
  have hlo : (2 : Rat) ^ (f.mant + i) ≤ x * 2 ^ f.unit := by
    rw [pow2_add, hu]
    have := Rat.mul_le_mul_of_nonneg_right h1 (Rat.le_of_lt (Rat.mul_pos hpj hpi))
    rw [← Rat.mul_assoc, Rat.div_mul_cancel (pow2_ne j)] at this
    exact this
  have hhi : x * 2 ^ f.unit < (2 : Rat) ^ (f.mant + 1 + i) := by
    rw [pow2_add, hu]
    have := Rat.mul_lt_mul_of_pos_right h2 (Rat.mul_pos hpj hpi)
    rw [← Rat.mul_assoc (_ / _), Rat.div_mul_cancel (pow2_ne j)] at this
    exact this
  obtain ⟨e, q, -, g2, g3, g4, g5, g6, -⟩ := roundUnits_spec f.mant hx
  have he : e = i := by
    have k1 : (2 : Rat) ^ (f.mant + i) < 2 ^ (f.mant + 1 + e) := by grind
    rw [← natCast_pow2, ← natCast_pow2] at k1
    have k1 := (Nat.pow_lt_pow_iff_right (by decide)).1 (Rat.natCast_lt_natCast.1 k1)
    rcases g5 with g5 | g5
    · omega
    · have k2 : (2 : Rat) ^ (f.mant + e) < 2 ^ (f.mant + 1 + i) := by grind
      rw [← natCast_pow2, ← natCast_pow2] at k2
      have k2 := (Nat.pow_lt_pow_iff_right (by decide)).1 (Rat.natCast_lt_natCast.1 k2)
      omega
  subst he
  have hq : f.abs (roundUnits f.mant (x * 2 ^ f.unit)) = q / 2 ^ j := by
    unfold Fmt.abs
    rw [g2, hu, Rat.natCast_mul, natCast_pow2]
    grind
  refine ⟨q, hq, ?_, ?_⟩
  · exact grid_above hpj hpi (by rw [hu] at g3; exact g3)
  · exact grid_below hpj hpi (by rw [hu] at g4; exact g4)

theorem halfEven_scale (n d : Nat) {c : Nat} (hc : 0 < c) : halfEven (n * c) (d * c) = halfEven n d := by
  unfold halfEven
  rw [Nat.mul_div_mul_right _ _ hc, Nat.mul_mod_mul_right, ← Nat.mul_assoc]
  simp only [Nat.mul_lt_mul_right hc]

/-- Large numbers are multiples of a power of two. -/
theorem units_multiple {p b i : Nat} (h : 2 ^ (p + i) ≤ units p b) : ∃ w, units p b = w * 2 ^ i := by
  obtain ⟨e, q, -, -, hq, hu⟩ := units_form p b
  have h1 : 2 ^ (p + i) < 2 ^ (p + 1 + e) := by
    rw [Nat.pow_add 2 (p + 1)]
    exact Nat.lt_of_le_of_lt h (hu ▸ Nat.mul_lt_mul_of_pos_right hq (pow2_pos e))
  have h2 := (Nat.pow_lt_pow_iff_right (by decide)).1 h1
  obtain ⟨d, rfl⟩ : ∃ d, e = d + i := ⟨e - i, by omega⟩
  exact ⟨q * 2 ^ d, by rw [hu, Nat.pow_add, Nat.mul_assoc]⟩

/-- A fraction of a power of two is exact unless it has too many bits. -/
theorem ofAbs_rep {f : Fmt} {m j k : Nat} (hj : j ≤ f.unit) (hm : m < 2 ^ (f.mant + 1)) (h : m ≤ 2 ^ (k + j))
    (h1 : f.mant ≤ f.unit) (h2 : k + f.unit + 1 < f.top + f.mant) (neg : Bool) :
    ∃ b, f.ofAbs neg ((m : Rat) / 2 ^ j) = .num neg b ∧ f.abs b = (m : Rat) / 2 ^ j ∧ units f.mant b = m * 2 ^ (f.unit - j) := by
  obtain ⟨b, hb⟩ := units_rep hm (f.unit - j)
  have hu : (2 : Rat) ^ f.unit = 2 ^ (f.unit - j) * 2 ^ j := by rw [← pow2_add, Nat.sub_add_cancel hj]
  have hx : f.abs b = (m : Rat) / 2 ^ j := by
    unfold Fmt.abs
    have hp1 := pow2_ne (f.unit - j)
    have hp2 := pow2_ne j
    rw [hb, hu, Rat.natCast_mul, natCast_pow2]
    generalize (2 : Rat) ^ (f.unit - j) = A at *
    generalize (2 : Rat) ^ j = B at *
    grind
  refine ⟨b, ?_, hx, hb⟩
  have hle : f.abs b ≤ 2 ^ k := by
    rw [hx]
    refine Rat.le_of_mul_le_mul_right (c := 2 ^ j) ?_ (pow2_posR j)
    rw [Rat.div_mul_cancel (pow2_ne j), ← pow2_add, ← natCast_pow2]
    exact Rat.natCast_le_natCast.2 h
  have := ofAbs_num (abs_nonneg f b) hle h1 h2 neg
  rw [abs_mul, roundUnits_exact] at this
  rw [← hx, this.1]

theorem mul_num (f : Fmt) (s t : Bool) (a b : Nat) : f.mul (.num s a) (.num t b) = f.ofAbs (s != t) (f.abs a * f.abs b) := rfl

theorem round_num (f : Fmt) (a : Nat) : (Fl.num false a).round? f = some ((halfEven (units f.mant a) (2 ^ f.unit) : Nat) : Int) := rfl

theorem modf_num (f : Fmt) (s : Bool) (a : Nat) : f.modf (.num s a) =
    (f.ofAbs s (units f.mant a / 2 ^ f.unit : Nat),
      .num s (roundUnits f.mant ((units f.mant a % 2 ^ f.unit : Nat) : Rat))) := rfl

theorem trunc_nat {f : Fmt} {b n : Nat} (h : f.abs b = (n : Rat)) : (Fl.num false b).trunc? f = some (n : Int) := by
  simp [Fl.trunc?, Fl.val?, signed, h]

theorem trunc_num (f : Fmt) (b : Nat) : (Fl.num false b).trunc? f = some (f.abs b).floor := by
  have h : 0 ≤ (f.abs b).num := Rat.num_nonneg.2 (abs_nonneg f b)
  simp [Fl.trunc?, Fl.val?, signed, Rat.floor_def, Int.tdiv_eq_ediv_of_nonneg h]

theorem floor_num (f : Fmt) (b : Nat) : (Fl.num false b).floor? f = some (f.abs b).floor := by
  simp [Fl.floor?, Fl.val?, signed]

theorem floor_eq {x : Rat} {n : Int} (h1 : (n : Rat) ≤ x) (h2 : x < (n : Rat) + 1) : x.floor = n := by
  have g1 := Rat.le_floor_iff.2 h1
  have g2 : x.floor < n + 1 := Rat.floor_lt_iff.2 (by rw [Rat.intCast_add]; exact h2)
  omega

theorem ofRat_nonneg {f : Fmt} {x : Rat} (h : 0 ≤ x) : f.ofRat x = f.ofAbs false x := by
  unfold Fmt.ofRat
  rw [if_neg (Rat.not_lt.2 h)]

theorem div_num {f : Fmt} {s t : Bool} {a b : Nat} (hb : b ≠ 0) :
    f.div (.num s a) (.num t b) = f.ofAbs (s != t) (f.abs a / f.abs b) :=
  if_neg hb

theorem fmod_num {f : Fmt} {s t : Bool} {a b : Nat} (hb : b ≠ 0) :
    f.fmod (.num s a) (.num t b) = .num s (roundUnits f.mant ((units f.mant a % units f.mant b : Nat) : Rat)) :=
  if_neg hb

/-- The quotient by a whole number is not rounded up to the next whole number. -/
theorem floor_div {f : Fmt} {a n : Nat} (hu : f.mant ≤ f.unit) (hn : 0 < n) (h1 : 1 ≤ f.abs a / n) (h2 : f.abs a < 2 ^ f.mant) :
    (f.abs (roundUnits f.mant (f.abs a / n * 2 ^ f.unit))).floor = (f.abs a / n).floor := by
  have hn' : (0 : Rat) < (n : Rat) := by
    have := Rat.natCast_lt_natCast.2 hn
    simpa using this
  have hP := pow2_posR f.unit
  have hM := pow2_posR f.mant
  obtain ⟨e, q, -, hq0, hq, hU⟩ := units_form f.mant a
  have hab := abs_mul f a
  rw [hU] at hab
  -- the last bit is not above one
  have he : e ≤ f.unit := by
    rcases hq0 with h | h
    · omega
    · have h3 : ((2 ^ (f.mant + e) : Nat) : Rat) < ((2 ^ (f.mant + f.unit) : Nat) : Rat) := by
        have h4 : ((q * 2 ^ e : Nat) : Rat) < 2 ^ f.mant * 2 ^ f.unit := by
          rw [← hab]
          exact Rat.mul_lt_mul_of_pos_right h2 hP
        rw [natCast_pow2, natCast_pow2, pow2_add _ f.unit]
        have h5 : (2 : Rat) ^ (f.mant + e) ≤ ((q * 2 ^ e : Nat) : Rat) := by
          rw [← natCast_pow2, Nat.pow_add]
          exact Rat.natCast_le_natCast.2 (Nat.mul_le_mul_right _ h)
        grind
      have := (Nat.pow_lt_pow_iff_right (by decide)).1 (Rat.natCast_lt_natCast.1 h3)
      omega
  obtain ⟨d, hd⟩ := Nat.le.dest he
  -- the whole part
  obtain ⟨k, hk⟩ : ∃ k : Nat, (f.abs a / n).floor = k := by
    refine ⟨(f.abs a / n).floor.toNat, ?_⟩
    have : (1 : Int) ≤ (f.abs a / n).floor := Rat.le_floor_iff.2 h1
    omega
  have g1 := Rat.floor_le (f.abs a / n)
  have g2 := Rat.lt_floor_add_one (f.abs a / n)
  rw [hk, Rat.intCast_natCast] at g1
  rw [hk, Rat.intCast_add, Rat.intCast_natCast, show ((1 : Int) : Rat) = 1 from rfl] at g2
  have hdiv : f.abs a / n * n = f.abs a := Rat.div_mul_cancel (Rat.ne_of_gt hn')
  have hkM : k < 2 ^ (f.mant + 1) := by
    have h3 : f.abs a / n ≤ f.abs a := by
      have : (1 : Rat) ≤ n := by
        have := Rat.natCast_le_natCast.2 hn
        simpa using this
      generalize f.abs a / n = x at *
      rw [← hdiv]
      have := Rat.mul_le_mul_of_nonneg_left this (show (0 : Rat) ≤ x by grind)
      grind
    refine Rat.natCast_lt_natCast.1 ?_
    rw [natCast_pow2, Rat.pow_succ]
    grind
  have hx0 : 0 ≤ f.abs a / n * 2 ^ f.unit := Rat.mul_nonneg (by grind) (Rat.le_of_lt hP)
  rw [hk]
  refine floor_eq ?_ ?_
  · -- the whole part is a number of the format
    obtain ⟨b, hb⟩ := units_rep hkM f.unit
    have h3 : b ≤ roundUnits f.mant (f.abs a / n * 2 ^ f.unit) := by
      refine le_roundUnits hx0 ?_
      rw [hb, Rat.natCast_mul, natCast_pow2]
      exact Rat.mul_le_mul_of_nonneg_right g1 (Rat.le_of_lt hP)
    refine Rat.le_trans ?_ ((abs_le f).2 h3)
    unfold Fmt.abs
    rw [hb, Rat.natCast_mul, natCast_pow2, Rat.intCast_natCast, Rat.mul_div_cancel (pow2_ne f.unit)]
    exact Rat.le_refl
  · have hrel := (roundUnits_relative (p := f.mant) (x := f.abs a / n * 2 ^ f.unit) (by
      have : (2 : Rat) ^ f.mant ≤ 2 ^ f.unit := by
        rw [← natCast_pow2, ← natCast_pow2]
        exact Rat.natCast_le_natCast.2 (Nat.pow_le_pow_right (by decide) hu)
      refine Rat.le_trans this ?_
      have := Rat.mul_le_mul_of_nonneg_right h1 (Rat.le_of_lt hP)
      grind)).2
    rw [← abs_mul] at hrel
    generalize f.abs (roundUnits f.mant (f.abs a / n * 2 ^ f.unit)) = R at *
    -- in units of the last bit
    have hA : f.abs a * 2 ^ d = q := by
      have hE := pow2_ne e
      rw [← hd, pow2_add, Rat.natCast_mul, natCast_pow2] at hab
      have h3 : (f.abs a * 2 ^ d - q) * 2 ^ e = 0 := by
        generalize (2 : Rat) ^ e = E at *
        generalize (2 : Rat) ^ d = D at *
        grind
      rcases Rat.mul_eq_zero.1 h3 with h4 | h4
      · grind
      · exact absurd h4 hE
    have hint : q + 1 ≤ (k + 1) * n * 2 ^ d := by
      have : (q : Rat) < (((k + 1) * n * 2 ^ d : Nat) : Rat) := by
        rw [← hA, Rat.natCast_mul, Rat.natCast_mul, Rat.natCast_add, natCast_pow2]
        refine Rat.mul_lt_mul_of_pos_right ?_ (pow2_posR d)
        rw [← hdiv]
        exact Rat.mul_lt_mul_of_pos_right g2 hn'
      exact Rat.natCast_lt_natCast.1 this
    have hint := Rat.natCast_le_natCast.2 hint
    rw [Rat.natCast_mul, Rat.natCast_mul, Rat.natCast_add, Rat.natCast_add, natCast_pow2,
      show ((1 : Nat) : Rat) = 1 from rfl] at hint
    have hqM : (q : Rat) < 2 ^ (f.mant + 1) := by
      rw [← natCast_pow2]
      exact Rat.natCast_lt_natCast.2 hq
    have hPM := pow2_posR (f.mant + 1)
    have hD := pow2_posR d
    rw [Rat.intCast_natCast]
    generalize hx : f.abs a / n = x at *
    -- `R - x ≤ x / 2 ^ (mant + 1)`
    have hrel : R - x ≤ x / 2 ^ (f.mant + 1) := by
      refine Rat.le_of_mul_le_mul_right (c := 2 ^ f.unit) ?_ hP
      generalize (2 : Rat) ^ f.unit = A at *
      grind
    rw [← hdiv] at hA
    clear hdiv hab hx0 hk g1 g2 h1 hx h2
    generalize (2 : Rat) ^ (f.mant + 1) = B at *
    generalize (2 : Rat) ^ d = D at *
    generalize (n : Rat) = N at *
    generalize (q : Rat) = Q at *
    generalize (k : Rat) = k at *
    have hND : 0 < N * D := Rat.mul_pos hn' hD
    -- multiply by `N * D`
    have e1 : x / B * (N * D) < 1 := by
      have : x / B * (N * D) = Q / B := by grind
      rw [this]
      refine Rat.lt_of_mul_lt_mul_right (c := B) ?_ (Rat.le_of_lt hPM)
      rw [Rat.div_mul_cancel (Rat.ne_of_gt hPM)]
      grind
    have e2 := Rat.mul_le_mul_of_nonneg_right hrel (Rat.le_of_lt hND)
    refine Rat.lt_of_mul_lt_mul_right (c := N * D) ?_ (Rat.le_of_lt hND)
    grind

/-- Small whole numbers are exact. -/
theorem ofRat_nat {f : Fmt} {n : Nat} (hn : n < 2 ^ (f.mant + 1)) (h1 : f.mant ≤ f.unit) (h2 : f.unit + 2 < f.top) :
    ∃ b, f.ofRat ((n : Int) : Rat) = .num false b ∧ f.abs b = (n : Rat) ∧ units f.mant b = n * 2 ^ f.unit := by
  obtain ⟨b, g1, g2, g3⟩ := ofAbs_rep (f := f) (m := n) (j := 0) (k := f.mant + 1) (Nat.zero_le _) hn (Nat.le_of_lt hn) h1
    (by omega) false
  have hz : (n : Rat) / 2 ^ 0 = n := by grind
  rw [hz] at g1 g2
  refine ⟨b, ?_, g2, by rw [g3, Nat.sub_zero]⟩
  rw [← g1]
  unfold Fmt.ofRat
  rw [Rat.intCast_natCast, if_neg (Rat.not_lt.2 Rat.natCast_nonneg)]

end Verif.Ieee
