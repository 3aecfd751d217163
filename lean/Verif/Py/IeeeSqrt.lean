import Verif.Py.IeeeError
/-!
# Square roots
-/
namespace Verif.Ieee

/-- The whole part of a square root, with as many steps as the number has base 4 digits. -/
def rootSteps : Nat → Nat → Nat
  | 0, _ => 0
  | k + 1, n => let r := 2 * rootSteps k (n / 4); if (r + 1) * (r + 1) ≤ n then r + 1 else r

/-- The whole part of a square root. -/
def root (n : Nat) : Nat := rootSteps (n.log2 / 2 + 1) n

theorem rootSteps_spec (k n : Nat) (h : n < 4 ^ k) : rootSteps k n * rootSteps k n ≤ n ∧ n < (rootSteps k n + 1) * (rootSteps k n + 1) := by
  induction k generalizing n with
  | zero =>
    have : n = 0 := by simpa using h
    subst this
    decide
  | succ k ih =>
    obtain ⟨h1, h2⟩ := ih (n / 4) (by rw [Nat.pow_succ] at h; omega)
    unfold rootSteps
    simp only
    generalize rootSteps k (n / 4) = r at *
    have e1 : (2 * r) * (2 * r) = 4 * (r * r) := by grind
    have e2 : (2 * r + 1 + 1) * (2 * r + 1 + 1) = 4 * ((r + 1) * (r + 1)) := by grind
    split
    · rename_i hc
      refine ⟨hc, ?_⟩
      rw [e2]
      omega
    · rename_i hc
      rw [e1]
      exact ⟨by omega, Nat.not_le.1 hc⟩

theorem root_spec (n : Nat) : root n * root n ≤ n ∧ n < (root n + 1) * (root n + 1) := by
  refine rootSteps_spec _ n ?_
  have h1 : n < 2 ^ (n.log2 + 1) := Nat.lt_log2_self
  have h2 : (4 : Nat) ^ (n.log2 / 2 + 1) = 2 ^ (2 * (n.log2 / 2 + 1)) := by rw [Nat.pow_mul]
  rw [h2]
  exact Nat.lt_of_lt_of_le h1 (Nat.pow_le_pow_right (by decide) (by omega))

/-- A number close to the square root of `units / 2 ^ unit`: itself if it is a multiple of the eighth part of the
smallest number, else the middle between two such multiples.  As no number and no middle between two numbers lies
between the two, it is rounded as the square root is. -/
def rootOf (unit units : Nat) : Rat :=
  let r := root (units * 2 ^ (unit + 4))
  ((if r * r = units * 2 ^ (unit + 4) then 2 * r else 2 * r + 1 : Nat) : Rat) / 2 ^ (unit + 3)

/-- `sqrt(x)`, which IEEE 754 defines with correct rounding. -/
def Fmt.sqrt (f : Fmt) : Fl → Fl
  | .num s m => if m = 0 then .num s 0 else if s then .nan else f.ofAbs false (rootOf f.unit (units f.mant m))
  | .inf s => if s then .nan else .inf s
  | .nan => .nan

theorem rootOf_near (unit u : Nat) : 0 ≤ rootOf unit u ∧
    ∃ h : Rat, 0 ≤ h ∧ h * 2 ^ (unit + 3) = 1 ∧ (rootOf unit u * rootOf unit u - (u : Rat) / 2 ^ unit).abs ≤ 2 * rootOf unit u * h + h * h := by
  unfold rootOf
  simp only
  obtain ⟨h1, h2⟩ := root_spec (u * 2 ^ (unit + 4))
  generalize root (u * 2 ^ (unit + 4)) = r at *
  have hP := pow2_posR (unit + 3)
  have hQ := pow2_posR unit
  have hinv : (1 / 2 ^ (unit + 3) : Rat) * 2 ^ (unit + 3) = 1 := Rat.div_mul_cancel (Rat.ne_of_gt hP)
  have hh : (0 : Rat) < 1 / 2 ^ (unit + 3) := by
    rw [Rat.div_def, Rat.one_mul]
    exact Rat.inv_pos.2 hP
  have hX : (u : Rat) / 2 ^ unit = (4 * (u * 2 ^ (unit + 4) : Nat) : Rat) * (1 / 2 ^ (unit + 3)) * (1 / 2 ^ (unit + 3)) := by
    rw [Rat.natCast_mul, natCast_pow2, pow2_add unit 4, Rat.div_def]
    have e : (2 : Rat) ^ (unit + 3) = 2 ^ unit * 8 := by
      rw [pow2_add unit 3]
      refine congrArg _ ?_
      decide +kernel
    rw [e] at hinv hh ⊢
    have hm : (2 : Rat) ^ unit * ((2 : Rat) ^ unit)⁻¹ = 1 := Rat.mul_inv_cancel _ (Rat.ne_of_gt hQ)
    rw [show (2 : Rat) ^ 4 = 16 by decide +kernel]
    generalize (2 : Rat) ^ unit = A at *
    generalize A⁻¹ = B at *
    have : (1 : Rat) / (A * 8) = B / 8 := by
      have h8 : (B / 8) * (A * 8) = 1 := by grind
      generalize (1 : Rat) / (A * 8) = C at *
      have hA : A * 8 ≠ 0 := by
        intro h0
        rw [h0, Rat.mul_zero] at h8
        exact absurd h8 (by decide)
      have e3 : C * (A * 8) = B / 8 * (A * 8) := by rw [hinv, h8]
      have hpos : 0 < A * 8 := by grind
      exact Rat.le_antisymm (Rat.le_of_mul_le_mul_right (by rw [e3]; exact Rat.le_refl) hpos)
        (Rat.le_of_mul_le_mul_right (by rw [e3]; exact Rat.le_refl) hpos)
    rw [this]
    generalize (u : Rat) = U at *
    grind
  have hdiv : ∀ n : Nat, (n : Rat) / 2 ^ (unit + 3) = n * (1 / 2 ^ (unit + 3)) := by
    intro n
    rw [Rat.div_def, Rat.div_def, Rat.one_mul]
  have k1 := Rat.natCast_le_natCast.2 h1
  have k2 := Rat.natCast_le_natCast.2 (Nat.succ_le_of_lt h2)
  rw [hdiv, hX]
  generalize u * 2 ^ (unit + 4) = N at *
  clear hX hdiv
  generalize (1 : Rat) / 2 ^ (unit + 3) = h at *
  refine ⟨Rat.mul_nonneg (Rat.natCast_nonneg) (Rat.le_of_lt hh), h, Rat.le_of_lt hh, hinv, ?_⟩
  have hh2 : 0 ≤ h * h := Rat.mul_nonneg (Rat.le_of_lt hh) (Rat.le_of_lt hh)
  have hr : (0 : Rat) ≤ r := Rat.natCast_nonneg
  split
  · rename_i heq
    have heq' : ((r * r : Nat) : Rat) = N := by rw [heq]
    rw [Rat.natCast_mul] at heq' ⊢
    rw [show ((2 : Nat) : Rat) = 2 from rfl, ← heq']
    rw [show (2 * (r : Rat) * h * (2 * r * h) - 4 * (r * r) * h * h) = 0 by grind, Rat.abs_zero]
    have := Rat.mul_nonneg hr hh2
    grind
  · rename_i hne
    have h3 : r * r + 1 ≤ N := by omega
    have k3 := Rat.natCast_le_natCast.2 h3
    rw [Rat.natCast_add, Rat.natCast_mul] at k3
    simp only [Rat.natCast_add, Rat.natCast_mul, Nat.succ_eq_add_one] at k2 ⊢
    rw [show ((2 : Nat) : Rat) = 2 from rfl, show ((1 : Nat) : Rat) = 1 from rfl] at *
    generalize (r : Rat) = x at *
    generalize (N : Rat) = y at *
    have a1 := Rat.mul_le_mul_of_nonneg_right k2 hh2
    have a2 := Rat.mul_le_mul_of_nonneg_right k3 hh2
    have a3 := abs_cases ((2 * x + 1) * h * ((2 * x + 1) * h) - 4 * y * h * h)
    have a4 := Rat.mul_nonneg hr hh2
    grind

/-! ## Errors -/

/-- A product of a number and a tiny one. -/
theorem tiny_product {x b t s : Rat} (ht : 0 < t) (hs : s * t = 1) : 2 * (x * b) ≤ t * (x * x) + s * (b * b) := by
  have hs0 : 0 < s := by
    rw [← Rat.not_le]
    intro h
    have := Rat.mul_le_mul_of_nonneg_right h (Rat.le_of_lt ht)
    grind
  -- `s * (t * x - b) ^ 2`
  have hsq : 0 ≤ (t * x - b) * (t * x - b) := by
    rcases abs_cases (t * x - b) with ⟨h, -⟩ | ⟨h, -⟩
    · exact Rat.mul_nonneg h h
    · have := Rat.mul_nonneg (show 0 ≤ -(t * x - b) by grind) (show 0 ≤ -(t * x - b) by grind)
      grind
  have h := Rat.mul_nonneg (Rat.le_of_lt hs0) hsq
  have e : s * ((t * x - b) * (t * x - b)) = t * (x * x) - 2 * (x * b) + s * (b * b) := by
    have e1 : s * (t * x * (t * x)) = t * (x * x) := by
      rw [show s * (t * x * (t * x)) = s * t * (t * (x * x)) by grind, hs, Rat.one_mul]
    have e2 : s * (t * x * b) = x * b := by
      rw [show s * (t * x * b) = s * t * (x * b) by grind, hs, Rat.one_mul]
    have e3 : s * ((t * x - b) * (t * x - b)) = s * (t * x * (t * x)) - 2 * (s * (t * x * b)) + s * (b * b) := by grind
    rw [e3, e1, e2]
  grind

theorem abs_square (x : Rat) : x.abs * x.abs = x * x := by
  rcases abs_cases x with ⟨-, h⟩ | ⟨-, h⟩ <;> rw [h]
  grind

theorem square_nonneg (x : Rat) : 0 ≤ x * x := by
  rw [← abs_square]
  exact Rat.mul_nonneg Rat.abs_nonneg Rat.abs_nonneg

/-- The square. -/
theorem Rel.square {d b x y t s : Rat} (h : Rel d b x y) (hd : 0 ≤ d) (hb : 0 ≤ b) (ht : 0 < t) (hs : s * t = 1) :
    Rel (2 * d + d * d + t * (1 + d)) (b * b + s * (b * b) * (1 + d)) (x * x) (y * y) := by
  have h1 := h.size
  unfold Rel at *
  rw [Rat.abs_of_nonneg (square_nonneg x)]
  have h2 : (y * y - x * x).abs = (y - x).abs * (y + x).abs := by
    rw [← abs_prod]
    refine congrArg Rat.abs ?_
    grind
  rw [h2]
  have h3 := abs_triangle y x
  have hx := Rat.abs_nonneg (x := x)
  have g1 := Rat.mul_le_mul_of_nonneg_right h (Rat.abs_nonneg (x := y + x))
  have g2 : (y + x).abs ≤ 2 * x.abs + d * x.abs + b := by grind
  have hdx := Rat.mul_nonneg hd hx
  have g3 := Rat.mul_le_mul_of_nonneg_left g2 (show 0 ≤ d * x.abs + b by grind)
  have g4 := tiny_product (x := x.abs) (b := b) ht hs
  have g5 := Rat.mul_le_mul_of_nonneg_right g4 (show 0 ≤ 1 + d by grind)
  rw [abs_square] at g5
  have e : (d * x.abs + b) * (2 * x.abs + d * x.abs + b) =
      (2 * d + d * d) * (x.abs * x.abs) + 2 * (x.abs * b) * (1 + d) + b * b := by grind
  rw [e, abs_square] at g3
  grind

theorem add_err {f : Fmt} (hf : f.Good) {x y : Fl} {a b : Rat} (hx : x.val? f = some a) (hy : y.val? f = some b)
    (h : (a + b).abs ≤ 2 ^ 126) : ∃ r, (f.add x y).val? f = some r ∧ Rel uround utiny (a + b) r := by
  obtain ⟨s, m, rfl, rfl⟩ := num_of_val hx
  obtain ⟨t, n, rfl, rfl⟩ := num_of_val hy
  unfold Fmt.add
  simp only
  by_cases h0 : m = 0 ∧ n = 0
  · obtain ⟨rfl, rfl⟩ := h0
    rw [if_pos ⟨rfl, rfl⟩, val_num, abs_zero_num]
    refine ⟨_, rfl, ?_⟩
    have e : ∀ c, signed c 0 = 0 := by intro c; cases c <;> rfl
    rw [e, e, e, Rat.add_zero]
    exact Rel.refl 0 (by decide +kernel) (by decide +kernel)
  · rw [if_neg h0]
    exact ofRat_err hf h

/-- The sum of two approximations of numbers that are not negative. -/
theorem Rel.add {d b c x y z w : Rat} (h : Rel d b x y) (h' : Rel d c z w) (hx : 0 ≤ x) (hz : 0 ≤ z) : Rel d (b + c) (x + z) (y + w) := by
  unfold Rel at *
  rw [Rat.abs_of_nonneg hx] at h
  rw [Rat.abs_of_nonneg hz] at h'
  rw [Rat.abs_of_nonneg (show 0 ≤ x + z by grind)]
  have := abs_triangle (y - x) (w - z)
  rw [show y - x + (w - z) = y + w - (x + z) by grind] at this
  grind

theorem root_rel {q X h : Rat} (hX : 0 ≤ X) (h0 : 0 ≤ h) (h1 : h ≤ 1 / 2 ^ 152) (hr : (q * q - X).abs ≤ 2 * q * h + h * h) :
    Rel (1 / 2 ^ 29) (1 / 2 ^ 270) X (q * q) := by
  have g1 := tiny_product (x := q) (b := h) (t := 1 / 2 ^ 30) (s := 2 ^ 30) (by decide +kernel) (by decide +kernel)
  have hh : h * h ≤ 1 / 2 ^ 304 := by
    have k1 := Rat.mul_le_mul_of_nonneg_left h1 h0
    have k2 := Rat.mul_le_mul_of_nonneg_right h1 (show (0 : Rat) ≤ 1 / 2 ^ 152 by decide +kernel)
    have k3 : (1 : Rat) / 2 ^ 152 * (1 / 2 ^ 152) = 1 / 2 ^ 304 := by decide +kernel
    grind
  unfold Rel
  rw [Rat.abs_of_nonneg hX]
  have k4 := abs_cases (q * q - X)
  have e1 : (1 : Rat) / 2 ^ 30 = 1 / 1073741824 := by decide +kernel
  have e2 : (2 : Rat) ^ 30 = 1073741824 := by decide +kernel
  have e3 : (1 : Rat) / 2 ^ 29 = 1 / 536870912 := by decide +kernel
  have e4 : 1073741828 * ((1 : Rat) / 2 ^ 304) ≤ 1 / 2 ^ 272 := by decide +kernel
  have e5 : (1 : Rat) / 2 ^ 270 = 4 * (1 / 2 ^ 272) := by decide +kernel
  rw [e1, e2] at g1
  rw [e3, e5]
  generalize (1 : Rat) / 2 ^ 304 = A at *
  generalize (1 : Rat) / 2 ^ 272 = B at *
  generalize hQ : q * q = Q at *
  generalize hH : h * h = H at *
  rw [show 2 * q * h = 2 * (q * h) by grind] at hr
  generalize q * h = R at *
  grind

/-- The square of a square root. -/
theorem sqrt_err {f : Fmt} (hf : f.Good) {x : Fl} {X : Rat} (hx : x.val? f = some X) (h0 : 0 ≤ X) (h1 : X ≤ 2 ^ 126) :
    ∃ p, (f.sqrt x).val? f = some p ∧ 0 ≤ p ∧ p ≤ 2 ^ 65 ∧ Rel (4 * uround) (1 / 2 ^ 250) X (p * p) := by
  obtain ⟨s, m, rfl, rfl⟩ := num_of_val hx
  unfold Fmt.sqrt
  simp only
  by_cases hm : m = 0
  · subst hm
    rw [if_pos rfl]
    refine ⟨0, ?_, by decide, by decide +kernel, ?_⟩
    · rw [val_num, abs_zero_num]
      cases s <;> rfl
    · have e : signed s (f.abs 0) = 0 := by
        rw [abs_zero_num]
        cases s <;> rfl
      rw [e, Rat.mul_zero]
      exact Rel.refl 0 (by decide +kernel) (by decide +kernel)
  · rw [if_neg hm]
    have hs : s = false := by
      cases s
      · rfl
      · have h2 := abs_nonneg f m
        have h3 : f.abs m ≠ 0 := fun h => hm (abs_eq_zero h)
        simp only [signed, if_true] at h0
        grind
    subst hs
    rw [if_neg (by decide)]
    change 0 ≤ f.abs m at h0
    change f.abs m ≤ _ at h1
    show ∃ p, _ ∧ _ ∧ _ ∧ Rel _ _ (f.abs m) _
    obtain ⟨hq, h, hh, hi, hr⟩ := rootOf_near f.unit (units f.mant m)
    change (_ - f.abs m).abs ≤ _ at hr
    generalize rootOf f.unit (units f.mant m) = q at *
    have hh1 : h ≤ 1 / 2 ^ 152 := by
      have hle : (2 : Rat) ^ 152 ≤ 2 ^ (f.unit + 3) := by
        rw [← natCast_pow2, ← natCast_pow2]
        exact Rat.natCast_le_natCast.2 (Nat.pow_le_pow_right (by decide) (by have := hf.unit; omega))
      have := Rat.mul_le_mul_of_nonneg_left hle hh
      rw [hi] at this
      refine Rat.le_of_mul_le_mul_right (c := 2 ^ 152) ?_ (by decide +kernel)
      rw [show (1 : Rat) / 2 ^ 152 * 2 ^ 152 = 1 by decide +kernel]
      exact this
    have hR := root_rel h0 hh hh1 hr
    have hqb : q ≤ 2 ^ 64 := by
      rw [← Rat.not_lt]
      intro hc
      have hs := hR.size
      rw [Rat.abs_of_nonneg (square_nonneg q), Rat.abs_of_nonneg h0] at hs
      have k1 := Rat.mul_le_mul_of_nonneg_left (Rat.le_of_lt hc) hq
      have k2 := Rat.mul_le_mul_of_nonneg_left (Rat.le_of_lt hc) (show (0 : Rat) ≤ 2 ^ 64 by decide +kernel)
      have k3 := Rat.mul_le_mul_of_nonneg_left h1 (show (0 : Rat) ≤ 1 / 2 ^ 29 by decide +kernel)
      have k4 : (2 : Rat) ^ 126 + 1 / 2 ^ 29 * 2 ^ 126 + 1 / 2 ^ 270 < 2 ^ 64 * 2 ^ 64 := by decide +kernel
      grind
    obtain ⟨k, h3, h4⟩ := ofAbs_err hf false hq (Rat.le_trans hqb (by decide +kernel))
    rw [h3]
    refine ⟨f.abs k, rfl, abs_nonneg f k, ?_, ?_⟩
    · have := h4.size
      rw [Rat.abs_of_nonneg (abs_nonneg f k), Rat.abs_of_nonneg hq] at this
      have k3 := Rat.mul_le_mul_of_nonneg_left hqb (show (0 : Rat) ≤ uround by decide +kernel)
      have k4 : (2 : Rat) ^ 64 + uround * 2 ^ 64 + utiny ≤ 2 ^ 65 := by decide +kernel
      grind
    · have h5 := h4.square (t := 1 / 2 ^ 26) (s := 2 ^ 26) (by decide +kernel) (by decide +kernel) (by decide +kernel) (by decide +kernel)
      exact (hR.trans h5 (by decide +kernel)).weaken (by decide +kernel) (by decide +kernel)

/-! ## Signs -/

theorem ofAbs_nonneg {f : Fmt} {x r : Rat} (h : (f.ofAbs false x).val? f = some r) : 0 ≤ r := by
  obtain ⟨s, m, h1, rfl⟩ := num_of_val h
  unfold Fmt.ofAbs at h1
  simp only at h1
  split at h1
  · cases h1
    exact abs_nonneg f _
  · cases h1

theorem mul_self_nonneg {f : Fmt} {x : Fl} {a r : Rat} (hx : x.val? f = some a) (h : (f.mul x x).val? f = some r) : 0 ≤ r := by
  obtain ⟨s, m, rfl, rfl⟩ := num_of_val hx
  rw [mul_num, bne_self_eq_false] at h
  exact ofAbs_nonneg h

theorem add_nonneg_val {f : Fmt} {x y : Fl} {a b r : Rat} (hx : x.val? f = some a) (hy : y.val? f = some b) (ha : 0 ≤ a) (hb : 0 ≤ b)
    (h : (f.add x y).val? f = some r) : 0 ≤ r := by
  obtain ⟨s, m, rfl, rfl⟩ := num_of_val hx
  obtain ⟨t, n, rfl, rfl⟩ := num_of_val hy
  unfold Fmt.add at h
  simp only at h
  by_cases h0 : m = 0 ∧ n = 0
  · rw [if_pos h0, val_num, abs_zero_num] at h
    cases h
    cases (s && t) <;> decide
  · rw [if_neg h0, ofRat_nonneg (show _ ≤ _ by grind)] at h
    exact ofAbs_nonneg h

theorem to_nonneg {f g : Fmt} (hg : g.Good) {x : Fl} {a r : Rat} (hx : x.val? f = some a) (ha : 0 ≤ a)
    (h : (f.to g x).val? g = some r) : 0 ≤ r := by
  obtain ⟨s, m, rfl, rfl⟩ := num_of_val hx
  change (g.ofAbs s (f.abs m)).val? g = some r at h
  cases s
  · exact ofAbs_nonneg h
  · have h0 : f.abs m = 0 := by
      have := abs_nonneg f m
      simp only [signed, if_true] at ha
      grind
    rw [h0, ofAbs_exact (b := 0) (abs_zero_num g).symm (small_num hg (by rw [abs_zero_num]; decide +kernel)), val_num, abs_zero_num] at h
    cases h
    decide

end Verif.Ieee
