import Verif.Py.IeeeSqrt
/-!
# The square root is rounded correctly
-/
namespace Verif.Ieee

/-- `rootOf` in eighths of units. -/
def rootEighths (unit u : Nat) : Nat :=
  let r := root (u * 2 ^ (unit + 4))
  if r * r = u * 2 ^ (unit + 4) then 2 * r else 2 * r + 1

theorem rootOf_units (unit u : Nat) : rootOf unit u * 2 ^ unit = (rootEighths unit u : Rat) / 8 := by
  unfold rootOf rootEighths
  simp only
  generalize ((if root (u * 2 ^ (unit + 4)) * root (u * 2 ^ (unit + 4)) = u * 2 ^ (unit + 4) then 2 * root (u * 2 ^ (unit + 4))
    else 2 * root (u * 2 ^ (unit + 4)) + 1 : Nat) : Rat) = c
  rw [pow2_add unit 3, Rat.div_def, Rat.div_def, Rat.inv_mul_rev, show (2 : Rat) ^ 3 = 8 by decide +kernel]
  have := Rat.inv_mul_cancel _ (pow2_ne unit)
  generalize ((2 : Rat) ^ unit)⁻¹ = B at *
  generalize (2 : Rat) ^ unit = A at *
  grind

theorem square_le {a b : Nat} : a * a ≤ b * b ↔ a ≤ b := by
  constructor
  · intro h
    rcases Nat.lt_or_ge b a with h' | h'
    · exact absurd (Nat.mul_self_lt_mul_self h') (by omega)
    · exact h'
  · exact fun h => Nat.mul_self_le_mul_self h

/-- Compared with halves of units it is as the square root is. -/
theorem rootEighths_le (unit u t : Nat) : rootEighths unit u ≤ 4 * t ↔ u * 2 ^ (unit + 4) ≤ (2 * t) * (2 * t) := by
  unfold rootEighths
  simp only
  obtain ⟨h1, h2⟩ := root_spec (u * 2 ^ (unit + 4))
  generalize u * 2 ^ (unit + 4) = N at *
  generalize root N = r at *
  split
  · rename_i h
    rw [← h, square_le]
    omega
  · rename_i h
    constructor
    · intro h3
      have := Nat.mul_self_le_mul_self (show r + 1 ≤ 2 * t by omega)
      omega
    · intro h3
      have : r * r < (2 * t) * (2 * t) := by omega
      have : r < 2 * t := by
        rcases Nat.lt_or_ge r (2 * t) with h' | h'
        · exact h'
        · exact absurd (Nat.mul_self_le_mul_self h') (by omega)
      omega

theorem le_rootEighths (unit u t : Nat) : 4 * t ≤ rootEighths unit u ↔ (2 * t) * (2 * t) ≤ u * 2 ^ (unit + 4) := by
  unfold rootEighths
  simp only
  obtain ⟨h1, h2⟩ := root_spec (u * 2 ^ (unit + 4))
  generalize u * 2 ^ (unit + 4) = N at *
  generalize root N = r at *
  split
  · rename_i h
    rw [← h, square_le]
    omega
  · rename_i h
    constructor
    · intro h3
      have := Nat.mul_self_le_mul_self (show 2 * t ≤ r by omega)
      omega
    · intro h3
      have : 2 * t < r + 1 := by
        rcases Nat.lt_or_ge (2 * t) (r + 1) with h' | h'
        · exact h'
        · exact absurd (Nat.mul_self_le_mul_self h') (by omega)
      omega

/-- The middle between two numbers, squared. -/
def middle2 (f : Fmt) (m k : Nat) : Rat := ((f.abs m + f.abs k) / 2) * ((f.abs m + f.abs k) / 2)

theorem middle2_scaled (f : Fmt) (m k : Nat) : middle2 f m k * (2 ^ f.unit * 2 ^ f.unit) * 4 =
    (((units f.mant m + units f.mant k) * (units f.mant m + units f.mant k) : Nat) : Rat) := by
  unfold middle2
  simp only [Rat.natCast_mul, Rat.natCast_add, ← abs_mul]
  generalize (2 : Rat) ^ f.unit = P
  grind

theorem abs_scaled (f : Fmt) (m : Nat) : f.abs m * (2 ^ f.unit * 2 ^ f.unit) * 4 = ((units f.mant m * 2 ^ (f.unit + 2) : Nat) : Rat) := by
  rw [Rat.natCast_mul, ← abs_mul, natCast_pow2, pow2_add, show (2 : Rat) ^ 2 = 4 by decide +kernel]
  generalize (2 : Rat) ^ f.unit = P
  grind

theorem scaled_le (f : Fmt) {x y : Rat} (h : x * (2 ^ f.unit * 2 ^ f.unit) * 4 ≤ y * (2 ^ f.unit * 2 ^ f.unit) * 4) : x ≤ y := by
  have hP := pow2_posR f.unit
  have := Rat.mul_pos hP hP
  exact Rat.le_of_mul_le_mul_right (Rat.le_of_mul_le_mul_right h (by decide)) this

theorem one_rep {f : Fmt} (hf : f.Good) : ∃ b, b < f.top * 2 ^ f.mant ∧ units f.mant b = 2 ^ f.unit := by
  obtain ⟨b, hb⟩ := units_rep (p := f.mant) (m := 1) (Nat.one_lt_two_pow (by omega)) f.unit
  rw [Nat.one_mul] at hb
  refine ⟨b, small_num hf ?_, hb⟩
  unfold Fmt.abs
  rw [hb, natCast_pow2, Rat.div_def, Rat.mul_inv_cancel _ (pow2_ne _)]
  decide +kernel

/-- The square root of a finite number that is not negative is finite, and no number of the format is closer to the square root: the
square root is not beyond the middle between the result and any other number. -/
theorem sqrt_nearest {f : Fmt} (hf : f.Good) {m : Nat} (hm : m < f.top * 2 ^ f.mant) :
    ∃ r, r < f.top * 2 ^ f.mant ∧ f.sqrt (.num false m) = .num false r ∧
      ∀ k, (r < k → f.abs m ≤ middle2 f r k) ∧ (k < r → middle2 f r k ≤ f.abs m) := by
  by_cases h0 : m = 0
  · subst h0
    refine ⟨0, hm, by simp [Fmt.sqrt], fun k => ⟨fun _ => ?_, fun h => absurd h (by omega)⟩⟩
    rw [abs_zero_num]
    exact square_nonneg _
  · have hq : 0 ≤ rootOf f.unit (units f.mant m) * 2 ^ f.unit := by
      rw [rootOf_units]
      have : (0 : Rat) ≤ (rootEighths f.unit (units f.mant m) : Nat) := Rat.natCast_nonneg
      grind
    have near := roundUnits_nearest f.mant hq
    have fin : roundUnits f.mant (rootOf f.unit (units f.mant m) * 2 ^ f.unit) < f.top * 2 ^ f.mant := by
      have key : ∀ b, b < f.top * 2 ^ f.mant → units f.mant m * 2 ^ f.unit ≤ units f.mant b * units f.mant b →
          roundUnits f.mant (rootOf f.unit (units f.mant m) * 2 ^ f.unit) < f.top * 2 ^ f.mant := by
        intro b hb h
        refine Nat.lt_of_le_of_lt (roundUnits_le hq ?_) hb
        rw [rootOf_units]
        have : rootEighths f.unit (units f.mant m) ≤ 4 * (2 * units f.mant b) := by
          rw [rootEighths_le, Nat.pow_add]
          have e : 2 * (2 * units f.mant b) * (2 * (2 * units f.mant b)) = 16 * (units f.mant b * units f.mant b) := by grind
          rw [e, ← Nat.mul_assoc]
          omega
        have := Rat.natCast_le_natCast.2 this
        rw [Rat.natCast_mul, Rat.natCast_mul, show ((4 : Nat) : Rat) = 4 from rfl, show ((2 : Nat) : Rat) = 2 from rfl] at this
        grind
      obtain ⟨b, hb, e⟩ := one_rep hf
      rcases Nat.le_total (units f.mant m) (2 ^ f.unit) with h | h
      · exact key b hb (by rw [e]; exact Nat.mul_le_mul_right _ h)
      · exact key m hm (Nat.mul_le_mul_left _ h)
    refine ⟨_, fin, ?_, fun k => ?_⟩
    · show (if m = 0 then _ else if false = true then _ else f.ofAbs false _) = _
      rw [if_neg h0, if_neg (by decide)]
      exact if_pos fin
    · have nk := near k
      generalize roundUnits f.mant (rootOf f.unit (units f.mant m) * 2 ^ f.unit) = r at *
      rw [rootOf_units] at nk
      refine ⟨fun h => scaled_le f ?_, fun h => scaled_le f ?_⟩
      · have hu := Rat.natCast_lt_natCast.2 (units_mono (p := f.mant) h)
        have h1 : rootEighths f.unit (units f.mant m) ≤ 4 * (units f.mant r + units f.mant k) := by
          refine Rat.natCast_le_natCast.1 ?_
          rw [Rat.natCast_mul, Rat.natCast_add, show ((4 : Nat) : Rat) = 4 from rfl]
          unfold dist at nk
          generalize ((units f.mant r : Nat) : Rat) = R at *
          generalize ((units f.mant k : Nat) : Rat) = K at *
          generalize ((rootEighths f.unit (units f.mant m) : Nat) : Rat) = C at *
          grind
        rw [rootEighths_le] at h1
        rw [middle2_scaled, abs_scaled]
        refine Rat.natCast_le_natCast.2 ?_
        have e : ∀ t : Nat, 2 * t * (2 * t) = 4 * (t * t) := by intro t; grind
        rw [e, Nat.pow_add, ← Nat.mul_assoc (units f.mant m)] at h1
        rw [Nat.pow_add, ← Nat.mul_assoc (units f.mant m)]
        omega
      · have hu := Rat.natCast_lt_natCast.2 (units_mono (p := f.mant) h)
        have h1 : 4 * (units f.mant r + units f.mant k) ≤ rootEighths f.unit (units f.mant m) := by
          refine Rat.natCast_le_natCast.1 ?_
          rw [Rat.natCast_mul, Rat.natCast_add, show ((4 : Nat) : Rat) = 4 from rfl]
          unfold dist at nk
          generalize ((units f.mant r : Nat) : Rat) = R at *
          generalize ((units f.mant k : Nat) : Rat) = K at *
          generalize ((rootEighths f.unit (units f.mant m) : Nat) : Rat) = C at *
          grind
        rw [le_rootEighths] at h1
        rw [middle2_scaled, abs_scaled]
        refine Rat.natCast_le_natCast.2 ?_
        have e : ∀ t : Nat, 2 * t * (2 * t) = 4 * (t * t) := by intro t; grind
        rw [e, Nat.pow_add, ← Nat.mul_assoc (units f.mant m)] at h1
        rw [Nat.pow_add, ← Nat.mul_assoc (units f.mant m)]
        omega

end Verif.Ieee
