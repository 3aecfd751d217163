import Verif.Borealis.Model.Header
import Verif.Borealis.SpecHeader
import Verif.Borealis.Lemmas.Scale
import Verif.Py.IeeeNearest
/-!
# Lemmas about numbers in headers
-/
namespace Verif.Ieee

theorem scale_comm (c x P : Rat) : 1 / c * x * P = x * P / c := by
  rw [Rat.div_def, Rat.one_mul, Rat.div_def, Rat.mul_comm c⁻¹ x, Rat.mul_assoc, Rat.mul_assoc, Rat.mul_comm P]

/-- Rounding to float64. -/
theorem ofAbs_err64 (neg : Bool) {x : Rat} (h0 : 0 ≤ x) (h : x ≤ 2 ^ 126) :
    ∃ m, b64.ofAbs neg x = .num neg m ∧ Rel (1 / 2 ^ 53) (1 / 2 ^ 1075) x (b64.abs m) := by
  refine ⟨_, (ofAbs_num h0 h good64.le good64.top neg).1, ?_⟩
  have hP := pow2_posR b64.unit
  have ha := abs_mul b64 (roundUnits b64.mant (x * 2 ^ b64.unit))
  have h0' : 0 ≤ x * 2 ^ b64.unit := Rat.mul_nonneg h0 (Rat.le_of_lt hP)
  have key : x * 2 ^ b64.unit - (units b64.mant (roundUnits b64.mant (x * 2 ^ b64.unit)) : Nat) ≤ (1 / 2 ^ 53 * x + 1 / 2 ^ 1075) * 2 ^ b64.unit ∧
      (units b64.mant (roundUnits b64.mant (x * 2 ^ b64.unit)) : Nat) - x * 2 ^ b64.unit ≤ (1 / 2 ^ 53 * x + 1 / 2 ^ 1075) * 2 ^ b64.unit := by
    have e1 : (1 : Rat) / 2 ^ 1075 * 2 ^ b64.unit = 1 / 2 := by decide +kernel
    have e2 : (1 / 2 ^ 53 * x + 1 / 2 ^ 1075) * 2 ^ b64.unit = x * 2 ^ b64.unit / 2 ^ 53 + 1 / 2 := by
      rw [Rat.add_mul, e1, scale_comm]
    rw [e2]
    generalize x * 2 ^ b64.unit = X at *
    have h3 : 0 ≤ X / 2 ^ 53 := by
      rw [Rat.div_def]
      exact Rat.mul_nonneg h0' (by decide +kernel)
    by_cases hX : (2 : Rat) ^ b64.mant ≤ X
    · have := roundUnits_relative hX
      rw [show b64.mant + 1 = 53 from rfl] at this
      grind
    · have : X < 2 ^ (b64.mant + 1 + 0) := by
        have : (2 : Rat) ^ b64.mant ≤ 2 ^ (b64.mant + 1 + 0) := by decide +kernel
        grind
      have := roundUnits_error h0' this
      rw [Rat.pow_zero] at this
      grind
  rw [← ha] at key
  generalize b64.abs _ = y at key ⊢
  unfold Rel
  rw [Rat.abs_of_nonneg h0]
  have h3' : (x - y) * 2 ^ b64.unit ≤ (1 / 2 ^ 53 * x + 1 / 2 ^ 1075) * 2 ^ b64.unit := by grind
  have h4' : (y - x) * 2 ^ b64.unit ≤ (1 / 2 ^ 53 * x + 1 / 2 ^ 1075) * 2 ^ b64.unit := by grind
  have := Rat.le_of_mul_le_mul_right h3' hP
  have := Rat.le_of_mul_le_mul_right h4' hP
  have := abs_cases (y - x)
  grind

/-- Rounding gives a nearest number. -/
theorem ofAbs_nearest {f : Fmt} (hf : f.Good) (neg : Bool) {x : Rat} (h0 : 0 ≤ x) (h : x ≤ 2 ^ 126) :
    ∃ m, f.ofAbs neg x = .num neg m ∧ ∀ k, (f.abs m - x).abs ≤ (f.abs k - x).abs := by
  refine ⟨_, (ofAbs_num h0 h hf.le hf.top neg).1, fun k => ?_⟩
  have hP := pow2_posR f.unit
  have := roundUnits_nearest f.mant (Rat.mul_nonneg h0 (Rat.le_of_lt hP)) k
  rw [← abs_mul, ← abs_mul] at this
  generalize f.abs (roundUnits f.mant (x * 2 ^ f.unit)) = y at this ⊢
  generalize f.abs k = z at this ⊢
  refine Rat.le_of_mul_le_mul_right (c := 2 ^ f.unit) ?_ hP
  generalize (2 : Rat) ^ f.unit = P at *
  have h1 : (y - x).abs * P = ((y - x) * P).abs := by rw [abs_prod, Rat.abs_of_nonneg (Rat.le_of_lt hP)]
  have h2 : (z - x).abs * P = ((z - x) * P).abs := by rw [abs_prod, Rat.abs_of_nonneg (Rat.le_of_lt hP)]
  rw [h1, h2]
  unfold dist at this
  have := abs_cases ((y - x) * P)
  have := abs_cases ((z - x) * P)
  grind

/-- The remainder of a division by one. -/
theorem fmod_one {f : Fmt} (hf : f.Good) {x : Fl} {a : Rat} (hx : x.val? f = some a) (h0 : 0 ≤ a) :
    (f.fmod x (f.ofRat 1)).val? f = some (a - a.floor) := by
  obtain ⟨s, m, rfl, rfl⟩ := num_of_val hx
  have h1 : (f.ofRat 1).val? f = some 1 := by
    have := ofRat_int hf (n := 1) (by have := Nat.pow_le_pow_right (n := 2) (by decide) hf.mant; rw [Nat.pow_succ]; omega) (by decide)
    exact this
  obtain ⟨t, n, ht, hn⟩ := num_of_val h1
  have hn1 : f.abs n = 1 := by
    have := abs_nonneg f n
    cases t
    · exact hn.symm
    · simp only [signed, if_true] at hn
      grind
  have hu : units f.mant n = 2 ^ f.unit := by
    have := abs_mul f n
    rw [hn1, Rat.one_mul, ← natCast_pow2] at this
    exact (Rat.natCast_inj.1 this).symm
  have hn0 : n ≠ 0 := by
    rintro rfl
    rw [units_zero] at hu
    have := pow2_pos f.unit
    omega
  rw [ht, fmod_num hn0, hu]
  -- the remainder is a number of the format
  have hrep : ∃ b, units f.mant b = units f.mant m % 2 ^ f.unit := by
    obtain ⟨e, q, -, -, hq, hm⟩ := units_form f.mant m
    rw [hm]
    by_cases he : f.unit ≤ e
    · obtain ⟨i, rfl⟩ := Nat.le.dest he
      refine ⟨0, ?_⟩
      rw [units_zero, Nat.pow_add, ← Nat.mul_assoc, Nat.mul_comm q, Nat.mul_assoc, Nat.mul_mod_right]
    · obtain ⟨i, hi⟩ := Nat.le.dest (Nat.le_of_not_le he)
      rw [← hi, Nat.pow_add, Nat.mul_comm (2 ^ e), Nat.mul_mod_mul_right]
      exact units_rep (Nat.lt_of_le_of_lt (Nat.mod_le _ _) hq) e
  obtain ⟨b, hb⟩ := hrep
  rw [← hb, roundUnits_exact, val_num]
  -- its value
  have hP := pow2_posR f.unit
  have habs : f.abs b = f.abs m - (units f.mant m / 2 ^ f.unit : Nat) := by
    have h2 := abs_mul f b
    have h3 := abs_mul f m
    have h4 : ((units f.mant m : Nat) : Rat) = 2 ^ f.unit * (units f.mant m / 2 ^ f.unit : Nat) + (units f.mant b : Nat) := by
      rw [hb, ← natCast_pow2, ← Rat.natCast_mul, ← Rat.natCast_add, Nat.div_add_mod]
    rw [← h2, ← h3] at h4
    have : f.abs b * 2 ^ f.unit = (f.abs m - (units f.mant m / 2 ^ f.unit : Nat)) * 2 ^ f.unit := by grind
    exact Rat.le_antisymm (Rat.le_of_mul_le_mul_right (by rw [this]; exact Rat.le_refl) hP)
      (Rat.le_of_mul_le_mul_right (by rw [this]; exact Rat.le_refl) hP)
  have hlt : f.abs b < 1 := by
    have h2 : units f.mant b < 2 ^ f.unit := by rw [hb]; exact Nat.mod_lt _ (pow2_pos _)
    rw [← hu] at h2
    have h3 := Rat.natCast_lt_natCast.2 h2
    rw [← abs_mul, ← abs_mul, hn1] at h3
    exact Rat.lt_of_mul_lt_mul_right h3 (Rat.le_of_lt hP)
  have hfl : (f.abs m).floor = ((units f.mant m / 2 ^ f.unit : Nat) : Int) := by
    have := abs_nonneg f b
    refine floor_eq ?_ ?_ <;> rw [Rat.intCast_natCast] <;> grind
  cases s
  · show some (f.abs b) = some (f.abs m - ((f.abs m).floor : Rat))
    rw [habs, hfl, Rat.intCast_natCast]
  · have hz : f.abs m = 0 := by
      have := abs_nonneg f m
      simp only [signed, if_true] at h0
      grind
    have hm0 := abs_eq_zero hz
    subst hm0
    rw [units_zero, Nat.zero_mod] at hb
    have := units_eq_zero.1 hb
    subst this
    rw [abs_zero_num]
    decide +kernel

theorem mul_comm_num (f : Fmt) (x y : Fl) : f.mul x y = f.mul y x := by
  have hc : ∀ s t : Bool, (s != t) = (t != s) := by decide
  cases x with
  | num s a => cases y with
    | num t b => simp only [Fmt.mul, hc s t, Rat.mul_comm]
    | inf t => simp only [Fmt.mul, hc s t]
    | nan => rfl
  | inf s => cases y with
    | num t b => simp only [Fmt.mul, hc s t]
    | inf t => simp only [Fmt.mul, hc s t]
    | nan => rfl
  | nan => cases y <;> rfl

theorem mul_nonneg_val {f : Fmt} (hf : f.Good) {x y : Fl} {a b r : Rat} (hx : x.val? f = some a) (hy : y.val? f = some b)
    (ha : 0 ≤ a) (hb : 0 ≤ b) (h : (f.mul x y).val? f = some r) : 0 ≤ r := by
  by_cases ha0 : a = 0
  · subst ha0
    rw [mul_comm_num, mul_zero_val hf hy hx] at h
    cases h
    exact ha
  by_cases hb0 : b = 0
  · subst hb0
    rw [mul_zero_val hf hx hy] at h
    cases h
    exact hb
  obtain ⟨s, m, rfl, rfl⟩ := num_of_val hx
  obtain ⟨t, n, rfl, rfl⟩ := num_of_val hy
  have := abs_nonneg f m
  have := abs_nonneg f n
  cases s
  · cases t
    · exact ofAbs_nonneg h
    · simp only [signed, if_true] at hb hb0
      grind
  · simp only [signed, if_true] at ha ha0
    grind

/-- Rounding towards zero. -/
theorem trunc_spec {f : Fmt} {x : Fl} {v : Rat} (h : x.val? f = some v) : ∃ m, x.trunc? f = some m ∧ Bor.Truncated v m := by
  unfold Fl.trunc?
  rw [h]
  refine ⟨v.num.tdiv v.den, rfl, ?_⟩
  rcases Rat.le_total (a := 0) (b := v) with h0 | h0
  · have e : v.num.tdiv v.den = v.floor := by
      rw [Rat.floor_def, Int.tdiv_eq_ediv_of_nonneg (Rat.num_nonneg.2 h0)]
    rw [e]
    have h1 := Rat.floor_le v
    have h2 := Rat.lt_floor_add_one v
    rw [Rat.intCast_add, show ((1 : Int) : Rat) = 1 from rfl] at h2
    refine ⟨fun _ => ⟨h1, h2⟩, fun h3 => ?_⟩
    have : v = 0 := by grind
    subst this
    decide +kernel
  · have e : v.num.tdiv v.den = -(-v).floor := by
      have : v.num = -(-v).num := by rw [Rat.neg_num, Int.neg_neg]
      rw [this, Int.neg_tdiv, Rat.floor_def, Rat.neg_den, Int.tdiv_eq_ediv_of_nonneg (Rat.num_nonneg.2 (by grind))]
    rw [e]
    have h1 := Rat.floor_le (-v)
    have h2 := Rat.lt_floor_add_one (-v)
    rw [Rat.intCast_add, show ((1 : Int) : Rat) = 1 from rfl] at h2
    refine ⟨fun h3 => ?_, fun _ => ⟨by rw [Rat.intCast_neg]; grind, by rw [Rat.intCast_neg]; grind⟩⟩
    have : v = 0 := by grind
    subst this
    decide +kernel

/-- Rounding to the nearest integer. -/
theorem round_spec {f : Fmt} {x : Fl} {v : Rat} (h : x.val? f = some v) : ∃ m, x.round? f = some m ∧ Bor.NearestInt v m := by
  obtain ⟨s, a, rfl, rfl⟩ := num_of_val h
  refine ⟨_, rfl, ?_⟩
  have hP := pow2_posR f.unit
  have hd := pow2_pos f.unit
  obtain ⟨h1, h2⟩ := halfEven_close (n := units f.mant a) hd
  have h3 := halfEven_tie (n := units f.mant a) hd
  have ha := abs_mul f a
  generalize halfEven (units f.mant a) (2 ^ f.unit) = q at *
  have key : (q - f.abs a).abs ≤ 1 / 2 ∧ ((q - f.abs a).abs = 1 / 2 → q % 2 = 0) := by
    have e1 := Rat.natCast_le_natCast.2 h1
    have e2 := Rat.natCast_le_natCast.2 h2
    have e3 : ∀ {m n : Nat}, (m : Rat) = n → m = n := fun h => Rat.natCast_inj.1 h
    simp only [Rat.natCast_add, Rat.natCast_mul, natCast_pow2, ← ha] at e1 e2
    have c2 : ((2 : Nat) : Rat) = 2 := rfl
    rw [c2] at e1 e2
    have b1 : (f.abs a - q) * 2 ^ f.unit ≤ 1 / 2 * 2 ^ f.unit := by grind
    have b2 : (q - f.abs a) * 2 ^ f.unit ≤ 1 / 2 * 2 ^ f.unit := by grind
    have b1 := Rat.le_of_mul_le_mul_right b1 hP
    have b2 := Rat.le_of_mul_le_mul_right b2 hP
    refine ⟨by have := abs_cases (q - f.abs a); grind, fun ht => h3 ?_⟩
    rcases abs_cases (q - f.abs a) with ⟨-, h⟩ | ⟨-, h⟩
    · right
      apply e3
      simp only [Rat.natCast_add, Rat.natCast_mul, natCast_pow2, ← ha]
      rw [c2]
      have : (q : Rat) = f.abs a + 1 / 2 := by grind
      rw [this]
      grind
    · left
      apply e3
      simp only [Rat.natCast_add, Rat.natCast_mul, natCast_pow2, ← ha]
      rw [c2]
      have : (q : Rat) = f.abs a - 1 / 2 := by grind
      rw [this]
      grind
  unfold Bor.NearestInt
  cases s
  · simp only [signed, Bool.false_eq_true, if_false, Rat.intCast_natCast]
    exact ⟨key.1, fun h => by have := key.2 h; omega⟩
  · simp only [signed, if_true, Rat.intCast_neg, Rat.intCast_natCast]
    have e : (-(q : Rat) - -f.abs a).abs = (q - f.abs a).abs := by
      rw [← Rat.abs_neg]
      congr 1
      grind
    rw [e]
    exact ⟨key.1, fun h => by have := key.2 h; omega⟩

end Verif.Ieee

namespace Verif.Bor
open Verif Verif.Ieee

theorem int16Of_fits {bad : Option Int → BitVec 16} {n : Int} (h1 : -2 ^ 15 ≤ n) (h2 : n < 2 ^ 15) :
    (int16Of bad (some n)).toInt = n := by
  unfold int16Of
  simp only
  rw [if_pos (by omega), BitVec.toInt_ofInt]
  exact Int.bmod_eq_of_le (by omega) (by omega)

theorem int32Of_fits {bad : Option Int → BitVec 32} {n : Int} (h1 : -2 ^ 31 ≤ n) (h2 : n < 2 ^ 31) :
    (int32Of bad (some n)).toInt = n := by
  unfold int32Of
  simp only
  rw [if_pos (by omega), BitVec.toInt_ofInt]
  exact Int.bmod_eq_of_le (by omega) (by omega)

/-- An integer between others, as rational numbers. -/
theorem int_between {m a b : Int} (h1 : (a : Rat) < m) (h2 : (m : Rat) < b) : a < m ∧ m < b :=
  ⟨Rat.intCast_lt_intCast.1 h1, Rat.intCast_lt_intCast.1 h2⟩

theorem Truncated.near {x : Rat} {m : Int} (h : Truncated x m) : ((m : Rat) - x).abs < 1 ∧ (m : Rat).abs ≤ x.abs := by
  obtain ⟨h1, h2⟩ := h
  have a1 := abs_cases ((m : Rat) - x)
  have a2 := abs_cases (m : Rat)
  rcases Rat.le_total (a := 0) (b := x) with h | h
  · obtain ⟨h3, h4⟩ := h1 h
    rw [Rat.abs_of_nonneg h]
    have : 0 ≤ m := by
      have : ((-1 : Int) : Rat) < m := by
        rw [show ((-1 : Int) : Rat) = -1 from rfl]
        grind
      have := Rat.intCast_lt_intCast.1 this
      omega
    have : (0 : Rat) ≤ m := by
      have := Rat.intCast_le_intCast.2 this
      exact this
    grind
  · obtain ⟨h3, h4⟩ := h2 h
    rw [Rat.abs_of_nonpos h]
    have : m ≤ 0 := by
      have : (m : Rat) < (1 : Int) := by
        rw [show ((1 : Int) : Rat) = 1 from rfl]
        grind
      have := Rat.intCast_lt_intCast.1 this
      omega
    have : (m : Rat) ≤ 0 := by
      have := Rat.intCast_le_intCast.2 this
      exact this
    grind

theorem small_int {m : Int} {x : Rat} (k : Nat) (h : (m : Rat).abs ≤ x.abs) (hx : x.abs < 2 ^ k) : -2 ^ k < m ∧ m < 2 ^ k := by
  have h1 : (m : Rat).abs < 2 ^ k := by grind
  rw [int_abs, ← natCast_pow2] at h1
  have := Rat.natCast_lt_natCast.1 h1
  have e : ((2 ^ k : Nat) : Int) = 2 ^ k := by rw [Int.natCast_pow]; rfl
  omega

theorem truncOf_eq {bad : Option Int → BitVec 16} {b : BitVec 32} {x : Rat} (hb : IsF32 b x) (hx : x.abs < 2 ^ 15) :
    Truncated x (truncOf bad (.flt b.toNat)).toInt := by
  obtain ⟨m, h1, h2⟩ := trunc_spec ((isF32_iff _ _).1 hb)
  have := small_int 15 h2.near.2 hx
  unfold truncOf single
  rw [h1, int16Of_fits (by omega) (by omega)]
  exact h2

theorem floorOf_eq {bad : Option Int → BitVec 16} {b : BitVec 32} {x : Rat} (hb : IsF32 b x) (h0 : 0 ≤ x) (hx : x < 2 ^ 15) :
    (floorOf bad (.flt b.toNat)).toInt = x.floor := by
  have h1 : 0 ≤ x.floor := Rat.le_floor_iff.2 h0
  have h2 : x.floor < 2 ^ 15 := Rat.floor_lt_iff.2 (by rw [show ((2 ^ 15 : Int) : Rat) = 2 ^ 15 by decide +kernel]; exact hx)
  unfold floorOf single Fl.floor?
  rw [(isF32_iff _ _).1 hb]
  exact int16Of_fits (by omega) (by omega)

theorem roundOf_eq {b : BitVec 32} {x : Rat} (hb : IsF32 b x) : ∃ m, roundOf (.flt b.toNat) = .ok m ∧ NearestInt x m := by
  obtain ⟨m, h1, h2⟩ := round_spec ((isF32_iff _ _).1 hb)
  refine ⟨m, ?_, h2⟩
  unfold roundOf single
  rw [h1]

theorem NearestInt.fits {x : Rat} {m : Int} (h : NearestInt x m) (hx : x.abs ≤ 32767) : Is16 m := by
  have h1 := h.1
  have a1 := abs_cases ((m : Rat) - x)
  have a2 := abs_cases x
  obtain ⟨h3, h4⟩ := int_between (m := m) (a := -32768) (b := 32768) (by
    rw [show ((-32768 : Int) : Rat) = -32768 from rfl]; grind) (by rw [show ((32768 : Int) : Rat) = 32768 from rfl]; grind)
  unfold Is16
  omega

/-- The microseconds of a time. -/
theorem microsOf_eq {bad : Option Int → BitVec 32} (wide : Bool) {b : BitVec 32} {x : Rat} (hb : IsF32 b x) (h0 : 0 ≤ x)
    (hx : x < 2 ^ 15) : ∃ us, (microsOf bad wide (.flt b.toNat)).toInt = us ∧ 0 ≤ us ∧ us < 1000000 ∧
      (us : Rat) ≤ (x - x.floor) * 1000000 + 1 / 16 ∧ (x - x.floor) * 1000000 < us + 1 + 1 / 16 := by
  have hbig : x.abs ≤ 2 ^ 126 := by
    rw [Rat.abs_of_nonneg h0]
    exact Rat.le_trans (Rat.le_of_lt hx) (by decide +kernel)
  have h1 := widen_val wide ((isF32_iff _ _).1 hb) hbig
  have h2 := fmod_one (precision_good wide) h1 h0
  have h3 : ((precision wide).ofRat ((1000000 : Int) : Rat)).val? (precision wide) = some 1000000 := by
    cases wide <;> decide +kernel
  have f1 := Rat.floor_le x
  have f2 := Rat.lt_floor_add_one x
  rw [Rat.intCast_add, show ((1 : Int) : Rat) = 1 from rfl] at f2
  -- the fraction is a float32 below one
  have hfrac : x - x.floor ≤ 1 - 1 / 2 ^ 24 := by
    have g2 := fmod_one good32 ((isF32_iff _ _).1 hb) h0
    obtain ⟨s, m, -, hm⟩ := num_of_val g2
    have hm' : x - x.floor = b32.abs m := by
      have := abs_nonneg b32 m
      cases s
      · exact hm
      · simp only [signed, if_true] at hm
        grind
    rw [hm']
    have e1 : b32.abs 0x3f800000 = 1 := by decide +kernel
    have f2 : b32.abs m < 1 := by
      rw [← hm']
      grind
    have e2 : b32.abs 0x3f7fffff = 1 - 1 / 2 ^ 24 := by decide +kernel
    rw [← e2]
    refine (abs_le b32).2 ?_
    rcases Nat.lt_or_ge m 0x3f800000 with h | h
    · omega
    · have := (abs_le b32).2 h
      rw [e1] at this
      grind
  have hr1 : (x - x.floor) * 1000000 ≤ 999999 + 15 / 16 + 1 / 64 := by
    have e : (1 : Rat) / 2 ^ 24 = 1 / 16777216 := by decide +kernel
    rw [e] at hfrac
    grind
  have hr0 : 0 ≤ (x - x.floor) * 1000000 := by grind
  obtain ⟨r, h4, h5⟩ := mul_err (precision_good wide) h2 h3 (by
    rw [Rat.abs_of_nonneg hr0]
    have : (1000000 : Rat) ≤ 2 ^ 126 := by decide +kernel
    grind)
  obtain ⟨us, h6, h7⟩ := trunc_spec h4
  unfold Rel at h5
  rw [Rat.abs_of_nonneg hr0, show uround = 1 / 16777216 by decide +kernel] at h5
  have ht : utiny ≤ 1 / 2 ^ 100 := by decide +kernel
  have ht' : (1 : Rat) / 2 ^ 100 ≤ 1 / 100000000000 := by decide +kernel
  have a1 := abs_cases (r - (x - x.floor) * 1000000)
  have e : (1 : Rat) / 2 ^ 24 = 1 / 16777216 := by decide +kernel
  rw [e] at hfrac
  have hrlt : r < 1000000 := by grind
  have hrn : 0 ≤ r := mul_nonneg_val (precision_good wide) h2 h3 (by grind) (by decide +kernel) h4
  obtain ⟨h8, h9⟩ := h7.1 hrn
  have hus : 0 ≤ us ∧ us < 1000000 := by
    have := int_between (m := us) (a := -1) (b := 1000000) (by
      rw [show ((-1 : Int) : Rat) = -1 from rfl]; grind) (by rw [show ((1000000 : Int) : Rat) = 1000000 from rfl]; grind)
    omega
  refine ⟨us, ?_, hus.1, hus.2, by grind, by grind⟩
  unfold microsOf single
  simp only
  rw [h6, int32Of_fits (by omega) (by omega)]

theorem period_val : (fl64 1000000).val? b64 = some 1000000 := by decide +kernel

theorem quotient_nonneg {a b : Rat} (ha : 0 ≤ a) (hb : 0 < b) : 0 ≤ a / b := by
  rw [Rat.div_def]
  exact Rat.mul_nonneg ha (Rat.le_of_lt (Rat.inv_pos.2 hb))

/-- The separation of samples. -/
theorem periodOf_eq {bad : Option Int → BitVec 16} {b : BitVec 64} {x : Rat} (hb : IsF64 b x) (h0 : 0 < x)
    (hx : 1000000 < 32767 * x) : Separation x (periodOf bad (.flt b.toNat)).toInt := by
  have hv := (isF64_iff _ _).1 hb
  obtain ⟨s, m, hs, rfl⟩ := num_of_val hv
  have hm := abs_nonneg b64 m
  have hs' : s = false := by
    cases s
    · rfl
    · simp only [signed, if_true] at h0
      grind
  subst hs'
  simp only [signed, Bool.false_eq_true, if_false] at h0 hx ⊢
  obtain ⟨t, n, ht, hn⟩ := num_of_val period_val
  have ht' : t = false := by
    cases t
    · rfl
    · have := abs_nonneg b64 n
      simp only [signed, if_true] at hn
      grind
  subst ht'
  have hn' : b64.abs n = 1000000 := hn.symm
  have hm0 : m ≠ 0 := by
    rintro rfl
    rw [abs_zero_num] at h0
    grind
  generalize hV : (1000000 : Rat) / b64.abs m = v
  have hvx : v * b64.abs m = 1000000 := by
    rw [← hV]
    exact Rat.div_mul_cancel (Rat.ne_of_gt h0)
  have hv0 : 0 ≤ v := by
    rw [← hV]
    exact quotient_nonneg (by decide +kernel) h0
  have hv1 : v < 32767 := by
    refine Rat.lt_of_mul_lt_mul_right (c := b64.abs m) ?_ hm
    rw [hvx]
    exact hx
  have hbig : v ≤ 2 ^ 126 := Rat.le_trans (Rat.le_of_lt hv1) (by decide +kernel)
  have hdiv : b64.div (fl64 1000000) (b64.ofBits b.toNat) = b64.ofAbs false v := by
    rw [ht, hs, div_num hm0, hn', hV]
    rfl
  obtain ⟨k, h1, h2⟩ := ofAbs_err64 false hv0 hbig
  obtain ⟨k', h1', h3⟩ := ofAbs_nearest good64 false hv0 hbig
  rw [h1] at h1'
  cases h1'
  have hk := abs_nonneg b64 k
  -- integers below are not passed
  have hfl : (v.floor : Rat) ≤ b64.abs k := by
    have f1 := Rat.floor_le v
    have f0 : 0 ≤ v.floor := Rat.le_floor_iff.2 hv0
    have f3 : v.floor < 32767 := Rat.floor_lt_iff.2 hv1
    have h4 := ofRat_int good64 (n := v.floor) (Nat.lt_of_lt_of_le (m := 32767) (by omega) (by decide)) (Nat.le_trans (m := 32767) (by omega) (by decide))
    obtain ⟨u, j, -, hj⟩ := num_of_val h4
    have h5 := abs_nonneg b64 j
    have h6 : (0 : Rat) ≤ v.floor := Rat.intCast_le_intCast.2 f0
    have hj' : (v.floor : Rat) = b64.abs j := by
      cases u
      · exact hj
      · simp only [signed, if_true] at hj
        grind
    have h7 := h3 j
    rw [hj'] at f1 ⊢
    have := abs_cases (b64.abs k - v)
    have := abs_cases (b64.abs j - v)
    grind
  obtain ⟨r, h8, h9⟩ := trunc_spec (f := b64) (x := .num false k) (v := b64.abs k) rfl
  obtain ⟨h10, h11⟩ := h9.1 hk
  unfold Rel at h2
  rw [Rat.abs_of_nonneg hv0] at h2
  have a1 := abs_cases (b64.abs k - v)
  have t1 : (1 : Rat) / 2 ^ 53 = 1 / 9007199254740992 := by decide +kernel
  have t2 : (1 : Rat) / 2 ^ 1075 ≤ 1 / 9007199254740992 := by decide +kernel
  have t3 : (1 : Rat) / 2 ^ 38 = 1 / 274877906944 := by decide +kernel
  rw [t1] at h2
  generalize (1 : Rat) / 2 ^ 1075 = tiny at h2 t2
  have hr : 0 ≤ r ∧ r < 32768 := by
    have := int_between (m := r) (a := -1) (b := 32768) (by
      rw [show ((-1 : Int) : Rat) = -1 from rfl]; grind) (by rw [show ((32768 : Int) : Rat) = 32768 from rfl]; grind)
    omega
  have hres : (periodOf bad (.flt b.toNat)).toInt = r := by
    unfold periodOf double
    rw [hdiv, h1, h8]
    exact int16Of_fits (by omega) (by omega)
  rw [hres]
  unfold Separation
  rw [hV, t3]
  have f2 := Rat.lt_floor_add_one v
  rw [Rat.intCast_add, show ((1 : Int) : Rat) = 1 from rfl] at f2
  have hfr : v.floor ≤ r := by
    have h12 : (v.floor : Rat) < ((r + 1 : Int) : Rat) := by
      rw [Rat.intCast_add, show ((1 : Int) : Rat) = 1 from rfl]
      grind
    have := Rat.intCast_lt_intCast.1 h12
    omega
  have := Rat.intCast_le_intCast.2 hfr
  grind

/-- The quotient of two numbers. -/
theorem quotOf_eq {bad : Option Int → BitVec 32} {b c : BitVec 32} {x y : Rat} (hb : IsF32 b x) (hc : IsF32 c y) (hy : y ≠ 0)
    (hx : (x / y).abs ≤ 2 ^ 30) :
    ((((quotOf bad (.flt b.toNat) (.flt c.toNat)).toInt : Int) : Rat) - x / y).abs < 1 + (x / y).abs / 2 ^ 24 + 1 / 2 ^ 150 := by
  obtain ⟨r, h1, h2⟩ := div_err good32 ((isF32_iff _ _).1 hb) ((isF32_iff _ _).1 hc) hy (Rat.le_trans hx (by decide +kernel))
  obtain ⟨m, h3, h4⟩ := trunc_spec h1
  obtain ⟨h5, h6⟩ := h4.near
  have h7 := h2.size
  have e1 : uround = 1 / 16777216 := by decide +kernel
  have e2 : utiny ≤ 1 := by decide +kernel
  have e3 : (2 : Rat) ^ 30 = 1073741824 := by decide +kernel
  have e4 : (2 : Rat) ^ 31 = 2147483648 := by decide +kernel
  have e5 : utiny = 1 / 2 ^ 150 := rfl
  rw [e3] at hx
  have := small_int 31 h6 (by
    rw [e4]
    rw [e1] at h7
    generalize utiny = u at *
    grind)
  unfold quotOf single
  rw [h3, int32Of_fits (by omega) (by omega)]
  unfold Rel at h2
  have e6 : ∀ q : Rat, q / 2 ^ 24 = uround * q := by
    intro q
    unfold uround
    rw [Rat.div_def, Rat.div_def, Rat.one_mul, Rat.mul_comm]
  rw [← e5, e6]
  generalize uround * (x / y).abs = w at *
  generalize utiny = u at *
  have := abs_triangle (m - r) (r - x / y)
  rw [show (m : Rat) - r + (r - x / y) = m - x / y by grind] at this
  grind

/-- The bits of a number. -/
theorem isF32_bits {s : Bool} {m : Nat} (h : m < 255 * 2 ^ 23) : IsF32 (bits32 (.num s m)) (signed s (b32.abs m)) := by
  have hb : (bits32 (.num s m)).toNat = b32.bits (.num s m) := by
    unfold bits32
    rw [BitVec.toNat_ofNat]
    refine Nat.mod_eq_of_lt ?_
    show (if s then 256 * 2 ^ 23 else 0) + m < _
    cases s <;> simp <;> omega
  rw [isF32_iff, hb, ofBits_bits h]
  rfl

/-- The nearest float32. -/
theorem narrowOf_eq {b : BitVec 64} {x : Rat} (hb : IsF64 b x) (hx : InRange32 x) : Nearest32 x (narrowOf (.flt b.toNat)) := by
  have hv := (isF64_iff _ _).1 hb
  obtain ⟨s, m, hs, rfl⟩ := num_of_val hv
  have hm := abs_nonneg b64 m
  unfold InRange32 at hx
  rw [signed_abs _ hm] at hx
  obtain ⟨k, hk1, h1, h2⟩ := ofAbs32_nearest s hm hx
  have hto : narrowOf (.flt b.toNat) = bits32 (.num s k) := by
    show bits32 (b64.to b32 (b64.ofBits b.toNat)) = _
    rw [hs]
    exact congrArg bits32 h1
  have hpar : k % 2 = 0 → (bits32 (.num s k)).toNat % 2 = 0 := by
    intro h
    unfold bits32
    rw [BitVec.toNat_ofNat, show b32.bits (.num s k) = (if s then 256 * 2 ^ 23 else 0) + k from rfl]
    cases s <;> simp <;> omega
  have hk := abs_nonneg b32 k
  rw [hto]
  refine ⟨signed s (b32.abs k), isF32_bits hk1, fun b' z hz => ?_⟩
  obtain ⟨t, n, -, rfl⟩ := num_of_val ((isF32_iff _ _).1 hz)
  have hn := abs_nonneg b32 n
  obtain ⟨h5, h5'⟩ := h2 n
  obtain ⟨h6, h6'⟩ := h2 0
  rw [abs_zero_num] at h6 h6'
  have c1 := abs_cases (b32.abs k - b64.abs m)
  have c2 := abs_cases (b32.abs n - b64.abs m)
  have c3 := abs_cases (0 - b64.abs m)
  have c4 := abs_cases (signed s (b32.abs k) - signed s (b64.abs m))
  have c5 := abs_cases (signed t (b32.abs n) - signed s (b64.abs m))
  have g5 : b32.abs n = b32.abs k ∨ (b32.abs n - b64.abs m).abs ≠ (b32.abs k - b64.abs m).abs ∨ k % 2 = 0 := by
    by_cases e : (b32.abs n - b64.abs m).abs = (b32.abs k - b64.abs m).abs
    · rcases h5' e with rfl | h
      · exact .inl rfl
      · exact .inr (.inr h)
    · exact .inr (.inl e)
  have g6 : b32.abs k = 0 ∨ (0 - b64.abs m).abs ≠ (b32.abs k - b64.abs m).abs ∨ k % 2 = 0 := by
    by_cases e : (0 - b64.abs m).abs = (b32.abs k - b64.abs m).abs
    · rcases h6' e with rfl | h
      · exact .inl (abs_zero_num _)
      · exact .inr (.inr h)
    · exact .inr (.inl e)
  refine ⟨?_, fun e => ?_⟩
  · clear g5 g6 h5' h6' hpar
    cases s <;> cases t <;> simp only [signed, Bool.false_eq_true, if_false, if_true] at * <;> grind
  · by_cases hp : k % 2 = 0
    · exact .inr (hpar hp)
    · refine .inl ?_
      clear h5' h6' hpar
      cases s <;> cases t <;> simp only [signed, Bool.false_eq_true, if_false, if_true] at * <;> grind

theorem val_zero_iff {f : Ieee.Fmt} {s : Bool} {m : Nat} : signed s (f.abs m) = 0 ↔ m = 0 := by
  refine ⟨fun h => abs_eq_zero (signed_zero h), fun h => ?_⟩
  subst h
  rw [abs_zero_num]
  cases s <;> decide +kernel

/-- An antenna transmits if its phase is not zero. -/
theorem onOf_iff {e : Elt} {re im : Rat} (h : IsComplex e re im) : onOf e = true ↔ re ≠ 0 ∨ im ≠ 0 := by
  obtain ⟨r, i, rfl, h1, h2⟩ := h
  obtain ⟨s, m, hs, rfl⟩ := num_of_val ((isF32_iff _ _).1 h1)
  obtain ⟨t, n, ht, rfl⟩ := num_of_val ((isF32_iff _ _).1 h2)
  unfold onOf
  simp only [hs, ht, ne_eq, val_zero_iff, Fl.nonzero]
  by_cases hm : m = 0 <;> by_cases hn : n = 0 <;> simp [hm, hn]

/-- Comparing with zero. -/
theorem phaseZero_iff {e : Elt} {x : Rat} (h : IsSingleElt e x) : phaseZero e = true ↔ x = 0 := by
  obtain ⟨b, rfl, h1⟩ := h
  obtain ⟨s, m, hs, rfl⟩ := num_of_val ((isF32_iff _ _).1 h1)
  unfold phaseZero single
  simp only [hs, val_zero_iff]
  simp

end Verif.Bor
