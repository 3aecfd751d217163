import Verif.Borealis.Model.Scale
import Verif.Borealis.SpecScale
import Verif.Borealis.Lemmas.Clamp
/-!
# Lemmas about scaling
-/
namespace Verif.Bor
open Verif Verif.Ieee

/-! ## Bit patterns -/

/-- The number of a bit pattern of a format with mantissa `p` and exponent `w` bits. -/
theorem ofBits_val {f : Ieee.Fmt} {p w : Nat} (hp : f.mant = p) (hw : f.top + 1 = 2 ^ w) (b : Nat) (hb : b < 2 ^ (p + w + 1)) (x : Rat) :
    (f.ofBits b).val? f = some x ↔ b / 2 ^ p % 2 ^ w ≠ f.top ∧
      (((if b / 2 ^ (p + w) = 0 then (((if b / 2 ^ p % 2 ^ w = 0 then b % 2 ^ p else (2 ^ p + b % 2 ^ p) * 2 ^ (b / 2 ^ p % 2 ^ w - 1) : Nat)) : Int)
        else -((if b / 2 ^ p % 2 ^ w = 0 then b % 2 ^ p else (2 ^ p + b % 2 ^ p) * 2 ^ (b / 2 ^ p % 2 ^ w - 1) : Nat) : Int)) : Int) : Rat)
        = x * 2 ^ f.unit := by
  have hs : (f.top + 1) * 2 ^ f.mant = 2 ^ (p + w) := by rw [hw, hp, ← Nat.pow_add, Nat.add_comm]
  have hpw : 2 ^ (p + w) = 2 ^ w * 2 ^ p := by rw [← Nat.pow_add, Nat.add_comm]
  have h1 : b % 2 ^ (p + w) / 2 ^ p = b / 2 ^ p % 2 ^ w := by
    rw [Nat.pow_add]
    exact Nat.mod_mul_right_div_self b (2 ^ p) (2 ^ w)
  have h2 : b % 2 ^ (p + w) % 2 ^ p = b % 2 ^ p := by
    rw [Nat.pow_add, Nat.mod_mul_right_mod]
  have hu : units f.mant (b % 2 ^ (p + w)) = if b / 2 ^ p % 2 ^ w = 0 then b % 2 ^ p else (2 ^ p + b % 2 ^ p) * 2 ^ (b / 2 ^ p % 2 ^ w - 1) := by
    unfold units
    rw [hp, h1, h2]
    by_cases h0 : b / 2 ^ p % 2 ^ w = 0
    · rw [if_pos h0, if_pos h0, ← h2]
      rw [← h1] at h0
      have := Nat.div_add_mod (b % 2 ^ (p + w)) (2 ^ p)
      rw [h0, Nat.mul_zero, Nat.zero_add] at this
      exact this.symm
    · rw [if_neg h0, if_neg h0]
  rw [← hu]
  generalize hm : b % 2 ^ (p + w) = m at *
  have hd : b / 2 ^ (p + w) < 2 := by
    rw [Nat.div_lt_iff_lt_mul (Nat.two_pow_pos _), Nat.mul_comm, ← Nat.pow_succ]
    exact hb
  have hml : m < 2 ^ (p + w) := by rw [← hm]; exact Nat.mod_lt _ (Nat.two_pow_pos _)
  have hlt : m < f.top * 2 ^ f.mant ↔ m / 2 ^ p ≠ f.top := by
    rw [hp, ← Nat.div_lt_iff_lt_mul (Nat.two_pow_pos p)]
    have : m / 2 ^ p < 2 ^ w := by
      rw [Nat.div_lt_iff_lt_mul (Nat.two_pow_pos p), ← hpw]
      exact hml
    omega
  rw [← h1]
  unfold Fmt.ofBits
  simp only [hs, hm]
  have hval : ∀ s, (some (signed s (f.abs m)) = some x) ↔ signed s ((units f.mant m : Nat) : Rat) = x * 2 ^ f.unit := by
    intro s
    rw [← abs_mul]
    have hP := pow2_posR f.unit
    constructor
    · intro h
      cases h
      cases s <;> simp [signed]
      grind
    · intro h
      refine congrArg some ?_
      have h' : signed s (f.abs m) * 2 ^ f.unit = x * 2 ^ f.unit := by
        rw [← h]
        cases s <;> simp [signed]
        grind
      exact Rat.le_antisymm (Rat.le_of_mul_le_mul_right (by rw [h']; exact Rat.le_refl) hP)
        (Rat.le_of_mul_le_mul_right (by rw [h']; exact Rat.le_refl) hP)
  by_cases hfin : m < f.top * 2 ^ f.mant
  · rw [if_pos hfin]
    rw [hlt] at hfin
    simp only [hfin, ne_eq, not_false_eq_true, true_and]
    show some (signed (b / 2 ^ (p + w) % 2 == 1) (f.abs m)) = some x ↔ _
    rw [hval]
    by_cases h0 : b / 2 ^ (p + w) = 0
    · rw [h0, if_pos rfl]
      show ((units f.mant m : Nat) : Rat) = _ ↔ _
      rw [Rat.intCast_natCast]
    · have h1 : b / 2 ^ (p + w) = 1 := by
        generalize b / 2 ^ (p + w) = d at hd h0
        omega
      rw [h1, if_neg (by decide)]
      show -((units f.mant m : Nat) : Rat) = _ ↔ _
      rw [Rat.intCast_neg, Rat.intCast_natCast]
  · rw [if_neg hfin]
    have hfin' : m / 2 ^ p = f.top := by
      rw [hlt] at hfin
      simpa using hfin
    have hx : ∀ (P : Prop) (y : Fl), y.val? f = none → (y.val? f = some x ↔ m / 2 ^ p ≠ f.top ∧ P) := by
      intro P y hy
      rw [hy]
      constructor
      · intro h; cases h
      · intro h; exact absurd hfin' h.1
    split
    · exact hx _ _ rfl
    · exact hx _ _ rfl

theorem isF64_iff (b : BitVec 64) (x : Rat) : IsF64 b x ↔ (b64.ofBits b.toNat).val? b64 = some x :=
  (ofBits_val (f := b64) (p := 52) (w := 11) rfl rfl b.toNat b.isLt x).symm

theorem isF32_iff (b : BitVec 32) (x : Rat) : IsF32 b x ↔ (b32.ofBits b.toNat).val? b32 = some x :=
  (ofBits_val (f := b32) (p := 23) (w := 8) rfl rfl b.toNat b.isLt x).symm

theorem ofBits_bits {f : Ieee.Fmt} {s : Bool} {m : Nat} (h : m < f.top * 2 ^ f.mant) : f.ofBits (f.bits (.num s m)) = .num s m := by
  unfold Fmt.ofBits Fmt.bits
  simp only
  have hlt : m < (f.top + 1) * 2 ^ f.mant := Nat.lt_of_lt_of_le h (Nat.mul_le_mul_right _ (by omega))
  generalize (f.top + 1) * 2 ^ f.mant = S at *
  have hS : 0 < S := by omega
  cases s
  · simp only [Bool.false_eq_true, if_false, Nat.zero_add, Nat.div_eq_of_lt hlt, Nat.mod_eq_of_lt hlt, if_pos h]
    rfl
  · simp only [if_true, Nat.add_mod_left, Nat.mod_eq_of_lt hlt, if_pos h, Nat.add_div_left m hS, Nat.div_eq_of_lt hlt]
    rfl

theorem bits64_val {x : Fl} {v : Rat} (h : x.val? b64 = some v) (hv : v.abs ≤ 2 ^ 126) : IsF64 (bits64 x) v := by
  obtain ⟨s, m, rfl, rfl⟩ := num_of_val h
  rw [signed_abs _ (abs_nonneg _ _)] at hv
  have hlt := small_num good64 hv
  have hb : (bits64 (.num s m)).toNat = b64.bits (.num s m) := by
    unfold bits64
    rw [BitVec.toNat_ofNat]
    refine Nat.mod_eq_of_lt ?_
    have : m < 2047 * 2 ^ 52 := hlt
    show (if s then 2048 * 2 ^ 52 else 0) + m < _
    cases s <;> simp <;> omega
  rw [isF64_iff, hb, ofBits_bits hlt]
  exact h

theorem bits32_val {x : Fl} {v : Rat} (h : x.val? b32 = some v) (hv : v.abs ≤ 2 ^ 126) : IsF32 (bits32 x) v := by
  obtain ⟨s, m, rfl, rfl⟩ := num_of_val h
  rw [signed_abs _ (abs_nonneg _ _)] at hv
  have hlt := small_num good32 hv
  have hb : (bits32 (.num s m)).toNat = b32.bits (.num s m) := by
    unfold bits32
    rw [BitVec.toNat_ofNat]
    refine Nat.mod_eq_of_lt ?_
    have : m < 255 * 2 ^ 23 := hlt
    show (if s then 256 * 2 ^ 23 else 0) + m < _
    cases s <;> simp <;> omega
  rw [isF32_iff, hb, ofBits_bits hlt]
  exact h

/-! ## Complex numbers -/

theorem lt_le {a b c : Rat} (h : a < b) (h' : b ≤ c) : a < c := by grind


/-- The parts of a complex number. -/
def Cx.Is (f : Ieee.Fmt) (x : Cx) (a b : Rat) : Prop := x.re.val? f = some a ∧ x.im.val? f = some b

theorem fzero_val (f : Ieee.Fmt) : fzero.val? f = some 0 := by
  unfold fzero
  rw [val_num, abs_zero_num]
  rfl

theorem Rel.bound {d b x y X : Rat} (h : Rel d b x y) (hd : 0 ≤ d) (hx : x.abs ≤ X) : y.abs ≤ X + d * X + b := by
  have := h.size
  have := Rat.mul_le_mul_of_nonneg_left hx hd
  grind

theorem bound_mul {x y X Y : Rat} (hx : x.abs ≤ X) (hy : y.abs ≤ Y) : (x * y).abs ≤ X * Y := by
  rw [abs_prod]
  have h1 := Rat.mul_le_mul_of_nonneg_right hx (Rat.abs_nonneg (x := y))
  have h2 := Rat.mul_le_mul_of_nonneg_left hy (Rat.le_trans (Rat.abs_nonneg (x := x)) hx)
  exact Rat.le_trans h1 h2

theorem precision_good (wide : Bool) : (precision wide).Good := by
  cases wide
  · exact good32
  · exact good64

theorem widen_val (wide : Bool) {x : Fl} {a : Rat} (hx : x.val? b32 = some a) (h : a.abs ≤ 2 ^ 126) :
    (b32.to (precision wide) x).val? (precision wide) = some a :=
  to_val (precision_good wide) (by cases wide <;> decide) (by cases wide <;> decide) hx h

theorem toDouble_val (wide : Bool) {x : Fl} {a : Rat} (hx : x.val? (precision wide) = some a) (h : a.abs ≤ 2 ^ 126) :
    ((precision wide).to b64 x).val? b64 = some a :=
  to_val good64 (by cases wide <;> decide) (by cases wide <;> decide) hx h

theorem big_of {X : Rat} (h : X ≤ 2 ^ 120) : X + uround * X + utiny ≤ 2 ^ 126 := by
  have h1 : uround = 1 / 16777216 := by decide +kernel
  have h2 : utiny ≤ 1 := by decide +kernel
  have h3 : (2 : Rat) ^ 126 = 64 * 2 ^ 120 := by decide +kernel
  have h4 : (1 : Rat) ≤ 2 ^ 120 := by decide +kernel
  rw [h1, h3]
  generalize (2 : Rat) ^ 120 = A at *
  grind

theorem le_big {X : Rat} (h : X ≤ 2 ^ 120) : X ≤ 2 ^ 126 := Rat.le_trans h (by decide +kernel)

/-- A product with a real number, each part rounded. -/
theorem Cx.mul_real {f : Ieee.Fmt} (hf : f.Good) {x : Cx} {c : Fl} {a b v : Rat} (hx : x.Is f a b) (hc : c.val? f = some v)
    (ha : (a * v).abs ≤ 2 ^ 120) (hb : (b * v).abs ≤ 2 ^ 120) :
    ∃ r i, (Cx.mul f x ⟨c, fzero⟩).Is f r i ∧ Rel uround utiny (a * v) r ∧ Rel uround utiny (b * v) i := by
  obtain ⟨r, h1, h2⟩ := mul_err hf hx.1 hc (le_big ha)
  obtain ⟨i, h3, h4⟩ := mul_err hf hx.2 hc (le_big hb)
  have hu : 0 ≤ uround := by decide +kernel
  have hr := Rat.le_trans (Rel.bound h2 hu ha) (big_of Rat.le_refl)
  have hi := Rat.le_trans (Rel.bound h4 hu hb) (big_of Rat.le_refl)
  exact ⟨r, i, ⟨sub_zero_val hf h1 (mul_zero_val hf hx.2 (fzero_val f)) hr,
    zero_add_val hf (mul_zero_val hf hx.1 (fzero_val f)) h3 hi⟩, h2, h4⟩

theorem zero_div_val {f : Ieee.Fmt} (hf : f.Good) {y : Fl} {v : Rat} (hy : y.val? f = some v) (hv : v ≠ 0) :
    (f.div fzero y).val? f = some 0 := by
  obtain ⟨t, n, rfl, rfl⟩ := num_of_val hy
  have hn : n ≠ 0 := by
    intro h
    subst h
    rw [abs_zero_num] at hv
    cases t <;> simp [signed] at hv
  unfold fzero
  rw [div_num hn, abs_zero_num, Rat.div_def, Rat.zero_mul,
    ofAbs_exact (b := 0) (abs_zero_num f).symm (small_num hf (by rw [abs_zero_num]; decide +kernel)), val_num, abs_zero_num]
  cases (false != t) <;> rfl

/-- The quotient by a real number: a product with its rounded reciprocal. -/
theorem Cx.div_real {f : Ieee.Fmt} (hf : f.Good) {x : Cx} {n : Fl} {a b v : Rat} (hx : x.Is f a b) (hn : n.val? f = some v)
    (hv : v ≠ 0) (hv1 : v.abs ≤ 2 ^ 126) (hv2 : (1 / v).abs ≤ 2 ^ 126) (hax : a.abs ≤ 2 ^ 126) (hbx : b.abs ≤ 2 ^ 126)
    (h : ∀ s, Rel uround utiny (1 / v) s → (a * s).abs ≤ 2 ^ 120 ∧ (b * s).abs ≤ 2 ^ 120) :
    ∃ s r i, (Cx.divReal f x n).Is f r i ∧ Rel uround utiny (1 / v) s ∧ Rel uround utiny (a * s) r ∧ Rel uround utiny (b * s) i := by
  have hz := zero_div_val hf hn hv
  have hadd := add_zero_val hf hn (mul_zero_val hf (fzero_val f) hz) hv1
  have h1 : (f.ofRat 1).val? f = some 1 := by
    have := ofRat_int hf (n := 1) (Nat.one_lt_two_pow (by omega)) (by decide)
    simpa using this
  obtain ⟨s, hs, hsr⟩ := div_err hf h1 hadd hv hv2
  obtain ⟨ha, hb⟩ := h s hsr
  have hre := add_zero_val hf hx.1 (mul_zero_val hf hx.2 hz) hax
  have him := sub_zero_val hf hx.2 (mul_zero_val hf hx.1 hz) hbx
  obtain ⟨r, h2, h3⟩ := mul_err hf hre hs (le_big ha)
  obtain ⟨i, h4, h5⟩ := mul_err hf him hs (le_big hb)
  refine ⟨s, r, i, ?_, hsr, h3, h5⟩
  unfold Cx.divReal
  have hne : ¬ (n = .num false 0 ∨ n = .num true 0) := by
    intro h
    apply hv
    rcases h with rfl | rfl
    · rw [val_num, abs_zero_num] at hn
      cases hn; rfl
    · rw [val_num, abs_zero_num] at hn
      cases hn; rfl
  rw [if_neg hne]
  exact ⟨h2, h4⟩

/-! ## Samples -/

theorem one_div_abs {n : Rat} (h : 0 < n) {m : Rat} (hm : 0 < m) (hle : m ≤ n) : (1 / n).abs ≤ 1 / m := by
  have e1 : 1 / n * n = 1 := Rat.div_mul_cancel (Rat.ne_of_gt h)
  have e2 : 1 / m * m = 1 := Rat.div_mul_cancel (Rat.ne_of_gt hm)
  have hin : 0 < 1 / n := by
    rw [Rat.div_def, Rat.one_mul]
    exact Rat.inv_pos.2 h
  have him : 0 < 1 / m := by
    rw [Rat.div_def, Rat.one_mul]
    exact Rat.inv_pos.2 hm
  rw [Rat.abs_of_nonneg (Rat.le_of_lt hin)]
  have h1 := Rat.mul_le_mul_of_nonneg_left hle (Rat.le_of_lt him)
  have h2 := Rat.mul_le_mul_of_nonneg_right h1 (Rat.le_of_lt hin)
  rwa [e2, Rat.one_mul, Rat.mul_assoc, Rat.mul_comm n, e1, Rat.mul_one] at h2

/-- The steps of one part: the errors of the products. -/
theorem part_error {a n s p q y k k' : Rat} (hn : 1 / 2 ^ 30 ≤ n)
    (ha : a.abs ≤ 2 ^ 40) (hk : k.abs ≤ 2 ^ 30) (hs : Rel (9 / 4 * uround) utiny (1 / n) s) (hp : Rel uround utiny (a * s) p)
    (hq : Rel uround utiny (p * 32767) q) (hkk : Rel uround utiny k k') (hy : Rel uround utiny (q * k') y) :
    Rel (1 / 2 ^ 21) (1 / 2 ^ 60) (a * (1 / n) * 32767 * k) y := by
  have hu : 0 ≤ uround := by decide +kernel
  have ht : 0 ≤ utiny := by decide +kernel
  have hn0 : 0 < n := lt_le (show (0 : Rat) < 1 / 2 ^ 30 by decide +kernel) hn
  have hin : (1 / n).abs ≤ 2 ^ 30 :=
    Rat.le_trans (one_div_abs hn0 (m := 1 / 2 ^ 30) (by decide +kernel) hn) (by decide +kernel)
  have h1 := (Rel.mul (Rel.refl (d := 0) (b := 0) a (by decide) (by decide)) hs (by decide) (by decide) (by decide +kernel) ht ha hin).trans hp hu
  have h1 := h1.weaken (d' := 7 / 2 * uround) (b' := 2 ^ 41 * utiny) (by decide +kernel) (by decide +kernel)
  have hx1 := bound_mul ha hin
  have h2 := (Rel.mul h1 (Rel.refl (d := 0) (b := 0) 32767 (by decide) (by decide)) (by decide +kernel) (by decide +kernel) (by decide)
    (by decide) hx1 (show (32767 : Rat).abs ≤ 32767 by decide +kernel)).trans hq hu
  have h2 := h2.weaken (d' := 19 / 4 * uround) (b' := 2 ^ 57 * utiny) (by decide +kernel) (by decide +kernel)
  have hx2 := bound_mul hx1 (show (32767 : Rat).abs ≤ 32767 by decide +kernel)
  have h3 := (Rel.mul h2 hkk (by decide +kernel) (by decide +kernel) hu ht hx2 hk).trans hy hu
  exact h3.weaken (by decide +kernel) (by decide +kernel)

/-- The reciprocal of the normalization factor. -/
theorem recip_error {n n' s : Rat} {e : Nat} (he : e ≤ 30) (hn : 1 / 2 ^ e ≤ n) (h : Rel uround utiny n n') (hs : Rel uround utiny (1 / n') s) :
    0 < n' ∧ Rel (9 / 4 * uround) utiny (1 / n) s := by
  have hn0 : 1 / 2 ^ 30 ≤ n := by
    refine Rat.le_trans ?_ hn
    have h1 := one_div_abs (pow2_posR 30) (pow2_posR e) (by
      rw [← natCast_pow2, ← natCast_pow2]
      exact Rat.natCast_le_natCast.2 (Nat.pow_le_pow_right (by decide) he))
    rwa [Rat.abs_of_nonneg (by decide +kernel)] at h1
  have hpos : 0 < n := lt_le (show (0 : Rat) < 1 / 2 ^ 30 by decide +kernel) hn0
  have h1 := (h.absorb (m := 1 / 2 ^ 30) (by rw [Rat.abs_of_nonneg (Rat.le_of_lt hpos)]; exact hn0) (by decide +kernel)
    (by decide +kernel)).weaken (d' := 17 / 16 * uround) (b' := 0) (by decide +kernel) (by decide)
  obtain ⟨h2, h3⟩ := h1.inv (e := 9 / 8 * uround) hpos (by decide +kernel) (by decide +kernel) (by decide +kernel)
  exact ⟨h2, (h3.trans hs (by decide +kernel)).weaken (by decide +kernel) (by decide +kernel)⟩

theorem small_error {d b x y X : Rat} (h : Rel d b x y) (hd : 0 ≤ d) (hx : x.abs ≤ X) (hX : X + d * X + b ≤ 2 ^ 120) : y.abs ≤ 2 ^ 120 :=
  Rat.le_trans (Rel.bound h hd hx) hX

/-- A product with a number that is not too large. -/
theorem Cx.scale_real (wide : Bool) {x : Cx} {c : Fl} {a b v A V : Rat} (hx : x.Is (precision wide) a b) (hc : c.val? b64 = some v)
    (ha : a.abs ≤ A) (hb : b.abs ≤ A) (hv : v.abs ≤ V) (hV : V ≤ 2 ^ 120) (hAV : A * (V + uround * V + utiny) ≤ 2 ^ 120) :
    ∃ w r i, (x.scale (precision wide) c).Is (precision wide) r i ∧ Rel uround utiny v w ∧
      Rel uround utiny (a * w) r ∧ Rel uround utiny (b * w) i := by
  obtain ⟨w, h1, h2⟩ := to_err (precision_good wide) hc (le_big (Rat.le_trans hv hV))
  have hw := Rel.bound h2 (by decide +kernel) hv
  have hw' : ∀ t : Rat, t.abs ≤ A → (t * w).abs ≤ 2 ^ 120 := fun t ht => Rat.le_trans (bound_mul ht hw) hAV
  obtain ⟨r, i, h3, h4, h5⟩ := Cx.mul_real (precision_good wide) hx h1 (hw' a ha) (hw' b hb)
  exact ⟨w, r, i, h3, h2, h4, h5⟩

/-- A product with a whole number that all formats have. -/
theorem Cx.scale_max (wide : Bool) {x : Cx} {a b A : Rat} (hx : x.Is (precision wide) a b)
    (ha : a.abs ≤ A) (hb : b.abs ≤ A) (hA : A * 32767 ≤ 2 ^ 120) :
    ∃ r i, (x.scale (precision wide) (b64.ofRat ((32767 : Int) : Rat))).Is (precision wide) r i ∧
      Rel uround utiny (a * 32767) r ∧ Rel uround utiny (b * 32767) i := by
  have h1 : (b64.to (precision wide) (b64.ofRat ((32767 : Int) : Rat))).val? (precision wide) = some 32767 := by
    cases wide <;> decide +kernel
  have hw : ∀ t : Rat, t.abs ≤ A → (t * 32767).abs ≤ 2 ^ 120 := fun t ht =>
    Rat.le_trans (bound_mul ht (show (32767 : Rat).abs ≤ 32767 by decide +kernel)) hA
  exact Cx.mul_real (precision_good wide) hx h1 (hw a ha) (hw b hb)

theorem int_abs (k : Int) : ((k : Int) : Rat).abs = (k.natAbs : Rat) := by
  rcases Int.le_total 0 k with h | h
  · rw [Rat.abs_of_nonneg (by exact_mod_cast h), ← Rat.intCast_natCast]
    congr 1
    omega
  · rw [Rat.abs_of_nonpos (by exact_mod_cast h), ← Rat.intCast_natCast, ← Rat.intCast_neg]
    congr 1
    omega

/-- **The error of a scaled sample.** -/
theorem iqNumber_error (wide : Bool) {x : Cx} {norm : Fl} {a b n : Rat} {k : Int} (hx : x.Is b32 a b) (hn : norm.val? b64 = some n)
    (ha : a.abs ≤ 2 ^ 40) (hb : b.abs ≤ 2 ^ 40) (hn1 : 1 / 2 ^ 30 ≤ n) (hn2 : n ≤ 2 ^ 40) (hk : k.natAbs ≤ 2 ^ 30) :
    ∃ r i, (iqNumber wide x norm k).Is b64 r i ∧ r.abs ≤ 2 ^ 126 ∧ i.abs ≤ 2 ^ 126 ∧
      Rel (1 / 2 ^ 21) (1 / 2 ^ 60) (a * (1 / n) * 32767 * k) r ∧ Rel (1 / 2 ^ 21) (1 / 2 ^ 60) (b * (1 / n) * 32767 * k) i := by
  have hu : 0 ≤ uround := by decide +kernel
  have hn0 : 0 < n := lt_le (show (0 : Rat) < 1 / 2 ^ 30 by decide +kernel) hn1
  have hna : n.abs ≤ 2 ^ 40 := by rw [Rat.abs_of_nonneg (Rat.le_of_lt hn0)]; exact hn2
  have h40 : (2 : Rat) ^ 40 ≤ 2 ^ 126 := by decide +kernel
  have hg := precision_good wide
  -- the operands
  obtain ⟨n', hn', hnr⟩ := to_err hg hn (Rat.le_trans hna h40)
  have hx' : (x.to b32 (precision wide)).Is (precision wide) a b :=
    ⟨widen_val wide hx.1 (Rat.le_trans ha h40), widen_val wide hx.2 (Rat.le_trans hb h40)⟩
  have hn'0 : 0 < n' := (recip_error (Nat.le_refl 30) hn1 hnr (s := 1 / n') (Rel.refl _ hu (by decide +kernel))).1
  have hn'a := Rel.bound hnr hu hna
  have hrec : ∀ s, Rel uround utiny (1 / n') s → s.abs ≤ 2 ^ 31 := by
    intro s hs
    have h1 := (recip_error (Nat.le_refl 30) hn1 hnr hs).2
    exact Rat.le_trans (Rel.bound h1 (by decide +kernel) (one_div_abs hn0 (m := 1 / 2 ^ 30) (by decide +kernel) hn1)) (by decide +kernel)
  have hinv : (1 / n').abs ≤ 2 ^ 31 := hrec _ (Rel.refl _ hu (by decide +kernel))
  -- division
  obtain ⟨s, p1, p2, hp, hs, hp1, hp2⟩ := Cx.div_real hg hx' hn' (Rat.ne_of_gt hn'0) (Rat.le_trans hn'a (by decide +kernel))
    (Rat.le_trans hinv (by decide +kernel)) (Rat.le_trans ha h40) (Rat.le_trans hb h40)
    (fun s hs => ⟨Rat.le_trans (bound_mul ha (hrec s hs)) (by decide +kernel), Rat.le_trans (bound_mul hb (hrec s hs)) (by decide +kernel)⟩)
  have hs' := (recip_error (Nat.le_refl 30) hn1 hnr hs).2
  have hpb : ∀ {t p : Rat}, t.abs ≤ 2 ^ 40 → Rel uround utiny (t * s) p → p.abs ≤ 2 ^ 72 := fun ht hp =>
    Rat.le_trans (Rel.bound hp hu (bound_mul ht (hrec s hs))) (by decide +kernel)
  -- the largest int16
  obtain ⟨q1, q2, hq, hq1, hq2⟩ := Cx.scale_max wide hp (hpb ha hp1) (hpb hb hp2) (by decide +kernel)
  have hqb : ∀ {p q : Rat}, p.abs ≤ 2 ^ 72 → Rel uround utiny (p * 32767) q → q.abs ≤ 2 ^ 88 := fun ht hp =>
    Rat.le_trans (Rel.bound hp hu (bound_mul ht (show (32767 : Rat).abs ≤ 32767 by decide +kernel))) (by decide +kernel)
  -- the factor
  have hk' : ((k : Int) : Rat).abs ≤ 2 ^ 30 := by
    rw [int_abs, ← natCast_pow2]
    exact Rat.natCast_le_natCast.2 hk
  have hkv : (b64.ofRat (k : Rat)).val? b64 = some (k : Rat) :=
    ofRat_int good64 (Nat.lt_of_le_of_lt hk (by decide)) (Nat.le_trans hk (by decide))
  obtain ⟨w, r, i, hr, hw, hr1, hr2⟩ := Cx.scale_real wide hq hkv (hqb (hpb ha hp1) hq1) (hqb (hpb hb hp2) hq2) hk'
    (by decide +kernel) (by decide +kernel)
  have hrb : ∀ {q y : Rat}, q.abs ≤ 2 ^ 88 → Rel uround utiny (q * w) y → y.abs ≤ 2 ^ 126 := fun ht hp =>
    Rat.le_trans (Rel.bound hp hu (bound_mul ht (Rel.bound hw hu hk'))) (by decide +kernel)
  have b1 := hrb (hqb (hpb ha hp1) hq1) hr1
  have b2 := hrb (hqb (hpb hb hp2) hq2) hr2
  exact ⟨r, i, ⟨toDouble_val wide hr.1 b1, toDouble_val wide hr.2 b2⟩, b1, b2,
    part_error hn1 ha hk' hs' hp1 hq1 hw hr1, part_error hn1 hb hk' hs' hp2 hq2 hw hr2⟩

theorem clip_cases (x : Rat) : x < -32768 ∧ clip16 x = -32768 ∨ 32767 < x ∧ clip16 x = 32767 ∨
    -32768 ≤ x ∧ x ≤ 32767 ∧ clip16 x = x := by
  unfold clip16
  by_cases h1 : x < -32768
  · exact .inl ⟨h1, if_pos h1⟩
  · rw [if_neg h1]
    by_cases h2 : 32767 < x
    · exact .inr (.inl ⟨h2, if_pos h2⟩)
    · exact .inr (.inr ⟨Rat.not_lt.1 h1, Rat.not_lt.1 h2, if_neg h2⟩)

theorem clip_near (x y : Rat) : (clip16 x - clip16 y).abs ≤ (x - y).abs := by
  have h1 := clip_cases x
  have h2 := clip_cases y
  have h3 := abs_cases (x - y)
  have h4 := abs_cases (clip16 x - clip16 y)
  grind

/-- Clipping does not make an error larger. -/
theorem clip_rel {d b x y : Rat} (hd : 0 ≤ d) (hd1 : d ≤ 1) (hb : 0 ≤ b) (h : Rel d b x y) : Rel d b (clip16 x) (clip16 y) := by
  unfold Rel at *
  rcases clip_cases x with ⟨h1, h2⟩ | ⟨h1, h2⟩ | ⟨-, -, h2⟩
  · rw [h2, show (-32768 : Rat).abs = 32768 by decide +kernel]
    rw [Rat.abs_of_nonpos (show x ≤ 0 by grind)] at h
    have h3 := abs_cases (y - x)
    have h4 := abs_cases (clip16 y - -32768)
    have h5 := clip_cases y
    have h6 := Rat.mul_le_mul_of_nonneg_right hd1 (show 0 ≤ -x - 32768 by grind)
    have h7 := Rat.mul_nonneg hd (show (0 : Rat) ≤ 32768 by decide)
    grind
  · rw [h2, show (32767 : Rat).abs = 32767 by decide +kernel]
    rw [Rat.abs_of_nonneg (show 0 ≤ x by grind)] at h
    have h3 := abs_cases (y - x)
    have h4 := abs_cases (clip16 y - 32767)
    have h5 := clip_cases y
    have h6 := Rat.mul_le_mul_of_nonneg_right hd1 (show 0 ≤ x - 32767 by grind)
    have h7 := Rat.mul_nonneg hd (show (0 : Rat) ≤ 32767 by decide)
    grind
  · have := clip_near y x
    rw [h2] at this ⊢
    exact Rat.le_trans this h

theorem clip_int (t : Int) : ((max (-32768) (min 32767 t) : Int) : Rat) = clip16 (t : Rat) := by
  have e1 : ((-32768 : Int) : Rat) = -32768 := by decide +kernel
  have e2 : ((32767 : Int) : Rat) = 32767 := by decide +kernel
  unfold clip16
  by_cases h1 : t < -32768
  · have h1' : (t : Rat) < -32768 := by rw [← e1]; exact Rat.intCast_lt_intCast.2 h1
    rw [if_pos h1', show max (-32768) (min 32767 t) = -32768 by omega, e1]
  · have h1' : ¬ (t : Rat) < -32768 := by rw [← e1]; exact fun h => h1 (Rat.intCast_lt_intCast.1 h)
    rw [if_neg h1']
    by_cases h2 : 32767 < t
    · have h2' : (32767 : Rat) < t := by rw [← e2]; exact Rat.intCast_lt_intCast.2 h2
      rw [if_pos h2', show max (-32768) (min 32767 t) = 32767 by omega, e2]
    · have h2' : ¬ (32767 : Rat) < t := by rw [← e2]; exact fun h => h2 (Rat.intCast_lt_intCast.1 h)
      rw [if_neg h2', show max (-32768) (min 32767 t) = t by omega]

theorem tdiv_near (s : Int) {D : Int} (hD : 0 < D) {y : Rat} (h : (s : Rat) = y * D) : (((s.tdiv D : Int) : Rat) - y).abs < 1 := by
  have h1 := Int.mul_tdiv_add_tmod s D
  have h2 : (s.tmod D).natAbs < D.natAbs := by
    rw [Int.natAbs_tmod]
    exact Nat.mod_lt _ (by omega)
  have h3 : s.tmod D < D := by omega
  have h4 : -D < s.tmod D := by omega
  have hDr : (0 : Rat) < D := by exact_mod_cast hD
  have h5 : (D : Rat) * (s.tdiv D : Int) + (s.tmod D : Int) = y * D := by
    rw [← h, ← Rat.intCast_mul, ← Rat.intCast_add, h1]
  have h6 : ((s.tmod D : Int) : Rat) < D := Rat.intCast_lt_intCast.2 h3
  have h7 : -(D : Rat) < ((s.tmod D : Int) : Rat) := by
    rw [← Rat.intCast_neg]
    exact Rat.intCast_lt_intCast.2 h4
  generalize ((s.tdiv D : Int) : Rat) = t at *
  generalize ((s.tmod D : Int) : Rat) = r at *
  generalize (D : Rat) = E at *
  have h8 : t - y < 1 := by
    rw [← Rat.not_le]
    intro hc
    have := Rat.mul_le_mul_of_nonneg_right hc (Rat.le_of_lt hDr)
    grind
  have h9 : y - t < 1 := by
    rw [← Rat.not_le]
    intro hc
    have := Rat.mul_le_mul_of_nonneg_right hc (Rat.le_of_lt hDr)
    grind
  have := abs_cases (t - y)
  grind

/-- The stored sample: less than one from the clipped number. -/
theorem nearest16_near {b : BitVec 64} {y : Rat} (h : IsF64 b y) : (((nearest16 b : Int) : Rat) - clip16 y).abs < 1 := by
  unfold nearest16
  rw [clip_int]
  refine Std.lt_of_le_of_lt (clip_near _ _) (tdiv_near _ (by decide +kernel) ?_)
  rw [h.2]
  refine congrArg (y * ·) ?_
  decide +kernel

theorem stored_near {nan : BitVec 16} {b : BitVec 64} {v y : Rat} (h : IsF64 b y) (hr : Rel (1 / 2 ^ 21) (1 / 2 ^ 60) v y) :
    (((clamp16 nan b : Int) : Rat) - clip16 v).abs < 1 + (clip16 v).abs / 2 ^ 21 + 1 / 2 ^ 60 := by
  rw [clamp16_finite h.1]
  have h1 := nearest16_near h
  have h2 := clip_rel (by decide +kernel) (by decide +kernel) (by decide +kernel) hr
  unfold Rel at h2
  have h3 := abs_triangle (((nearest16 b : Int) : Rat) - clip16 y) (clip16 y - clip16 v)
  rw [show ∀ a b c : Rat, a - b + (b - c) = a - c by grind] at h3
  rw [show (1 : Rat) / 2 ^ 21 * (clip16 v).abs = (clip16 v).abs / 2 ^ 21 by
    rw [Rat.div_def, Rat.div_def, Rat.one_mul, Rat.mul_comm]] at h2
  grind

theorem tdiv_above {s D : Int} (hD : 0 < D) {y : Rat} (h : (s : Rat) = y * D) {m : Int} (hm : 0 ≤ m) (hy : (m : Rat) ≤ y) : m ≤ s.tdiv D := by
  have hDr : (0 : Rat) < D := by exact_mod_cast hD
  have h1 : m * D ≤ s := by
    refine Rat.intCast_le_intCast.1 ?_
    rw [h, Rat.intCast_mul]
    exact Rat.mul_le_mul_of_nonneg_right hy (Rat.le_of_lt hDr)
  have hs : 0 ≤ s := Int.le_trans (Int.mul_nonneg hm (Int.le_of_lt hD)) h1
  rw [Int.tdiv_eq_ediv_of_nonneg hs]
  exact (Int.le_ediv_iff_mul_le hD).2 h1

theorem scaled_eq {b : BitVec 64} {y : Rat} (h : IsF64 b y) : (f64Scaled b : Rat) = y * ((2 ^ 1074 : Int) : Rat) := by
  rw [h.2]
  refine congrArg (y * ·) ?_
  decide +kernel

theorem clamp16_above {nan : BitVec 16} {b : BitVec 64} {v y : Rat} (h : IsF64 b y) (hr : Rel (1 / 2 ^ 21) (1 / 2 ^ 60) v y) (hv : 32768 ≤ v) :
    clamp16 nan b = 32767 := by
  rw [clamp16_finite h.1]
  have hy : ((32767 : Int) : Rat) ≤ y := by
    unfold Rel at hr
    rw [Rat.abs_of_nonneg (show 0 ≤ v by grind)] at hr
    have := abs_cases (y - v)
    have e1 : (1 : Rat) / 2 ^ 21 = 1 / 2097152 := by decide +kernel
    have e2 : (1 : Rat) / 2 ^ 60 ≤ 1 / 2 := by decide +kernel
    rw [e1] at hr
    show (32767 : Rat) ≤ y
    generalize (1 : Rat) / 2 ^ 60 = t at *
    grind
  have := tdiv_above (by decide +kernel) (scaled_eq h) (by decide) hy
  unfold nearest16
  omega

theorem clamp16_below {nan : BitVec 16} {b : BitVec 64} {v y : Rat} (h : IsF64 b y) (hr : Rel (1 / 2 ^ 21) (1 / 2 ^ 60) v y) (hv : v ≤ -32769) :
    clamp16 nan b = -32768 := by
  rw [clamp16_finite h.1]
  have hy : ((32768 : Int) : Rat) ≤ -y := by
    unfold Rel at hr
    rw [Rat.abs_of_nonpos (show v ≤ 0 by grind)] at hr
    have := abs_cases (y - v)
    have e1 : (1 : Rat) / 2 ^ 21 = 1 / 2097152 := by decide +kernel
    have e2 : (1 : Rat) / 2 ^ 60 ≤ 1 / 2 := by decide +kernel
    rw [e1] at hr
    show (32768 : Rat) ≤ -y
    generalize (1 : Rat) / 2 ^ 60 = t at *
    grind
  have := tdiv_above (s := -f64Scaled b) (y := -y) (D := 2 ^ 1074) (by decide +kernel)
    (by rw [Rat.intCast_neg, scaled_eq h, Rat.neg_mul]) (by decide) hy
  rw [Int.neg_tdiv] at this
  unfold nearest16
  omega

/-! ## Correlations -/

/-- The steps of one part. -/
theorem corr_error {a n M c q w y t : Rat} (hn : 1 / 2 ^ 10 ≤ n) (ha : a.abs ≤ 2 ^ 40) (hM : M.abs ≤ 2 ^ 60)
    (hc : Rel uround utiny M c) (hq : Rel uround utiny (n * n) q) (hw : Rel uround utiny (c / q) w) (ht : Rel uround utiny w t)
    (hy : Rel uround utiny (a * t) y) :
    Rel (6 * uround) (1 / 2 ^ 84) (a * (M * (1 / (n * n)))) y := by
  have hu : 0 ≤ uround := by decide +kernel
  have hv : 0 ≤ utiny := by decide +kernel
  have hnn : (1 : Rat) / 2 ^ 20 ≤ n * n := by
    have h0 : (0 : Rat) ≤ 1 / 2 ^ 10 := by decide +kernel
    have h1 := Rat.mul_le_mul_of_nonneg_left hn h0
    have h2 := Rat.mul_le_mul_of_nonneg_right hn (Rat.le_trans h0 hn)
    have h3 : (1 : Rat) / 2 ^ 10 * (1 / 2 ^ 10) = 1 / 2 ^ 20 := by decide +kernel
    rw [h3] at h1
    exact Rat.le_trans h1 h2
  have hpos : 0 < n * n := lt_le (show (0 : Rat) < 1 / 2 ^ 20 by decide +kernel) hnn
  have h1 := (hq.absorb (m := 1 / 2 ^ 20) (by rw [Rat.abs_of_nonneg (Rat.le_of_lt hpos)]; exact hnn) hv
    (by decide +kernel)).weaken (d' := 17 / 16 * uround) (b' := 0) (by decide +kernel) (by decide)
  obtain ⟨-, h2⟩ := h1.inv (e := 9 / 8 * uround) hpos (by decide +kernel) (by decide +kernel) (by decide +kernel)
  have hi := one_div_abs hpos (m := 1 / 2 ^ 20) (by decide +kernel) hnn
  rw [show c / q = c * (1 / q) by rw [Rat.div_def, Rat.div_def, Rat.one_mul]] at hw
  have h3 := (Rel.mul hc h2 hu hv (by decide +kernel) (by decide) hM hi).trans hw hu
  have h3 := (h3.trans ht hu).weaken (d' := 19 / 4 * uround) (b' := 2 ^ 23 * utiny) (by decide +kernel) (by decide +kernel)
  have h4 := (Rel.mul (Rel.refl (d := 0) (b := 0) a (by decide) (by decide)) h3 (by decide) (by decide) (by decide +kernel)
    (by decide +kernel) ha (bound_mul hM hi)).trans hy hu
  exact h4.weaken (by decide +kernel) (by decide +kernel)

/-- The error of a scaled correlation before the last rounding. -/
theorem acfScaled_error {square : Fl → Fl} (hsq : SquareOk square) (wide : Bool) {x : Cx} {norm : Fl} {a b n : Rat} {k : Int}
    (hx : x.Is b32 a b) (hn : norm.val? b64 = some n) (ha : a.abs ≤ 2 ^ 40) (hb : b.abs ≤ 2 ^ 40)
    (hn1 : 1 / 2 ^ 10 ≤ n) (hn2 : n ≤ 2 ^ 40) (hk : k.natAbs ≤ 2 ^ 24) :
    ∃ r i, (acfScaled square wide x norm k).Is (precision wide) r i ∧ r.abs ≤ 2 ^ 120 ∧ i.abs ≤ 2 ^ 120 ∧
      Rel (6 * uround) (1 / 2 ^ 84) (a * (((32767 ^ 2 * k : Int) : Rat) * (1 / (n * n)))) r ∧
      Rel (6 * uround) (1 / 2 ^ 84) (b * (((32767 ^ 2 * k : Int) : Rat) * (1 / (n * n)))) i := by
  have hu : 0 ≤ uround := by decide +kernel
  have hn0 : 0 < n := lt_le (show (0 : Rat) < 1 / 2 ^ 10 by decide +kernel) hn1
  have hna : n.abs ≤ 2 ^ 40 := by rw [Rat.abs_of_nonneg (Rat.le_of_lt hn0)]; exact hn2
  have h40 : (2 : Rat) ^ 40 ≤ 2 ^ 126 := by decide +kernel
  have hM : ((32767 ^ 2 * k : Int) : Rat).abs ≤ 2 ^ 54 := by
    rw [int_abs, ← natCast_pow2]
    refine Rat.natCast_le_natCast.2 ?_
    omega
  have hnn : (1 : Rat) / 2 ^ 20 ≤ n * n := by
    have h0 : (0 : Rat) ≤ 1 / 2 ^ 10 := by decide +kernel
    have h1 := Rat.mul_le_mul_of_nonneg_left hn1 h0
    have h2 := Rat.mul_le_mul_of_nonneg_right hn1 (Rat.le_of_lt hn0)
    have h3 : (1 : Rat) / 2 ^ 10 * (1 / 2 ^ 10) = 1 / 2 ^ 20 := by decide +kernel
    rw [h3] at h1
    exact Rat.le_trans h1 h2
  -- the quotient
  obtain ⟨c, hc, hcr⟩ := ofRat_err good64 (Rat.le_trans hM (by decide +kernel))
  obtain ⟨q, hq, hqr⟩ := hsq _ _ hn hna
  have hq0 := (recip_error (e := 20) (by decide) hnn hqr (s := 1 / q) (Rel.refl _ hu (by decide +kernel)))
  have hqi : (1 / q).abs ≤ 2 ^ 21 := by
    refine Rat.le_trans (Rel.bound hq0.2 (by decide +kernel) (one_div_abs ?_ (m := 1 / 2 ^ 20) (by decide +kernel) hnn)) (by decide +kernel)
    exact lt_le (show (0 : Rat) < 1 / 2 ^ 20 by decide +kernel) hnn
  have hcb := Rel.bound hcr hu hM
  have hcq : (c / q).abs ≤ 2 ^ 76 := by
    rw [show c / q = c * (1 / q) by rw [Rat.div_def, Rat.div_def, Rat.one_mul]]
    exact Rat.le_trans (bound_mul hcb hqi) (by decide +kernel)
  obtain ⟨w, hw, hwr⟩ := div_err good64 hc hq (Rat.ne_of_gt hq0.1) (Rat.le_trans hcq (by decide +kernel))
  have hwb := Rel.bound hwr hu hcq
  -- the product
  have hx' : (x.to b32 (precision wide)).Is (precision wide) a b :=
    ⟨widen_val wide hx.1 (Rat.le_trans ha h40), widen_val wide hx.2 (Rat.le_trans hb h40)⟩
  obtain ⟨t, y1, y2, hy, htr, hy1, hy2⟩ := Cx.scale_real wide hx' hw ha hb hwb (by decide +kernel) (by decide +kernel)
  have htb := Rel.bound htr hu hwb
  have hyb : ∀ {s y : Rat}, s.abs ≤ 2 ^ 40 → Rel uround utiny (s * t) y → y.abs ≤ 2 ^ 120 := fun hs hy =>
    Rat.le_trans (Rel.bound hy hu (bound_mul hs htb)) (by decide +kernel)
  have hM' := Rat.le_trans hM (show (2 : Rat) ^ 54 ≤ 2 ^ 60 by decide +kernel)
  exact ⟨y1, y2, hy, hyb ha hy1, hyb hb hy2,
    corr_error hn1 ha hM' hcr hqr hwr htr hy1, corr_error hn1 hb hM' hcr hqr hwr htr hy2⟩

/-- **The error of a scaled correlation.** -/
theorem acfNumber_error {square : Fl → Fl} (hsq : SquareOk square) (wide : Bool) {x : Cx} {norm : Fl} {a b n : Rat} {k : Int}
    (hx : x.Is b32 a b) (hn : norm.val? b64 = some n) (ha : a.abs ≤ 2 ^ 40) (hb : b.abs ≤ 2 ^ 40)
    (hn1 : 1 / 2 ^ 10 ≤ n) (hn2 : n ≤ 2 ^ 40) (hk : k.natAbs ≤ 2 ^ 24) :
    ∃ r i, (acfNumber square wide x norm k).Is b32 r i ∧ r.abs ≤ 2 ^ 126 ∧ i.abs ≤ 2 ^ 126 ∧
      Rel (1 / 2 ^ 21) (1 / 2 ^ 80) (a * (((32767 ^ 2 * k : Int) : Rat) * (1 / (n * n)))) r ∧
      Rel (1 / 2 ^ 21) (1 / 2 ^ 80) (b * (((32767 ^ 2 * k : Int) : Rat) * (1 / (n * n)))) i := by
  have hu : 0 ≤ uround := by decide +kernel
  obtain ⟨y1, y2, hy, hb1, hb2, h1, h2⟩ := acfScaled_error hsq wide hx hn ha hb hn1 hn2 hk
  obtain ⟨z1, hz1, hzr1⟩ := to_err good32 hy.1 (le_big hb1)
  obtain ⟨z2, hz2, hzr2⟩ := to_err good32 hy.2 (le_big hb2)
  exact ⟨z1, z2, ⟨hz1, hz2⟩, Rat.le_trans (Rel.bound hzr1 hu hb1) (big_of Rat.le_refl),
    Rat.le_trans (Rel.bound hzr2 hu hb2) (big_of Rat.le_refl),
    (h1.trans hzr1 hu).weaken (by decide +kernel) (by decide +kernel),
    (h2.trans hzr2 hu).weaken (by decide +kernel) (by decide +kernel)⟩

/-- **The error of the power.** -/
theorem powerNumber_error {square : Fl → Fl} (hsq : SquareOk square) (wide : Bool) {x : Cx} {norm : Fl} {a b n v w : Rat} {k : Int}
    (hx : x.Is b32 a b) (hn : norm.val? b64 = some n) (ha : a.abs ≤ 2 ^ 40) (hb : b.abs ≤ 2 ^ 40)
    (hn1 : 1 / 2 ^ 10 ≤ n) (hn2 : n ≤ 2 ^ 40) (hk : k.natAbs ≤ 2 ^ 24)
    (hv : v = a * (((32767 ^ 2 * k : Int) : Rat) * (1 / (n * n)))) (hw : w = b * (((32767 ^ 2 * k : Int) : Rat) * (1 / (n * n))))
    (hv1 : v.abs ≤ 2 ^ 60) (hw1 : w.abs ≤ 2 ^ 60) :
    ∃ p, (powerNumber square wide x norm k).val? b32 = some p ∧ p.abs ≤ 2 ^ 126 ∧ 0 ≤ p ∧
      Rel (1 / 2 ^ 19) (1 / 2 ^ 130) (v * v + w * w) (p * p) := by
  have hu : 0 ≤ uround := by decide +kernel
  have hg := precision_good wide
  obtain ⟨r, i, hy, -, -, h1, h2⟩ := acfScaled_error hsq wide hx hn ha hb hn1 hn2 hk
  rw [← hv] at h1
  rw [← hw] at h2
  have hr := Rat.le_trans (Rel.bound h1 (by decide +kernel) hv1) (show _ ≤ (2 : Rat) ^ 61 by decide +kernel)
  have hi := Rat.le_trans (Rel.bound h2 (by decide +kernel) hw1) (show _ ≤ (2 : Rat) ^ 61 by decide +kernel)
  have hr2 := Rat.le_trans (bound_mul hr hr) (show _ ≤ (2 : Rat) ^ 122 by decide +kernel)
  have hi2 := Rat.le_trans (bound_mul hi hi) (show _ ≤ (2 : Rat) ^ 122 by decide +kernel)
  obtain ⟨r2, m1, e1⟩ := mul_err hg hy.1 hy.1 (Rat.le_trans hr2 (by decide +kernel))
  obtain ⟨i2, m2, e2⟩ := mul_err hg hy.2 hy.2 (Rat.le_trans hi2 (by decide +kernel))
  have f1 := Rat.le_trans (Rel.bound e1 hu hr2) (show _ ≤ (2 : Rat) ^ 123 by decide +kernel)
  have f2 := Rat.le_trans (Rel.bound e2 hu hi2) (show _ ≤ (2 : Rat) ^ 123 by decide +kernel)
  have fs : (r2 + i2).abs ≤ 2 ^ 124 := by
    have := abs_triangle r2 i2
    have e : (2 : Rat) ^ 124 = 2 ^ 123 + 2 ^ 123 := by decide +kernel
    rw [e]
    grind
  obtain ⟨s, m3, e3⟩ := add_err hg m1 m2 (Rat.le_trans fs (by decide +kernel))
  have fs' := Rat.le_trans (Rel.bound e3 hu fs) (show _ ≤ (2 : Rat) ^ 126 by decide +kernel)
  have g1 := ((h1.square (t := 1 / 2 ^ 26) (s := 2 ^ 26) (by decide +kernel) (by decide +kernel) (by decide +kernel)
    (by decide +kernel)).trans e1 hu).weaken (d' := 29 / 2 * uround) (b' := 1 / 2 ^ 140) (by decide +kernel) (by decide +kernel)
  have g2 := ((h2.square (t := 1 / 2 ^ 26) (s := 2 ^ 26) (by decide +kernel) (by decide +kernel) (by decide +kernel)
    (by decide +kernel)).trans e2 hu).weaken (d' := 29 / 2 * uround) (b' := 1 / 2 ^ 140) (by decide +kernel) (by decide +kernel)
  have g3 := (Rel.add g1 g2 (square_nonneg v) (square_nonneg w)).trans e3 hu
  -- the sum is not negative
  have hs0 : 0 ≤ s := add_nonneg_val m1 m2 (mul_self_nonneg hy.1 m1) (mul_self_nonneg hy.2 m2) m3
  obtain ⟨p, m4, hp0, hp1, e4⟩ := sqrt_err hg m3 hs0 (by rwa [Rat.abs_of_nonneg hs0] at fs')
  obtain ⟨z, m5, e5⟩ := to_err good32 m4 (by rw [Rat.abs_of_nonneg hp0]; exact Rat.le_trans hp1 (by decide +kernel))
  refine ⟨z, m5, Rat.le_trans (Rel.bound e5 hu (X := 2 ^ 65) (by rw [Rat.abs_of_nonneg hp0]; exact hp1)) (by decide +kernel),
    to_nonneg good32 m4 hp0 m5, ?_⟩
  have e6 := e5.square (t := 1 / 2 ^ 26) (s := 2 ^ 26) (by decide +kernel) (by decide +kernel) (by decide +kernel) (by decide +kernel)
  exact ((g3.trans e4 (by decide +kernel)).trans e6 (by decide +kernel)).weaken (by decide +kernel) (by decide +kernel)

end Verif.Bor
