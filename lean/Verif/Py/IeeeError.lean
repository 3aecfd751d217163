import Verif.Py.IeeeLemmas
/-!
# Rounding errors

The standard model of floating point errors: the result of an operation differs from the exact one by at most a
fraction of it and a tiny number.  The bounds are those of float32, which hold for float64 too.
-/
namespace Verif.Ieee

/-! ## Approximation -/

/-- `y` differs from `x` by at most the fraction `d` of it and `b`. -/
def Rel (d b x y : Rat) : Prop := (y - x).abs ≤ d * x.abs + b

theorem abs_cases (x : Rat) : 0 ≤ x ∧ x.abs = x ∨ x ≤ 0 ∧ x.abs = -x := by
  rcases Rat.le_total (a := 0) (b := x) with h | h
  · exact .inl ⟨h, Rat.abs_of_nonneg h⟩
  · exact .inr ⟨h, Rat.abs_of_nonpos h⟩

theorem abs_prod (x y : Rat) : (x * y).abs = x.abs * y.abs := by
  rcases abs_cases x with ⟨hx, h1⟩ | ⟨hx, h1⟩ <;> rcases abs_cases y with ⟨hy, h2⟩ | ⟨hy, h2⟩ <;> rw [h1, h2]
  · exact Rat.abs_of_nonneg (Rat.mul_nonneg hx hy)
  · have := Rat.mul_nonneg hx (show 0 ≤ -y by grind)
    rw [Rat.abs_of_nonpos (by grind)]
    grind
  · have := Rat.mul_nonneg (show 0 ≤ -x by grind) hy
    rw [Rat.abs_of_nonpos (by grind)]
    grind
  · have := Rat.mul_nonneg (show 0 ≤ -x by grind) (show 0 ≤ -y by grind)
    rw [Rat.abs_of_nonneg (by grind)]
    grind

theorem abs_triangle (x y : Rat) : (x + y).abs ≤ x.abs + y.abs := by
  have h1 := abs_cases x
  have h2 := abs_cases y
  have h3 := abs_cases (x + y)
  grind

theorem Rel.refl {d b : Rat} (x : Rat) (hd : 0 ≤ d) (hb : 0 ≤ b) : Rel d b x x := by
  unfold Rel
  have := Rat.mul_nonneg hd (Rat.abs_nonneg (x := x))
  rw [Rat.sub_self, Rat.abs_zero]
  grind

theorem Rel.weaken {d b d' b' x y : Rat} (h : Rel d b x y) (hd : d ≤ d') (hb : b ≤ b') : Rel d' b' x y := by
  unfold Rel at *
  have := Rat.mul_le_mul_of_nonneg_right hd (Rat.abs_nonneg (x := x))
  grind

theorem Rel.size {d b x y : Rat} (h : Rel d b x y) : y.abs ≤ x.abs + d * x.abs + b := by
  unfold Rel at h
  have := abs_triangle x (y - x)
  rw [show x + (y - x) = y by grind] at this
  grind

theorem Rel.trans {d b e c x y z : Rat} (h : Rel d b x y) (h' : Rel e c y z) (he : 0 ≤ e) :
    Rel (d + e + d * e) (b + e * b + c) x z := by
  have h1 := h.size
  unfold Rel at *
  have h2 := abs_triangle (z - y) (y - x)
  rw [show z - y + (y - x) = z - x by grind] at h2
  have h3 := Rat.mul_le_mul_of_nonneg_left h1 he
  grind

theorem Rel.mul {d b e c x y z w X Z : Rat} (h : Rel d b x y) (h' : Rel e c z w) (hd : 0 ≤ d) (hb : 0 ≤ b) (he : 0 ≤ e) (hc : 0 ≤ c)
    (hx : x.abs ≤ X) (hz : z.abs ≤ Z) :
    Rel (d + e + d * e) (b * (Z + e * Z + c) + X * c + d * X * c) (x * z) (y * w) := by
  have h1 := h'.size
  unfold Rel at *
  have h2 := abs_triangle ((y - x) * w) (x * (w - z))
  rw [show (y - x) * w + x * (w - z) = y * w - x * z by grind, abs_prod, abs_prod] at h2
  have hxn := Rat.abs_nonneg (x := x)
  have hzn := Rat.abs_nonneg (x := z)
  have hwn := Rat.abs_nonneg (x := w)
  rw [abs_prod]
  have g1 := Rat.mul_le_mul_of_nonneg_right h hwn
  have g2 := Rat.mul_le_mul_of_nonneg_left h' hxn
  have g3 := Rat.mul_le_mul_of_nonneg_left h1 (Rat.mul_nonneg hd hxn)
  have g4 := Rat.mul_le_mul_of_nonneg_left h1 hb
  have g5 := Rat.mul_le_mul_of_nonneg_left hz (Rat.mul_nonneg hb he)
  have g6 := Rat.mul_le_mul_of_nonneg_left hz hb
  have g7 := Rat.mul_le_mul_of_nonneg_right hx hc
  have g8 := Rat.mul_le_mul_of_nonneg_left hx (Rat.mul_nonneg hd hc)
  grind

/-- A tiny error is a fraction of a number that is not tiny. -/
theorem Rel.absorb {d b x y m : Rat} (h : Rel d b x y) (hm : m ≤ x.abs) (hb : 0 ≤ b) (hpos : 0 < m) : Rel (d + b / m) 0 x y := by
  unfold Rel at *
  have : b / m * m = b := Rat.div_mul_cancel (Rat.ne_of_gt hpos)
  have h1 : 0 ≤ b / m := by
    refine Rat.le_of_mul_le_mul_right (c := m) ?_ hpos
    rw [this, Rat.zero_mul]
    exact hb
  have := Rat.mul_le_mul_of_nonneg_left hm h1
  grind

/-- The reciprocal. -/
theorem Rel.inv {d e n m : Rat} (h : Rel d 0 n m) (hn : 0 < n) (hd : d < 1) (he : d ≤ e * (1 - d)) (he0 : 0 ≤ e) :
    0 < m ∧ Rel e 0 (1 / n) (1 / m) := by
  unfold Rel at *
  rw [Rat.abs_of_nonneg (Rat.le_of_lt hn)] at h
  have h1 : (1 - d) * n ≤ m := by
    have := abs_cases (m - n)
    grind
  have hm : 0 < m := by
    have := Rat.mul_pos (show 0 < 1 - d by grind) hn
    grind
  refine ⟨hm, ?_⟩
  have e1 : 1 / n * n = 1 := Rat.div_mul_cancel (Rat.ne_of_gt hn)
  have e2 : 1 / m * m = 1 := Rat.div_mul_cancel (Rat.ne_of_gt hm)
  have hin : 0 < 1 / n := by
    rw [Rat.div_def, Rat.one_mul]
    exact Rat.inv_pos.2 hn
  have him : 0 < 1 / m := by
    rw [Rat.div_def, Rat.one_mul]
    exact Rat.inv_pos.2 hm
  rw [Rat.abs_of_nonneg (Rat.le_of_lt hin)]
  have hk : (1 / m - 1 / n).abs = (m - n).abs * (1 / m) * (1 / n) := by
    rw [show 1 / m - 1 / n = (n - m) * (1 / m) * (1 / n) by grind, abs_prod, abs_prod,
      Rat.abs_of_nonneg (Rat.le_of_lt hin), Rat.abs_of_nonneg (Rat.le_of_lt him), Rat.abs_sub_comm]
  rw [hk]
  -- `|m - n| * (1 / m) ≤ d * n * (1 / m) ≤ e * (1 - d) * n * (1 / m) ≤ e`
  have g1 := Rat.mul_le_mul_of_nonneg_right h (Rat.le_of_lt him)
  have g2 := Rat.mul_le_mul_of_nonneg_right (Rat.mul_le_mul_of_nonneg_right he (Rat.le_of_lt hn)) (Rat.le_of_lt him)
  have g3 := Rat.mul_le_mul_of_nonneg_right (Rat.mul_le_mul_of_nonneg_left h1 he0) (Rat.le_of_lt him)
  have g4 : (m - n).abs * (1 / m) ≤ e := by
    rw [Rat.mul_assoc e m, Rat.mul_comm m, e2, Rat.mul_one] at g3
    generalize 1 / m = i at *
    grind
  have := Rat.mul_le_mul_of_nonneg_right g4 (Rat.le_of_lt hin)
  grind

/-! ## Operations -/

/-- A format that is at least as precise as float32. -/
structure Fmt.Good (f : Fmt) : Prop where
  mant : 23 ≤ f.mant
  unit : 149 ≤ f.unit
  le : f.mant ≤ f.unit
  top : 126 + f.unit + 1 < f.top + f.mant

theorem good32 : b32.Good := ⟨by decide, by decide, by decide, by decide⟩
theorem good64 : b64.Good := ⟨by decide, by decide, by decide, by decide⟩

/-- The unit roundoff of float32. -/
def uround : Rat := 1 / 2 ^ 24
/-- Half of the smallest float32. -/
def utiny : Rat := 1 / 2 ^ 150

theorem val_num (f : Fmt) (s : Bool) (m : Nat) : (Fl.num s m).val? f = some (signed s (f.abs m)) := rfl

theorem num_of_val {f : Fmt} {x : Fl} {a : Rat} (h : x.val? f = some a) : ∃ s m, x = .num s m ∧ a = signed s (f.abs m) := by
  cases x with
  | num s m =>
    cases h
    exact ⟨s, m, rfl, rfl⟩
  | inf s => cases h
  | nan => cases h

theorem signed_abs (s : Bool) {x : Rat} (h : 0 ≤ x) : (signed s x).abs = x := by
  cases s
  · exact Rat.abs_of_nonneg h
  · unfold signed
    rw [if_pos rfl, Rat.abs_neg, Rat.abs_of_nonneg h]

theorem signed_mul (s t : Bool) (x y : Rat) : signed (s != t) (x * y) = signed s x * signed t y := by
  cases s <;> cases t <;> simp [signed] <;> grind

theorem signed_div (s t : Bool) (x y : Rat) : signed (s != t) (x / y) = signed s x / signed t y := by
  have hy : (-y)⁻¹ = -(y⁻¹) := by
    by_cases h : y = 0
    · subst h; decide +kernel
    · exact Rat.inv_eq_of_mul_eq_one (by have := Rat.mul_inv_cancel y h; grind)
  cases s <;> cases t <;> simp [signed, Rat.div_def, hy] <;> grind

theorem signed_rel {d b x y : Rat} (s : Bool) (h : Rel d b x y) : Rel d b (signed s x) (signed s y) := by
  cases s
  · exact h
  · unfold Rel signed at *
    simp only [if_true]
    rw [show -y - -x = -(y - x) by grind, Rat.abs_neg, Rat.abs_neg]
    exact h

/-- Rounding a number that is not too large. -/
theorem ofAbs_err {f : Fmt} (hf : f.Good) (neg : Bool) {x : Rat} (h0 : 0 ≤ x) (h : x ≤ 2 ^ 126) :
    ∃ m, f.ofAbs neg x = .num neg m ∧ Rel uround utiny x (f.abs m) := by
  refine ⟨_, (ofAbs_num h0 h hf.le hf.top neg).1, ?_⟩
  have hP := pow2_posR f.unit
  obtain ⟨e, q, -, h2, h3, h4, h5, -⟩ := roundUnits_spec f.mant (x := x * 2 ^ f.unit) (Rat.mul_nonneg h0 (Rat.le_of_lt hP))
  have ha : f.abs (roundUnits f.mant (x * 2 ^ f.unit)) * 2 ^ f.unit = q * 2 ^ e := by
    rw [abs_mul, h2, Rat.natCast_mul, natCast_pow2]
  generalize f.abs (roundUnits f.mant (x * 2 ^ f.unit)) = y at ha ⊢
  -- half a unit in the last place
  have hu : (2 : Rat) ^ e / 2 ≤ (uround * x + utiny) * 2 ^ f.unit := by
    have g1 : (1 : Rat) / 2 ≤ utiny * 2 ^ f.unit := by
      obtain ⟨i, hi⟩ := Nat.le.dest hf.unit
      rw [← hi, pow2_add]
      have : (1 : Rat) ≤ 2 ^ i := by
        rw [← natCast_pow2]
        have := Rat.natCast_le_natCast.2 (pow2_pos i)
        simpa using this
      have h2 : utiny * 2 ^ 149 = 1 / 2 := by decide +kernel
      have := Rat.mul_le_mul_of_nonneg_left this (show (0 : Rat) ≤ 1 / 2 by decide +kernel)
      rw [← Rat.mul_assoc, h2]
      clear h5 h3 h4
      grind
    have g2 : 0 ≤ uround * x := Rat.mul_nonneg (by decide +kernel) h0
    rcases h5 with rfl | h5
    · have := Rat.mul_nonneg g2 (Rat.le_of_lt hP)
      rw [Rat.pow_zero]
      clear h3 h4
      grind
    · obtain ⟨i, hi⟩ := Nat.le.dest hf.mant
      rw [← hi, pow2_add, pow2_add] at h5
      have h6 : (1 : Rat) ≤ 2 ^ i := by
        rw [← natCast_pow2]
        have := Rat.natCast_le_natCast.2 (pow2_pos i)
        simpa using this
      have h7 := Rat.mul_le_mul_of_nonneg_right h6 (Rat.le_of_lt (pow2_posR e))
      have h8 : (2 : Rat) ^ 23 = 8388608 := by decide +kernel
      have h9 : uround = 1 / 16777216 := by decide +kernel
      have : 0 ≤ utiny * 2 ^ f.unit := Rat.mul_nonneg (by decide +kernel) (Rat.le_of_lt hP)
      rw [h8] at h5
      rw [h9]
      grind
  unfold Rel
  rw [Rat.abs_of_nonneg h0]
  have h3' : (x - y) * 2 ^ f.unit ≤ (uround * x + utiny) * 2 ^ f.unit := by grind
  have h4' : (y - x) * 2 ^ f.unit ≤ (uround * x + utiny) * 2 ^ f.unit := by grind
  have := Rat.le_of_mul_le_mul_right h3' hP
  have := Rat.le_of_mul_le_mul_right h4' hP
  have := abs_cases (y - x)
  grind

theorem ofRat_err {f : Fmt} (hf : f.Good) {x : Rat} (h : x.abs ≤ 2 ^ 126) :
    ∃ r, (f.ofRat x).val? f = some r ∧ Rel uround utiny x r := by
  unfold Fmt.ofRat
  by_cases hx : x < 0
  · rw [if_pos hx]
    rw [Rat.abs_of_nonpos (Rat.le_of_lt hx)] at h
    obtain ⟨m, h1, h2⟩ := ofAbs_err hf true (x := -x) (by grind) h
    rw [h1]
    have := signed_rel true h2
    rw [show signed true (-x) = x by simp [signed]] at this
    exact ⟨_, rfl, this⟩
  · rw [if_neg hx]
    have hx := Rat.not_lt.1 hx
    rw [Rat.abs_of_nonneg hx] at h
    obtain ⟨m, h1, h2⟩ := ofAbs_err hf false hx h
    rw [h1]
    exact ⟨_, rfl, h2⟩

theorem mul_err {f : Fmt} (hf : f.Good) {x y : Fl} {a b : Rat} (hx : x.val? f = some a) (hy : y.val? f = some b)
    (h : (a * b).abs ≤ 2 ^ 126) : ∃ r, (f.mul x y).val? f = some r ∧ Rel uround utiny (a * b) r := by
  obtain ⟨s, m, rfl, rfl⟩ := num_of_val hx
  obtain ⟨t, n, rfl, rfl⟩ := num_of_val hy
  rw [mul_num]
  rw [← signed_mul] at h ⊢
  have h0 := Rat.mul_nonneg (abs_nonneg f m) (abs_nonneg f n)
  rw [signed_abs _ h0] at h
  obtain ⟨k, h1, h2⟩ := ofAbs_err hf (s != t) h0 h
  rw [h1]
  exact ⟨_, rfl, signed_rel _ h2⟩

theorem abs_zero_num (f : Fmt) : f.abs 0 = 0 := by
  unfold Fmt.abs
  rw [units_zero, Rat.div_def]
  exact Rat.zero_mul _

theorem abs_eq_zero {f : Fmt} {m : Nat} (h : f.abs m = 0) : m = 0 := by
  have := abs_mul f m
  rw [h, Rat.zero_mul] at this
  exact units_eq_zero.1 (Rat.natCast_inj.1 this.symm)

theorem signed_zero {s : Bool} {x : Rat} (h : signed s x = 0) : x = 0 := by
  cases s
  · exact h
  · unfold signed at h
    simp only [if_true] at h
    grind

theorem div_err {f : Fmt} (hf : f.Good) {x y : Fl} {a b : Rat} (hx : x.val? f = some a) (hy : y.val? f = some b)
    (hb : b ≠ 0) (h : (a / b).abs ≤ 2 ^ 126) : ∃ r, (f.div x y).val? f = some r ∧ Rel uround utiny (a / b) r := by
  obtain ⟨s, m, rfl, rfl⟩ := num_of_val hx
  obtain ⟨t, n, rfl, rfl⟩ := num_of_val hy
  have hn : n ≠ 0 := by
    intro h
    subst h
    rw [abs_zero_num] at hb
    cases t <;> simp [signed] at hb
  rw [div_num hn]
  rw [← signed_div] at h ⊢
  have h0 : 0 ≤ f.abs m / f.abs n := by
    rw [Rat.div_def]
    refine Rat.mul_nonneg (abs_nonneg f m) ?_
    have : 0 < f.abs n := by
      have h1 := abs_nonneg f n
      have h2 : f.abs n ≠ 0 := fun h => hn (abs_eq_zero h)
      grind
    exact Rat.le_of_lt (Rat.inv_pos.2 this)
  rw [signed_abs _ h0] at h
  obtain ⟨k, h1, h2⟩ := ofAbs_err hf (s != t) h0 h
  rw [h1]
  exact ⟨_, rfl, signed_rel _ h2⟩

theorem to_err {f g : Fmt} (hg : g.Good) {x : Fl} {a : Rat} (hx : x.val? f = some a) (h : a.abs ≤ 2 ^ 126) :
    ∃ r, (f.to g x).val? g = some r ∧ Rel uround utiny a r := by
  obtain ⟨s, m, rfl, rfl⟩ := num_of_val hx
  rw [signed_abs _ (abs_nonneg f m)] at h
  obtain ⟨k, h1, h2⟩ := ofAbs_err hg s (abs_nonneg f m) h
  refine ⟨_, ?_, signed_rel s h2⟩
  show (g.ofAbs s (f.abs m)).val? g = _
  rw [h1]
  rfl

/-! ## Exact operations -/

theorem small_num {f : Fmt} (hf : f.Good) {m : Nat} (h : f.abs m ≤ 2 ^ 126) : m < f.top * 2 ^ f.mant := by
  have := (ofAbs_num (abs_nonneg f m) h hf.le hf.top false).2
  rwa [abs_mul, roundUnits_exact] at this

theorem mul_zero_val {f : Fmt} (hf : f.Good) {x y : Fl} {a : Rat} (hx : x.val? f = some a) (hy : y.val? f = some 0) :
    (f.mul x y).val? f = some 0 := by
  obtain ⟨s, m, rfl, rfl⟩ := num_of_val hx
  obtain ⟨t, n, rfl, h⟩ := num_of_val hy
  have h := signed_zero h.symm
  rw [mul_num, h, Rat.mul_zero, ofAbs_exact (b := 0) (abs_zero_num f).symm (small_num hf (by rw [abs_zero_num]; decide +kernel)), val_num,
    abs_zero_num]
  cases (s != t) <;> rfl

theorem ofRat_val {f : Fmt} (hf : f.Good) {s : Bool} {m : Nat} (h : f.abs m ≤ 2 ^ 126) :
    (f.ofRat (signed s (f.abs m))).val? f = some (signed s (f.abs m)) := by
  have h0 := abs_nonneg f m
  have hlt := small_num hf h
  unfold Fmt.ofRat
  cases s
  · rw [show signed false (f.abs m) = f.abs m from rfl, if_neg (Rat.not_lt.2 h0)]
    rw [ofAbs_exact rfl hlt]
    rfl
  · by_cases hz : f.abs m = 0
    · rw [hz]
      rw [if_neg (by simp [signed])]
      rw [show signed true 0 = 0 by simp [signed], ofAbs_exact (b := 0) (abs_zero_num f).symm (by omega)]
      rw [val_num, abs_zero_num]
      rfl
    · rw [if_pos (by simp [signed]; grind), show -(signed true (f.abs m)) = f.abs m by simp [signed], ofAbs_exact rfl hlt]
      rfl

theorem add_zero_val {f : Fmt} (hf : f.Good) {x y : Fl} {a : Rat} (hx : x.val? f = some a) (hy : y.val? f = some 0)
    (h : a.abs ≤ 2 ^ 126) : (f.add x y).val? f = some a := by
  obtain ⟨s, m, rfl, rfl⟩ := num_of_val hx
  obtain ⟨t, n, rfl, hn⟩ := num_of_val hy
  rw [signed_abs _ (abs_nonneg f m)] at h
  have hz := signed_zero hn.symm
  have hn0 := abs_eq_zero hz
  unfold Fmt.add
  simp only
  by_cases hm : m = 0
  · rw [if_pos ⟨hm, hn0⟩, val_num, hm, abs_zero_num]
    cases s <;> cases t <;> rfl
  · rw [if_neg (fun h => hm h.1), ← hn, Rat.add_zero]
    exact ofRat_val hf h

theorem zero_add_val {f : Fmt} (hf : f.Good) {x y : Fl} {a : Rat} (hx : x.val? f = some 0) (hy : y.val? f = some a)
    (h : a.abs ≤ 2 ^ 126) : (f.add x y).val? f = some a := by
  obtain ⟨s, m, rfl, hm⟩ := num_of_val hx
  obtain ⟨t, n, rfl, rfl⟩ := num_of_val hy
  rw [signed_abs _ (abs_nonneg f n)] at h
  have hz := signed_zero hm.symm
  have hm0 := abs_eq_zero hz
  unfold Fmt.add
  simp only
  by_cases hn : n = 0
  · rw [if_pos ⟨hm0, hn⟩, val_num, hn, abs_zero_num]
    cases s <;> cases t <;> rfl
  · rw [if_neg (fun h => hn h.2), ← hm, Rat.zero_add]
    exact ofRat_val hf h

theorem neg_val {f : Fmt} {x : Fl} {a : Rat} (hx : x.val? f = some a) : x.neg.val? f = some (-a) := by
  obtain ⟨s, m, rfl, rfl⟩ := num_of_val hx
  show some _ = some _
  cases s <;> simp [signed]

theorem sub_zero_val {f : Fmt} (hf : f.Good) {x y : Fl} {a : Rat} (hx : x.val? f = some a) (hy : y.val? f = some 0)
    (h : a.abs ≤ 2 ^ 126) : (f.sub x y).val? f = some a :=
  add_zero_val hf hx (by have := neg_val hy; simpa using this) h

/-- To a format that is at least as precise. -/
theorem to_val {f g : Fmt} (hg : g.Good) (hm : f.mant ≤ g.mant) (hu : f.unit ≤ g.unit) {x : Fl} {a : Rat}
    (hx : x.val? f = some a) (h : a.abs ≤ 2 ^ 126) : (f.to g x).val? g = some a := by
  obtain ⟨s, m, rfl, rfl⟩ := num_of_val hx
  rw [signed_abs _ (abs_nonneg f m)] at h
  obtain ⟨e, q, -, -, hq, hx⟩ := units_form f.mant m
  have hq' : q < 2 ^ (g.mant + 1) := Nat.lt_of_lt_of_le hq (Nat.pow_le_pow_right (by decide) (by omega))
  obtain ⟨b, hb⟩ := units_rep hq' (e + (g.unit - f.unit))
  have hab : g.abs b = f.abs m := by
    have h1 := abs_mul f m
    have h2 := abs_mul g b
    have h3 : (2 : Rat) ^ g.unit = 2 ^ f.unit * 2 ^ (g.unit - f.unit) := by rw [← pow2_add]; congr 1; omega
    rw [hb, Rat.natCast_mul, natCast_pow2, pow2_add, h3] at h2
    rw [hx, Rat.natCast_mul, natCast_pow2] at h1
    have hp1 := pow2_posR f.unit
    have hp2 := pow2_posR (g.unit - f.unit)
    have h4 : g.abs b * (2 ^ f.unit * 2 ^ (g.unit - f.unit)) = f.abs m * (2 ^ f.unit * 2 ^ (g.unit - f.unit)) := by grind
    have hp := Rat.mul_pos hp1 hp2
    exact Rat.le_antisymm (Rat.le_of_mul_le_mul_right (by rw [h4]; exact Rat.le_refl) hp)
      (Rat.le_of_mul_le_mul_right (by rw [h4]; exact Rat.le_refl) hp)
  show (g.ofAbs s (f.abs m)).val? g = _
  rw [ofAbs_exact hab.symm (small_num hg (by rw [hab]; exact h)), val_num, hab]

/-- Whole numbers that are not too large. -/
theorem ofRat_int {f : Fmt} (hf : f.Good) {n : Int} (h : n.natAbs < 2 ^ (f.mant + 1)) (h' : n.natAbs ≤ 2 ^ 126) :
    (f.ofRat (n : Rat)).val? f = some (n : Rat) := by
  obtain ⟨b, hb⟩ := units_rep h f.unit
  have hab : f.abs b = (n.natAbs : Rat) := by
    unfold Fmt.abs
    rw [hb, Rat.natCast_mul, natCast_pow2, Rat.mul_div_cancel (pow2_ne _)]
  have hle : f.abs b ≤ 2 ^ 126 := by
    rw [hab, ← natCast_pow2]
    exact Rat.natCast_le_natCast.2 h'
  have hn : (n : Rat) = signed (decide (n < 0)) (f.abs b) := by
    rw [hab]
    by_cases hneg : n < 0
    · simp only [signed, hneg, decide_true, if_true]
      rw [← Rat.intCast_natCast, ← Rat.intCast_neg]
      congr 1
      omega
    · simp only [signed, hneg, decide_false]
      rw [if_neg (by decide), ← Rat.intCast_natCast]
      congr 1
      omega
  rw [hn]
  exact ofRat_val hf hle

end Verif.Ieee
