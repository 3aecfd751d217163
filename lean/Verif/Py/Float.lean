/-!
# Single and double precision

Conversion between the IEEE 754 bit patterns, as done by `np.float32(x)` and
`struct.unpack('f', b)` (C casts between `float` and `double`, round to nearest, ties to
even; numbers that are too large become infinite).  Signalling NaNs become quiet.
-/
namespace Verif

/-- `m / 2 ^ k` rounded to the nearest integer, ties to even. -/
def roundShift (m k : Nat) : Nat :=
  let q := m / 2 ^ k
  let r := m % 2 ^ k
  if 2 * r > 2 ^ k ∨ (2 * r = 2 ^ k ∧ q % 2 = 1) then q + 1 else q

/-- Exponent and mantissa fields of a double to the bits below the sign of the nearest float. -/
def narrow (e m : Nat) : Nat :=
  if e = 2047 then
    if m = 0 then 255 * 2 ^ 23
    else
      let p := m / 2 ^ 29
      255 * 2 ^ 23 + if p < 2 ^ 22 then p + 2 ^ 22 else p
  else
    let mant := if e = 0 then m else 2 ^ 52 + m
    let e' := if e = 0 then 1 else e
    let bits := if 897 ≤ e' then (e' - 897) * 2 ^ 23 + roundShift mant 29
      else roundShift mant (29 + (897 - e'))
    if bits < 255 * 2 ^ 23 then bits else 255 * 2 ^ 23

/-- Bit pattern of a double to the bit pattern of the nearest float. -/
def f64ToF32 (b : BitVec 64) : BitVec 32 :=
  BitVec.ofNat 32 (b.toNat / 2 ^ 63 * 2 ^ 31 + narrow (b.toNat / 2 ^ 52 % 2 ^ 11) (b.toNat % 2 ^ 52))

/-- Exponent and mantissa fields of a float to those of the double with the same value. -/
def widen (e m : Nat) : Nat × Nat :=
  if e = 255 then
    if m = 0 then (2047, 0)
    else (2047, (if m < 2 ^ 22 then m + 2 ^ 22 else m) * 2 ^ 29)
  else if e = 0 then
    if m = 0 then (0, 0)
    else (m.log2 + 874, (m - 2 ^ m.log2) * 2 ^ (52 - m.log2))
  else (e + 896, m * 2 ^ 29)

/-- Bit pattern of a float to the bit pattern of the double with the same value. -/
def f32ToF64 (b : BitVec 32) : BitVec 64 :=
  let p := widen (b.toNat / 2 ^ 23 % 2 ^ 8) (b.toNat % 2 ^ 23)
  BitVec.ofNat 64 (b.toNat / 2 ^ 31 * 2 ^ 63 + p.1 * 2 ^ 52 + p.2)

/-- A signalling NaN. -/
def IsSNaN (b : BitVec 32) : Prop :=
  b.toNat / 2 ^ 23 % 2 ^ 8 = 255 ∧ 0 < b.toNat % 2 ^ 23 ∧ b.toNat % 2 ^ 23 < 2 ^ 22

instance (b : BitVec 32) : Decidable (IsSNaN b) := inferInstanceAs (Decidable (_ ∧ _))

/-- The bits after a cast to `double` and back: a signalling NaN becomes the quiet one. -/
def quiet32 (b : BitVec 32) : BitVec 32 :=
  if IsSNaN b then BitVec.ofNat 32 (b.toNat + 2 ^ 22) else b

/-! ## The rounding is to the nearest -/

theorem roundShift_nearest (m k : Nat) (n : Nat) :
    ((m : Int) - roundShift m k * 2 ^ k).natAbs ≤ ((m : Int) - n * 2 ^ k).natAbs := by
  have hp : 0 < 2 ^ k := Nat.pow_pos (by omega)
  have hdm := Nat.div_add_mod m (2 ^ k)
  have hr := Nat.mod_lt m hp
  unfold roundShift
  simp only
  generalize hP : (2 : Nat) ^ k = P at *
  have hPI : (2 : Int) ^ k = (P : Int) := by rw [← hP]; simp
  rw [hPI]
  generalize m / P = q at *
  generalize m % P = r at *
  have hc : (P : Int) * q = q * P := Int.mul_comm _ _
  have hm : (m : Int) = q * P + r := by rw [← hc]; omega
  have key : ∀ n : Nat, n ≤ q ∨ q + 1 ≤ n := by intro n; omega
  have h1 : ∀ d : Nat, n = q + 1 + d → ((n : Int) * P = q * P + P + d * P) := by
    rintro d rfl; simp only [Int.natCast_add, Int.add_mul]; omega
  have h2 : ∀ d : Nat, n + d = q → ((n : Int) * P = q * P - d * P) := by
    rintro d rfl; simp only [Int.natCast_add, Int.add_mul]; omega
  have hmul : ∀ d : Nat, (0 : Int) ≤ d * P := by
    intro d; exact Int.mul_nonneg (by omega) (by omega)
  split
  · rename_i hc2
    simp only [Int.natCast_add, Int.add_mul]
    rcases key n with h | h
    · obtain ⟨d, hd⟩ := Nat.exists_eq_add_of_le h
      have := h2 d (by omega)
      have := hmul d
      omega
    · obtain ⟨d, hd⟩ := Nat.exists_eq_add_of_le h
      have := h1 d hd
      have := hmul d
      omega
  · rcases key n with h | h
    · obtain ⟨d, hd⟩ := Nat.exists_eq_add_of_le h
      have := h2 d (by omega)
      have := hmul d
      omega
    · obtain ⟨d, hd⟩ := Nat.exists_eq_add_of_le h
      have := h1 d hd
      have := hmul d
      omega

theorem roundShift_even {m k : Nat} (h : 2 * (m % 2 ^ k) = 2 ^ k) : roundShift m k % 2 = 0 := by
  unfold roundShift
  simp only
  split <;> omega

theorem roundShift_exact (n k : Nat) : roundShift (n * 2 ^ k) k = n := by
  have hp : 0 < 2 ^ k := Nat.pow_pos (by omega)
  unfold roundShift
  simp only [Nat.mul_div_cancel _ hp, Nat.mul_mod_left]
  rw [if_neg (by omega)]

/-! ## Widening is undone by rounding -/

theorem toNat_ofNat64 {n : Nat} (h : n < 2 ^ 64) : (BitVec.ofNat 64 n).toNat = n := by
  rw [BitVec.toNat_ofNat]; exact Nat.mod_eq_of_lt h

theorem ofNat32_eq {b : BitVec 32} {n : Nat} (h : n = b.toNat) : BitVec.ofNat 32 n = b := by
  subst h; simp

theorem widen_lt {e m : Nat} (he : e < 2 ^ 8) (hm : m < 2 ^ 23) :
    (widen e m).1 < 2 ^ 11 ∧ (widen e m).2 < 2 ^ 52 := by
  unfold widen
  split
  · split
    · simp
    · simp only
      split <;> omega
  · split
    · split
      · simp
      · rename_i hm0
        have hk1 : 2 ^ m.log2 ≤ m := Nat.log2_self_le hm0
        have hk2 : m < 2 ^ (m.log2 + 1) := Nat.lt_log2_self
        have hk3 : m.log2 < 23 := (Nat.log2_lt hm0).2 hm
        simp only
        generalize m.log2 = k at *
        refine ⟨by omega, ?_⟩
        have : (m - 2 ^ k) * 2 ^ (52 - k) < 2 ^ k * 2 ^ (52 - k) :=
          Nat.mul_lt_mul_of_pos_right (by rw [Nat.pow_succ] at hk2; omega) (Nat.pow_pos (by omega))
        rw [← Nat.pow_add, show k + (52 - k) = 52 by omega] at this
        exact this
    · simp only; omega

theorem narrow_normal {e m : Nat} (h1 : 897 ≤ e) (h2 : e ≠ 2047) :
    narrow e m = if (e - 897) * 2 ^ 23 + roundShift (2 ^ 52 + m) 29 < 255 * 2 ^ 23
      then (e - 897) * 2 ^ 23 + roundShift (2 ^ 52 + m) 29 else 255 * 2 ^ 23 := by
  have h0 : e ≠ 0 := by omega
  simp only [narrow, if_neg h2, if_neg h0, if_pos h1]

theorem narrow_small {e m : Nat} (h0 : e ≠ 0) (h1 : ¬ 897 ≤ e) :
    narrow e m = if roundShift (2 ^ 52 + m) (29 + (897 - e)) < 255 * 2 ^ 23
      then roundShift (2 ^ 52 + m) (29 + (897 - e)) else 255 * 2 ^ 23 := by
  have h2 : e ≠ 2047 := by omega
  simp only [narrow, if_neg h2, if_neg h0, if_neg h1]

theorem narrow_zero : narrow 0 0 = 0 := by
  have h3 : ∀ k, roundShift 0 k = 0 := fun k => by
    have := roundShift_exact 0 k; rwa [Nat.zero_mul] at this
  have h1 : ¬ (0 : Nat) = 2047 := by decide
  have h2 : ¬ 897 ≤ 1 := by decide
  simp only [narrow, if_neg h1, if_true, if_neg h2, h3]
  rfl

theorem narrow_widen {e m : Nat} (he : e < 2 ^ 8) (hm : m < 2 ^ 23)
    (h : ¬ (e = 255 ∧ 0 < m ∧ m < 2 ^ 22)) :
    narrow (widen e m).1 (widen e m).2 = e * 2 ^ 23 + m := by
  unfold widen
  split
  · rename_i he1
    subst he1
    split
    · rename_i hm0
      subst hm0
      rfl
    · rename_i hm0
      have hq : ¬ m < 2 ^ 22 := by omega
      simp only [narrow, if_true, hq, if_false]
      rw [if_neg (by omega), Nat.mul_div_cancel _ (by omega), if_neg hq]
  · split
    · rename_i he0
      subst he0
      split
      · rename_i hm0
        subst hm0
        exact narrow_zero
      · rename_i hm0
        have hk1 : 2 ^ m.log2 ≤ m := Nat.log2_self_le hm0
        have hk3 : m.log2 < 23 := (Nat.log2_lt hm0).2 hm
        generalize m.log2 = k at *
        have hM : 2 ^ 52 + (m - 2 ^ k) * 2 ^ (52 - k) = m * 2 ^ (52 - k) := by
          have : 2 ^ 52 = 2 ^ k * 2 ^ (52 - k) := by rw [← Nat.pow_add, show k + (52 - k) = 52 by omega]
          rw [this, ← Nat.add_mul, Nat.add_sub_cancel' hk1]
        rw [narrow_small (by omega) (by omega), hM,
          show 29 + (897 - (k + 874)) = 52 - k by omega, roundShift_exact, if_pos (by omega)]
        simp
    · rename_i he1 he0
      have hM : 2 ^ 52 + m * 2 ^ 29 = (2 ^ 23 + m) * 2 ^ 29 := by omega
      rw [narrow_normal (by omega) (by omega), hM, roundShift_exact, if_pos (by omega)]
      omega

/-- A float survives being widened and packed again, unless it is a signalling NaN. -/
theorem f64ToF32_f32ToF64 {b : BitVec 32} (h : ¬ IsSNaN b) : f64ToF32 (f32ToF64 b) = b := by
  have hb := b.isLt
  have hlt := @widen_lt (b.toNat / 2 ^ 23 % 2 ^ 8) (b.toNat % 2 ^ 23) (by omega) (by omega)
  have hnw := narrow_widen (e := b.toNat / 2 ^ 23 % 2 ^ 8) (m := b.toNat % 2 ^ 23) (by omega) (by omega) h
  unfold f64ToF32 f32ToF64
  simp only
  generalize widen (b.toNat / 2 ^ 23 % 2 ^ 8) (b.toNat % 2 ^ 23) = p at *
  obtain ⟨e, m⟩ := p
  simp only at hlt hnw ⊢
  obtain ⟨h1, h2⟩ := hlt
  rw [toNat_ofNat64 (by omega)]
  have e1 : (b.toNat / 2 ^ 31 * 2 ^ 63 + e * 2 ^ 52 + m) / 2 ^ 52 % 2 ^ 11 = e := by omega
  have e2 : (b.toNat / 2 ^ 31 * 2 ^ 63 + e * 2 ^ 52 + m) % 2 ^ 52 = m := by omega
  have e3 : (b.toNat / 2 ^ 31 * 2 ^ 63 + e * 2 ^ 52 + m) / 2 ^ 63 = b.toNat / 2 ^ 31 := by omega
  rw [e1, e2, e3, hnw, ofNat32_eq]
  omega

theorem quiet32_of_not {b : BitVec 32} (h : ¬ IsSNaN b) : quiet32 b = b := if_neg h

theorem quiet32_toNat {b : BitVec 32} (h : IsSNaN b) : (quiet32 b).toNat = b.toNat + 2 ^ 22 := by
  have hb := b.isLt
  obtain ⟨h1, h2, h3⟩ := h
  rw [quiet32, if_pos ⟨h1, h2, h3⟩, BitVec.toNat_ofNat, Nat.mod_eq_of_lt (by omega)]

theorem quiet32_not (b : BitVec 32) : ¬ IsSNaN (quiet32 b) := by
  by_cases h : IsSNaN b
  · rintro ⟨h1, h2, h3⟩
    rw [quiet32_toNat h] at h1 h2 h3
    obtain ⟨k1, k2, k3⟩ := h
    omega
  · rwa [quiet32_of_not h]

theorem quiet32_idem (b : BitVec 32) : quiet32 (quiet32 b) = quiet32 b := quiet32_of_not (quiet32_not b)

/-- A NaN, signalling or quiet. -/
def IsNaN32 (b : BitVec 32) : Prop := b.toNat / 2 ^ 23 % 2 ^ 8 = 255 ∧ 0 < b.toNat % 2 ^ 23

instance (b : BitVec 32) : Decidable (IsNaN32 b) := inferInstanceAs (Decidable (_ ∧ _))

/-- Only bits of NaNs are changed. -/
theorem quiet32_inj {b c : BitVec 32} (h : quiet32 b = quiet32 c) (hn : ¬ IsNaN32 (quiet32 b)) : b = c := by
  have key : ∀ {x : BitVec 32}, ¬ IsNaN32 (quiet32 x) → quiet32 x = x := by
    intro x hx
    refine quiet32_of_not fun hs => hx ?_
    have ht := quiet32_toNat hs
    obtain ⟨k1, k2, k3⟩ := hs
    unfold IsNaN32
    rw [ht]
    omega
  have h1 := key hn
  rw [h] at hn
  rw [← h1, h, key hn]

theorem f32ToF64_quiet (b : BitVec 32) : f32ToF64 (quiet32 b) = f32ToF64 b := by
  by_cases h : IsSNaN b
  · have ht := quiet32_toNat h
    obtain ⟨k1, k2, k3⟩ := h
    have e1 : (b.toNat + 2 ^ 22) / 2 ^ 23 % 2 ^ 8 = 255 := by omega
    have e2 : (b.toNat + 2 ^ 22) % 2 ^ 23 = b.toNat % 2 ^ 23 + 2 ^ 22 := by omega
    have e3 : (b.toNat + 2 ^ 22) / 2 ^ 31 = b.toNat / 2 ^ 31 := by omega
    unfold f32ToF64
    simp only
    rw [ht, e1, e2, e3, k1]
    simp only [widen, if_true]
    rw [if_neg (by omega), if_neg (by omega), if_neg (by omega), if_pos k3]
  · rw [quiet32_of_not h]

/-- Rounding gives no signalling NaN. -/
theorem f64ToF32_not (b : BitVec 64) : ¬ IsSNaN (f64ToF32 b) := by
  have hb := b.isLt
  have key : ∀ e m, m < 2 ^ 52 → narrow e m ≤ 255 * 2 ^ 23 ∨ 255 * 2 ^ 23 + 2 ^ 22 ≤ narrow e m ∧ narrow e m < 2 ^ 31 := by
    intro e m hm
    unfold narrow
    split
    · split
      · exact .inl (Nat.le_refl _)
      · simp only
        split <;> omega
    · simp only
      generalize (if 897 ≤ _ then _ else _ : Nat) = bits
      split <;> omega
  have h := key (b.toNat / 2 ^ 52 % 2 ^ 11) (b.toNat % 2 ^ 52) (by omega)
  rintro ⟨h1, h2, h3⟩
  unfold f64ToF32 at h1 h2 h3
  generalize narrow (b.toNat / 2 ^ 52 % 2 ^ 11) (b.toNat % 2 ^ 52) = n at *
  have hc : b.toNat / 2 ^ 63 * 2 ^ 31 + n < 2 ^ 32 := by omega
  rw [BitVec.toNat_ofNat, Nat.mod_eq_of_lt hc] at h1 h2 h3
  omega

/-- A finite double of at least 2^128 becomes infinite. -/
theorem f64ToF32_large {b : BitVec 64} (h1 : 1151 ≤ b.toNat / 2 ^ 52 % 2 ^ 11) (h2 : b.toNat / 2 ^ 52 % 2 ^ 11 < 2047) :
    f64ToF32 b = BitVec.ofNat 32 (b.toNat / 2 ^ 63 * 2 ^ 31 + 255 * 2 ^ 23) := by
  have hb := b.isLt
  have key : ∀ e m, 1151 ≤ e → e < 2047 → narrow e m = 255 * 2 ^ 23 := by
    intro e m h1 h2
    unfold narrow
    rw [if_neg (by omega)]
    simp only
    have hz : e ≠ 0 := by omega
    have hr : 2 ^ 23 ≤ roundShift (2 ^ 52 + m) 29 := by
      unfold roundShift
      simp only
      split <;> omega
    simp only [if_neg hz]
    rw [if_pos (by omega : 897 ≤ e)]
    rw [if_neg (by omega)]
  unfold f64ToF32
  rw [key _ _ h1 h2]

/-- Widened and rounded again a float is as it was, or quiet. -/
theorem f64ToF32_quiet (b : BitVec 32) : f64ToF32 (f32ToF64 b) = quiet32 b := by
  rw [← f32ToF64_quiet]
  exact f64ToF32_f32ToF64 (quiet32_not b)

/-- 1.5 and the smallest subnormal; 0.1 is rounded; 1e300 becomes infinite; a signalling NaN becomes quiet. -/
example : f64ToF32 0x3FF8000000000000#64 = 0x3FC00000#32 ∧ f32ToF64 0x00000001#32 = 0x36A0000000000000#64 ∧
    f64ToF32 0x3FB999999999999A#64 = 0x3DCCCCCD#32 ∧ f64ToF32 0x7E37E43C8800759C#64 = 0x7F800000#32 ∧
    f64ToF32 0xFE37E43C8800759C#64 = 0xFF800000#32 ∧ f64ToF32 (f32ToF64 0x7F800001#32) = 0x7FC00001#32 := by
  decide +kernel

end Verif
