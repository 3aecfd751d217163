import Verif.Dmap.Props.Convert
import Verif.Py.FloatIeee
import Verif.Borealis.Lemmas.Header
/-!
# C33: the numbers that are written

Python floats are written in single precision.  `IsF64`, `IsF32` and `Nearest32` (`SpecScale.lean`, `SpecHeader.lean`) say
which numbers bit patterns stand for.
-/
namespace Verif
open Spec Ieee Bor

theorem isF64_not_nan {b : BitVec 64} {x : Rat} (h : IsF64 b x) : b64.ofBits b.toNat ≠ .nan := by
  have hv := (isF64_iff _ _).1 h
  intro e
  rw [e] at hv
  cases hv

/-- **C33.** A Python float comes back as the nearest float32, the even one of two, unless it is too large. -/
theorem C33_nearest {b : BitVec 64} {x : Rat} (hb : IsF64 b x) (hx : InRange32 x) :
    ∃ c, storedVal .float (.f64 b) = .f32 c ∧ Nearest32 x c := by
  refine ⟨_, rfl, ?_⟩
  have h := narrowOf_eq hb hx
  rw [f64ToF32_ieee b (isF64_not_nan hb)]
  exact h

/-- 0.1. -/
example : ∃ c, storedVal .float (.f64 0x3FB999999999999A#64) = .f32 c ∧ Nearest32 (3602879701896397 / 36028797018963968) c :=
  C33_nearest ⟨by unfold f64Finite; decide +kernel, by decide +kernel⟩ (by unfold InRange32; decide +kernel)

/-- What is too large becomes infinite. -/
theorem f64ToF32_infinite {b : BitVec 64} {x : Rat} (hb : IsF64 b x) (hx : ¬ InRange32 x) :
    f64ToF32 b = if 0 < x then 0x7F800000#32 else 0xFF800000#32 := by
  have hv := (isF64_iff _ _).1 hb
  obtain ⟨s, m, hs, rfl⟩ := num_of_val hv
  have hm := Ieee.abs_nonneg b64 m
  unfold InRange32 at hx
  rw [signed_abs _ hm, Rat.not_lt] at hx
  have hpos : 0 < b64.abs m := Std.lt_of_lt_of_le (show (0 : Rat) < 2 ^ 128 - 2 ^ 103 by decide +kernel) hx
  rw [f64ToF32_ieee b (isF64_not_nan hb), hs]
  show BitVec.ofNat 32 (b32.bits (b32.ofAbs s (b64.abs m))) = _
  rw [ofAbs32_infinite s hx]
  cases s
  · rw [if_pos (show 0 < signed false (b64.abs m) from hpos)]
    rfl
  · rw [if_neg (show ¬ 0 < signed true (b64.abs m) by simp only [signed, if_true]; grind)]
    rfl

/-- **C33 is violated** by Python floats beyond the largest float32 (by half of a step or more): they are written, without an
exception, as infinite. -/
theorem C33_infinite_violation (cfg : NpCfg) (hcfg : 1 ≤ cfg.maxDims) {b : BitVec 64} {x : Rat} (hb : IsF64 b x)
    (hx : ¬ InRange32 x) :
    writePlainThenRead cfg [[(py! "d", .scalar .float (.f64 b)), (py! "e", .arr ⟨.int16, [1], [[1, 0]]⟩)]] = .ok
    [[(py! "d", .scalar .float (.f32 (if 0 < x then 0x7F800000#32 else 0xFF800000#32))),
      (py! "e", .arr ⟨.int16, [1], [[1, 0]]⟩)]] := by
  have hv := f64ToF32_infinite hb hx
  rw [← hv]
  refine C33_plain_roundtrip_partial cfg (by simp) (rs := _) rfl ?_
  intro r hr
  rw [List.mem_singleton.1 hr]
  refine ⟨[⟨py! "d", .f32 (f64ToF32 b), 4, .f⟩],
    [⟨py! "e", ⟨.int16, [1], [[1, 0]]⟩, 2, .h, 1, [1]⟩], rfl, by simp, by simp,
    (by decide : [py! "d", py! "e"].Nodup), ?_, ?_, (by decide : 36 < 2 ^ 31)⟩
  · intro s hs
    rw [List.mem_singleton.1 hs]
    exact ⟨(⟨by decide, by decide⟩ : PlainText (py! "d")), rfl, .f32 (f64ToF32_not b)⟩
  · intro a ha
    rw [List.mem_singleton.1 ha]
    exact ⟨⟨by decide, by decide⟩, rfl, rfl, rfl, by decide, hcfg, rfl, .inl (by decide),
        (by decide : ∀ n ∈ [1], n < 36), nofun, nofun, by decide, by decide⟩

/-- 1e300 is such a number, and the middle between the largest float32 and 2^128. -/
example := C33_infinite_violation numpy2 (by decide) (b := 0x7E37E43C8800759C#64)
  (x := 0x17E43C8800759C * 2 ^ 944) ⟨by unfold f64Finite; decide +kernel, by decide +kernel⟩ (by unfold InRange32; decide +kernel)
example := C33_infinite_violation numpy2 (by decide) (b := 0x47EFFFFFF0000000#64) (x := 2 ^ 128 - 2 ^ 103)
  ⟨by unfold f64Finite; decide +kernel, by decide +kernel⟩ (by unfold InRange32; decide +kernel)

theorem f32ToF64_fields (b : BitVec 32) : (f32ToF64 b).toNat =
    b.toNat / 2 ^ 31 * 2 ^ 63 + (widen (b.toNat / 2 ^ 23 % 2 ^ 8) (b.toNat % 2 ^ 23)).1 * 2 ^ 52 +
      (widen (b.toNat / 2 ^ 23 % 2 ^ 8) (b.toNat % 2 ^ 23)).2 := by
  have hb := b.isLt
  obtain ⟨h1, h2⟩ := widen_lt (e := b.toNat / 2 ^ 23 % 2 ^ 8) (m := b.toNat % 2 ^ 23) (Nat.mod_lt _ (by decide)) (Nat.mod_lt _ (by decide))
  unfold f32ToF64
  simp only
  generalize widen (b.toNat / 2 ^ 23 % 2 ^ 8) (b.toNat % 2 ^ 23) = w at *
  refine toNat_ofNat64 ?_
  have : b.toNat / 2 ^ 31 < 2 := by omega
  omega

set_option exponentiation.threshold 1100 in
/-- **C33.** A float32 that is written as float64 stands for the same number. -/
theorem C33_widened {b : BitVec 32} {x : Rat} (hb : IsF32 b x) :
    ∃ c, storedVal (.np .float64) (.f32 b) = .f64 c ∧ IsF64 c x := by
  refine ⟨_, rfl, ?_⟩
  obtain ⟨h1, h2⟩ := hb
  have hlt := b.isLt
  have hf := f32ToF64_fields b
  obtain ⟨w1, w2⟩ := widen_lt (e := b.toNat / 2 ^ 23 % 2 ^ 8) (m := b.toNat % 2 ^ 23) (Nat.mod_lt _ (by decide)) (Nat.mod_lt _ (by decide))
  have hs1 : (f32ToF64 b).toNat / 2 ^ 63 = b.toNat / 2 ^ 31 := by
    generalize widen (b.toNat / 2 ^ 23 % 2 ^ 8) (b.toNat % 2 ^ 23) = w at *
    omega
  have hs2 : (f32ToF64 b).toNat / 2 ^ 52 % 2 ^ 11 = (widen (b.toNat / 2 ^ 23 % 2 ^ 8) (b.toNat % 2 ^ 23)).1 := by
    generalize widen (b.toNat / 2 ^ 23 % 2 ^ 8) (b.toNat % 2 ^ 23) = w at *
    omega
  have hs3 : (f32ToF64 b).toNat % 2 ^ 52 = (widen (b.toNat / 2 ^ 23 % 2 ^ 8) (b.toNat % 2 ^ 23)).2 := by
    generalize widen (b.toNat / 2 ^ 23 % 2 ^ 8) (b.toNat % 2 ^ 23) = w at *
    omega
  unfold f32Finite at h1
  have hm : b.toNat % 2 ^ 23 < 2 ^ 23 := Nat.mod_lt _ (by decide)
  have he : b.toNat / 2 ^ 23 % 2 ^ 8 < 2 ^ 8 := Nat.mod_lt _ (by decide)
  unfold f32Scaled at h2
  unfold IsF64 f64Finite f64Scaled
  rw [hs1, hs2, hs3]
  simp only at h2 ⊢
  generalize b.toNat / 2 ^ 31 = s at *
  generalize b.toNat / 2 ^ 23 % 2 ^ 8 = e at *
  generalize b.toNat % 2 ^ 23 = m at *
  clear hs1 hs2 hs3 hf
  -- the number of units
  have key : (widen e m).1 ≠ 2047 ∧ (if (widen e m).1 = 0 then (widen e m).2 else (2 ^ 52 + (widen e m).2) * 2 ^ ((widen e m).1 - 1)) =
      (if e = 0 then m else (2 ^ 23 + m) * 2 ^ (e - 1)) * 2 ^ 925 := by
    unfold widen
    rw [if_neg h1]
    by_cases h0 : e = 0
    · rw [if_pos h0, if_pos h0]
      by_cases hm0 : m = 0
      · rw [if_pos hm0, hm0]
        simp
      · rw [if_neg hm0]
        have k1 := Nat.log2_self_le hm0
        have k3 : m.log2 < 23 := (Nat.log2_lt hm0).2 hm
        refine ⟨by simp only; omega, ?_⟩
        simp only
        rw [if_neg (by omega)]
        generalize m.log2 = k at *
        have e1 : (2 : Nat) ^ 52 = 2 ^ k * 2 ^ (52 - k) := pow_split (by omega)
        rw [e1, ← Nat.add_mul, Nat.add_sub_cancel' k1, Nat.mul_assoc]
        have e2 : (2 : Nat) ^ 925 = 2 ^ (52 - k) * 2 ^ (k + 874 - 1) := pow_split (by omega)
        rw [e2]
    · rw [if_neg h0, if_neg h0]
      refine ⟨by simp only; omega, ?_⟩
      simp only
      rw [if_neg (by omega)]
      have e1 : 2 ^ 52 + m * 2 ^ 29 = (2 ^ 23 + m) * 2 ^ 29 := by omega
      rw [e1, Nat.mul_assoc, Nat.mul_assoc]
      have e2 : (2 : Nat) ^ (e + 924) = 2 ^ 29 * 2 ^ (e + 896 - 1) := pow_split (by omega)
      have e3 : (2 : Nat) ^ (e + 924) = 2 ^ (e - 1) * 2 ^ 925 := pow_split (by omega)
      rw [← e2, ← e3]
  refine ⟨key.1, ?_⟩
  rw [key.2]
  generalize (if e = 0 then m else (2 ^ 23 + m) * 2 ^ (e - 1)) = v at *
  have e2 : (2 : Rat) ^ 1074 = 2 ^ 149 * 2 ^ 925 := pow2_add 149 925
  rw [e2, ← Rat.mul_assoc, ← h2]
  have e3 : ((v * 2 ^ 925 : Nat) : Int) = (v : Int) * ((2 ^ 925 : Nat) : Int) := Int.natCast_mul ..
  rw [e3]
  have e4 : (((2 ^ 925 : Nat) : Int) : Rat) = 2 ^ 925 := by
    rw [Rat.intCast_natCast]
    exact natCast_pow2 925
  split
  · rw [Rat.intCast_mul, e4]
  · rw [← Int.neg_mul, Rat.intCast_mul, e4]

end Verif
