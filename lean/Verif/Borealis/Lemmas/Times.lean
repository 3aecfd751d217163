import Verif.Borealis.Model.Times
import Verif.Py.IeeeLemmas
import Verif.Borealis.Lemmas.Calendar
/-!
# Timestamps: lemmas
-/
namespace Verif.Bor
open Verif Verif.Ieee

theorem fl64_nat {n : Nat} (hn : n < 2 ^ 53) : ∃ b, fl64 n = .num false b ∧ b64.abs b = (n : Rat) :=
  let ⟨b, h1, h2, _⟩ := ofRat_nat (f := b64) hn (by decide) (by decide)
  ⟨b, h1, h2⟩

theorem timeval_of {x ip fp p : Fl} {s us : Int} (hx : x ≠ .nan) (h1 : b64.modf x = (ip, fp)) (h2 : ip.trunc? b64 = some s)
    (h3 : b64.mul fp (fl64 1000000) = p) (h4 : p.round? b64 = some us) (hu : 0 ≤ us) (hs : 0 ≤ s) (hs' : s < 2 ^ 33) :
    timeval x = .ok (if 1000000 ≤ us then (s + 1, us - 1000000) else (s, us)) := by
  have hc : carry s us = if 1000000 ≤ us then (s + 1, us - 1000000) else (s, us) := by
    unfold carry
    rw [if_neg (show ¬ us < 0 by omega)]
  have hr : -(2 ^ 63) ≤ (carry s us).1 ∧ (carry s us).1 < 2 ^ 63 := by
    rw [hc]
    by_cases hh : 1000000 ≤ us
    · rw [if_pos hh]
      omega
    · rw [if_neg hh]
      omega
  unfold timeval
  rw [if_neg hx, h1, h3, h2, h4, ← hc]
  exact if_pos hr

/-- A timestamp between two weeks and 272 years after 1970, as a multiple of `2 ^ -32` seconds. -/
theorem timeval_ok {a K W : Nat} (hK : b64.unit = K + 32) (hW : units b64.mant a = W * 2 ^ K) (hlt : W < 2 ^ 65) :
    timeval (.num false a) = .ok
      (if 1000000 ≤ halfEven (W % 2 ^ 32 * 1000000) (2 ^ 32)
       then ((W / 2 ^ 32 : Nat) + 1, (halfEven (W % 2 ^ 32 * 1000000) (2 ^ 32) : Nat) - 1000000)
       else ((W / 2 ^ 32 : Nat), (halfEven (W % 2 ^ 32 * 1000000) (2 ^ 32) : Nat))) := by
  have hKp := pow2_pos K
  have hd : units b64.mant a / 2 ^ b64.unit = W / 2 ^ 32 := by
    rw [hW, hK, Nat.pow_add, Nat.mul_comm (2 ^ K), Nat.mul_div_mul_right _ _ hKp]
  have hm : units b64.mant a % 2 ^ b64.unit = W % 2 ^ 32 * 2 ^ K := by
    rw [hW, hK, Nat.pow_add, Nat.mul_comm (2 ^ K), Nat.mul_mod_mul_right]
  have hF : W % 2 ^ 32 < 2 ^ 32 := Nat.mod_lt _ (by decide)
  obtain ⟨bi, hi1, hi2, -⟩ := ofAbs_rep (f := b64) (m := W / 2 ^ 32) (j := 0) (k := 33) (by decide)
    (by show _ < 2 ^ 53; omega) (by omega) (by decide) (by decide) false
  obtain ⟨bf, hf⟩ := units_rep (p := b64.mant) (m := W % 2 ^ 32) (by show _ < 2 ^ 53; omega) K
  obtain ⟨bm, hm1, hm2⟩ := fl64_nat (n := 1000000) (by decide)
  rw [show ((1000000 : Nat) : Int) = 1000000 from rfl] at hm1
  obtain ⟨bp, hp1, -, hp3⟩ := ofAbs_rep (f := b64) (m := W % 2 ^ 32 * 1000000) (j := 32) (k := 33) (by decide)
    (by show _ < 2 ^ 53; omega) (by omega) (by decide) (by decide) false
  have hi : (W / 2 ^ 32 : Nat) / (2 : Rat) ^ 0 = (W / 2 ^ 32 : Nat) := by grind
  rw [hi] at hi1 hi2
  have hbf : b64.abs bf = (W % 2 ^ 32 : Nat) / 2 ^ 32 := by
    unfold Fmt.abs
    rw [hf, hK, Rat.natCast_mul, natCast_pow2, pow2_add]
    have := pow2_ne K
    generalize (2 : Rat) ^ K = A at *
    grind
  have hprod : b64.mul (.num false bf) (fl64 1000000) = .num false bp := by
    rw [hm1, ← hp1, mul_num, show (false != false) = false from rfl, hbf, hm2, Rat.natCast_mul]
    generalize ((W % 2 ^ 32 : Nat) : Rat) = x
    generalize ((1000000 : Nat) : Rat) = y
    have : x / 2 ^ 32 * y = x * y / 2 ^ 32 := by grind
    rw [this]
  have hround : (Fl.num false bp).round? b64 = some ((halfEven (W % 2 ^ 32 * 1000000) (2 ^ 32) : Nat) : Int) := by
    rw [round_num, hp3, hK, Nat.add_sub_cancel, Nat.pow_add, Nat.mul_comm (2 ^ K), halfEven_scale _ _ hKp]
  have hmodf : b64.modf (.num false a) = (.num false bi, .num false bf) := by
    rw [modf_num, hd, hm, ← hf, roundUnits_exact, hi1]
  rw [timeval_of (by simp) hmodf (trunc_nat hi2) hprod hround (Int.natCast_nonneg _) (Int.natCast_nonneg _) (by omega)]
  generalize halfEven (W % 2 ^ 32 * 1000000) (2 ^ 32) = h
  by_cases hh : 1000000 ≤ h
  · rw [if_pos hh, if_pos (by omega)]
  · rw [if_neg hh, if_neg (by omega)]

/-- The seconds of a number of microseconds, 1 100 000 000 to 2 147 483 647 seconds, make its milliseconds. -/
theorem totalMillis_eq {s us : Int} {m : Nat} (hm : s * 1000000 + us = m) (h1 : 1100000000000000 ≤ m)
    (h2 : m ≤ 2147483647000000) : totalMillis s us = some ((m / 1000 : Nat) : Int) := by
  obtain ⟨bt, ht1, ht2⟩ := fl64_nat (n := 1000) (by decide)
  rw [show ((1000 : Nat) : Int) = 1000 from rfl] at ht1
  have g1 : (1100000000000000 : Rat) ≤ (m : Rat) := by
    rw [← show ((1100000000000000 : Nat) : Rat) = 1100000000000000 from rfl]; exact Rat.natCast_le_natCast.2 h1
  have g2 : (m : Rat) ≤ (2147483647000000 : Rat) := by
    rw [← show ((2147483647000000 : Nat) : Rat) = 2147483647000000 from rfl]; exact Rat.natCast_le_natCast.2 h2
  have hx0 : (0 : Rat) ≤ (m : Rat) / 1000000 := by grind
  obtain ⟨q1, a1, a2, a3⟩ := round_grid (f := b64) (j := 22) (by decide) (x := (m : Rat) / 1000000)
    (by show (2 : Rat) ^ 52 / 2 ^ 22 ≤ _; grind) (by show _ < (2 : Rat) ^ 53 / 2 ^ 22; grind)
  have hn1 := (ofAbs_num (f := b64) (k := 31) hx0 (by grind) (by decide) (by decide) false).1
  generalize roundUnits b64.mant ((m : Rat) / 1000000 * 2 ^ b64.unit) = b1 at *
  have hy0 : (0 : Rat) ≤ b64.abs b1 * 1000 := by
    have := abs_nonneg b64 b1
    grind
  obtain ⟨q2, c1, c2, c3⟩ := round_grid (f := b64) (j := 12) (by decide) (x := b64.abs b1 * 1000)
    (by show (2 : Rat) ^ 52 / 2 ^ 12 ≤ _; grind) (by show _ < (2 : Rat) ^ 53 / 2 ^ 12; grind)
  have hn2 := (ofAbs_num (f := b64) (k := 41) hy0 (by grind) (by decide) (by decide) false).1
  generalize roundUnits b64.mant (b64.abs b1 * 1000 * 2 ^ b64.unit) = b2 at *
  unfold totalMillis
  rw [hm, Rat.intCast_natCast, ofRat_nonneg hx0, hn1, ht1, mul_num, show (false != false) = false from rfl, ht2,
    show ((1000 : Nat) : Rat) = 1000 from rfl, hn2, trunc_num]
  refine congrArg some ?_
  have hdm := Nat.div_add_mod m 1000
  have hlt := Nat.mod_lt m (show 0 < 1000 by decide)
  generalize m / 1000 = k at *
  generalize m % 1000 = r at *
  have hmk : (m : Rat) = 1000 * (k : Rat) + (r : Rat) := by
    rw [← hdm, Rat.natCast_add, Rat.natCast_mul]
    rfl
  have hr : (r : Rat) ≤ 999 := by
    rw [← show ((999 : Nat) : Rat) = 999 from rfl]; exact Rat.natCast_le_natCast.2 (by omega)
  have hr0 : (0 : Rat) ≤ (r : Rat) := Rat.natCast_nonneg
  refine floor_eq ?_ ?_
  · rw [Rat.intCast_natCast]
    by_cases hz : r = 0
    · have hq : 4096 * k ≤ q2 := by
        have : ((4096 * k : Nat) : Rat) < ((q2 + 1 : Nat) : Rat) := by
          rw [Rat.natCast_mul, Rat.natCast_add, show ((4096 : Nat) : Rat) = 4096 from rfl, show ((1 : Nat) : Rat) = 1 from rfl]
          have : (r : Rat) = 0 := by rw [hz]; rfl
          grind
        exact Nat.le_of_lt_succ (Rat.natCast_lt_natCast.1 this)
      have hq := Rat.natCast_le_natCast.2 hq
      rw [Rat.natCast_mul, show ((4096 : Nat) : Rat) = 4096 from rfl] at hq
      grind
    · have : (1 : Rat) ≤ (r : Rat) := by
        rw [← show ((1 : Nat) : Rat) = 1 from rfl]; exact Rat.natCast_le_natCast.2 (by omega)
      grind
  · rw [Rat.intCast_natCast]
    grind

/-! ## Timestamps as numbers -/

theorem ofBits_pos {b : BitVec 64} (hf : f64Finite b) (hp : 0 < f64Scaled b) :
    b64.ofBits b.toNat = .num false b.toNat ∧ f64Scaled b = (units b64.mant b.toNat : Nat) := by
  have hlt : b.toNat < 2 ^ 64 := b.isLt
  unfold f64Finite at hf
  unfold f64Scaled at hp ⊢
  simp only at hp ⊢
  have hs : b.toNat / 2 ^ 63 = 0 := by
    by_cases h : b.toNat / 2 ^ 63 = 0
    · exact h
    · rw [if_neg h] at hp
      omega
  have he : b.toNat / 2 ^ 52 % 2 ^ 11 = b.toNat / 2 ^ 52 := Nat.mod_eq_of_lt (by omega)
  rw [he] at hf ⊢
  refine ⟨?_, ?_⟩
  · unfold Fmt.ofBits
    simp only [show (b64.top + 1) * 2 ^ b64.mant = 2 ^ 63 from by decide, show b64.top * 2 ^ b64.mant = 2047 * 2 ^ 52 from by decide]
    rw [hs, Nat.mod_eq_of_lt (show b.toNat < 2 ^ 63 by omega), if_pos (by omega)]
    rfl
  · rw [if_pos hs]
    unfold units
    rw [show b64.mant = 52 from rfl]
    by_cases h0 : b.toNat / 2 ^ 52 = 0
    · rw [if_pos h0, if_pos h0, Nat.mod_eq_of_lt (by omega)]
    · rw [if_neg h0, if_neg h0]

theorem unit64 : ∃ K, b64.unit = K + 32 := ⟨1042, rfl⟩

theorem time_num {e : Elt} {v : Rat} (h : IsTime e v) (hv : 0 < v) :
    ∃ b a, e = .flt b ∧ b64.ofBits b = .num false a ∧ b64.abs a = v := by
  obtain ⟨b, rfl, hf, hs⟩ := h
  have hp := pow2_posR 1074
  have hpos : 0 < f64Scaled b := by
    have : (0 : Rat) < (f64Scaled b : Rat) := by
      rw [hs]
      exact Rat.mul_pos hv hp
    exact Rat.intCast_pos.1 this
  obtain ⟨h1, h2⟩ := ofBits_pos hf hpos
  refine ⟨_, _, rfl, h1, ?_⟩
  unfold Fmt.abs
  rw [h2, Rat.intCast_natCast] at hs
  rw [hs]
  show v * 2 ^ 1074 / 2 ^ 1074 = v
  have := pow2_ne 1074
  generalize (2 : Rat) ^ 1074 = A at *
  grind

/-- As a multiple of `2 ^ -32` seconds. -/
theorem time_parts {a : Nat} {v : Rat} (h : b64.abs a = v) (h1 : 2 ^ 20 ≤ v) (h2 : v < 2 ^ 33) :
    ∃ K W, b64.unit = K + 32 ∧ units b64.mant a = W * 2 ^ K ∧ W < 2 ^ 65 ∧ v = (W : Rat) / 2 ^ 32 := by
  obtain ⟨K, hK⟩ := unit64
  have hu := abs_mul b64 a
  rw [h, hK] at hu
  have hp := pow2_posR (K + 32)
  have hlo : 2 ^ (b64.mant + K) ≤ units b64.mant a := by
    refine Rat.natCast_le_natCast.1 ?_
    rw [← hu, natCast_pow2, show b64.mant + K = 20 + (K + 32) by show 52 + K = _; omega, pow2_add 20]
    exact Rat.mul_le_mul_of_nonneg_right h1 (Rat.le_of_lt hp)
  obtain ⟨W, hW⟩ := units_multiple hlo
  have hv : v = (W : Rat) / 2 ^ 32 := by
    rw [hW, Rat.natCast_mul, natCast_pow2, pow2_add] at hu
    have := pow2_ne K
    generalize (2 : Rat) ^ K = A at *
    have : v * 2 ^ 32 = W := by
      have h3 : (v * 2 ^ 32 - W) * A = 0 := by grind
      rcases Rat.mul_eq_zero.1 h3 with h4 | h4
      · grind
      · exact absurd h4 this
    rw [← this]
    grind
  refine ⟨K, W, hK, hW, ?_, hv⟩
  refine Rat.natCast_lt_natCast.1 ?_
  rw [natCast_pow2]
  rw [hv] at h2
  grind

theorem Nearest.unique {x : Rat} {m n : Int} (h1 : Nearest x m) (h2 : Nearest x n) : m = n := by
  obtain ⟨a1, a2, a3⟩ := h1
  obtain ⟨b1, b2, b3⟩ := h2
  have h : (m : Rat) ≤ n + 1 ∧ (n : Rat) ≤ m + 1 := by grind
  have h3 : m ≤ n + 1 := Rat.intCast_le_intCast.1 (by rw [Rat.intCast_add]; exact h.1)
  have h4 : n ≤ m + 1 := Rat.intCast_le_intCast.1 (by rw [Rat.intCast_add]; exact h.2)
  rcases (by omega : m = n ∨ m = n + 1 ∨ n = m + 1) with h | h | h
  · exact h
  · have e : (m : Rat) = n + 1 := by rw [h, Rat.intCast_add]; rfl
    have := a3 (.inr (by grind))
    have := b3 (.inl (by grind))
    omega
  · have e : (n : Rat) = m + 1 := by rw [h, Rat.intCast_add]; rfl
    have := b3 (.inr (by grind))
    have := a3 (.inl (by grind))
    omega

/-- A whole number between two limits for the exact one. -/
theorem Nearest.between {x : Rat} {m a b : Int} (h : Nearest x m) (h1 : (a : Rat) ≤ x) (h2 : x ≤ b) : a ≤ m ∧ m ≤ b := by
  obtain ⟨a1, a2, -⟩ := h
  constructor
  · have : (a : Rat) < ((m + 1 : Int) : Rat) := by rw [Rat.intCast_add, show ((1 : Int) : Rat) = 1 from rfl]; grind
    have := Rat.intCast_lt_intCast.1 this
    omega
  · have : (m : Rat) < ((b + 1 : Int) : Rat) := by rw [Rat.intCast_add, show ((1 : Int) : Rat) = 1 from rfl]; grind
    have := Rat.intCast_lt_intCast.1 this
    omega

/-- The time is the nearest number of microseconds. -/
theorem utcTime_near {a : Nat} {v : Rat} (h : b64.abs a = v) (h1 : 2 ^ 20 ≤ v) (h2 : v < 2 ^ 33) :
    ∃ s us : Int, utcTime (.num false a) = .ok (s, us) ∧ 0 ≤ s ∧ s ≤ 2 ^ 33 ∧ 0 ≤ us ∧ us < 1000000 ∧
      Nearest (v * 1000000) (s * 1000000 + us) := by
  obtain ⟨K, W, hK, hW, hlt, hv⟩ := time_parts h h1 h2
  have ht := timeval_ok hK hW hlt
  have hd : (0 : Nat) < 2 ^ 32 := by decide
  have hle : halfEven (W % 2 ^ 32 * 1000000) (2 ^ 32) ≤ 1000000 := halfEven_le hd (by omega)
  have hc := halfEven_close (n := W % 2 ^ 32 * 1000000) hd
  have hte := halfEven_tie (n := W % 2 ^ 32 * 1000000) hd
  have hdm := Nat.div_add_mod W (2 ^ 32)
  have hs : W / 2 ^ 32 < 2 ^ 33 := by omega
  generalize halfEven (W % 2 ^ 32 * 1000000) (2 ^ 32) = q at *
  generalize W % 2 ^ 32 = f at *
  generalize W / 2 ^ 32 = s at *
  have key : ∀ m : Int, m = s * 1000000 + q → Nearest (v * 1000000) m := by
    rintro m rfl
    have e1 : v * 1000000 = (s : Rat) * 1000000 + (f : Rat) * 1000000 / 2 ^ 32 := by
      rw [hv, ← hdm, Rat.natCast_add, Rat.natCast_mul, natCast_pow2]
      grind
    have e2 : (((s : Int) * 1000000 + q : Int) : Rat) = (s : Rat) * 1000000 + q := by
      rw [Rat.intCast_add, Rat.intCast_mul, Rat.intCast_natCast, Rat.intCast_natCast]
      rfl
    have c1 : (2 * (f * 1000000) : Rat) ≤ 2 * (4294967296 * q) + 4294967296 := by
      have := Rat.natCast_le_natCast.2 hc.1
      simpa [Rat.natCast_add, Rat.natCast_mul] using this
    have c2 : (2 * (4294967296 * q) : Rat) ≤ 2 * (f * 1000000) + 4294967296 := by
      have := Rat.natCast_le_natCast.2 hc.2
      simpa [Rat.natCast_add, Rat.natCast_mul] using this
    refine ⟨?_, ?_, fun hz => ?_⟩
    · rw [e1, e2]; grind
    · rw [e1, e2]; grind
    · have hq : q % 2 = 0 := by
        refine hte ?_
        rcases hz with hz | hz
        · left
          refine Rat.natCast_inj.1 ?_
          rw [e1, e2] at hz
          simp only [Rat.natCast_add, Rat.natCast_mul]
          show (2 * ((f : Rat) * 1000000)) = 2 * (4294967296 * q) + 4294967296
          grind
        · right
          refine Rat.natCast_inj.1 ?_
          rw [e1, e2] at hz
          simp only [Rat.natCast_add, Rat.natCast_mul]
          show (2 * (4294967296 * (q : Rat))) = 2 * (f * 1000000) + 4294967296
          grind
      omega
  by_cases hq : 1000000 ≤ q
  · rw [if_pos hq] at ht
    refine ⟨s + 1, q - 1000000, ?_, by omega, by omega, by omega, by omega, key _ (by omega)⟩
    unfold utcTime
    rw [ht]
    show (if _ then _ else if _ then _ else _) = _
    rw [if_neg (by omega), if_neg (by omega)]
  · rw [if_neg hq] at ht
    refine ⟨s, q, ?_, by omega, by omega, by omega, by omega, key _ rfl⟩
    unfold utcTime
    rw [ht]
    show (if _ then _ else if _ then _ else _) = _
    rw [if_neg (by omega), if_neg (by omega)]

/-- The name of a record is the number of milliseconds. -/
theorem recordName_eq {e : Elt} {v : Rat} (h : IsTime e v) (h1 : 1100000000 ≤ v) (h2 : v ≤ 2147483647) :
    ∃ m : Nat, Nearest (v * 1000000) m ∧ recordName e = .ok (natText (m / 1000)) := by
  obtain ⟨b, a, rfl, hb, ha⟩ := time_num h (by grind)
  obtain ⟨s, us, ht, hs, -, hus, -, hn⟩ := utcTime_near ha (by grind) (by grind)
  obtain ⟨m, hm⟩ : ∃ m : Nat, s * 1000000 + us = m := ⟨(s * 1000000 + us).toNat, by omega⟩
  rw [hm] at hn
  obtain ⟨g1, g2⟩ := hn.between (a := 1100000000000000) (b := 2147483647000000)
    (by show (1100000000000000 : Rat) ≤ _; grind) (by show _ ≤ (2147483647000000 : Rat); grind)
  refine ⟨m, hn, ?_⟩
  unfold recordName
  simp only
  rw [hb, ht]
  show wholeText (totalMillis s us) = _
  rw [totalMillis_eq hm (by omega) (by omega)]
  show Except.ok (intText ((m / 1000 : Nat) : Int)) = _
  unfold intText
  rw [if_neg (by omega), Int.natAbs_natCast]

theorem natText_inj {a b : Nat} (h : natText a = natText b) : a = b := by
  have := congrArg (Nat.ofDigitChars 10 · 0) h
  simpa [natText, Nat.ofDigitChars_toDigits] using this

/-! ## Times of sequences -/

theorem fl64_thousand : ∃ b, fl64 1000 = .num false b ∧ b64.abs b = (1000 : Rat) ∧ b ≠ 0 ∧
    units b64.mant b = 1000 * 2 ^ b64.unit := by
  obtain ⟨b, h1, h2, h3⟩ := ofRat_nat (f := b64) (n := 1000) (by decide) (by decide) (by decide)
  refine ⟨b, h1, h2, ?_, h3⟩
  rintro rfl
  rw [units_zero] at h3
  have := pow2_pos b64.unit
  omega

theorem asInt32_ok {n : Int} (h0 : 0 ≤ n) (h1 : n < 2 ^ 31) : asInt32 (some n) = .ok (BitVec.ofInt 32 n) :=
  if_pos ⟨by omega, h1⟩

/-- The thousandth of the time, rounded down. -/
theorem tscOf_eq {e : Elt} {v : Rat} (h : IsTime e v) (h1 : 1000 ≤ v) (h2 : v < 2 ^ 31) :
    tscOf e = .ok (BitVec.ofInt 32 (v / 1000).floor) := by
  obtain ⟨b, a, rfl, hb, ha⟩ := time_num h (by grind)
  obtain ⟨bt, ht1, ht2, ht3, -⟩ := fl64_thousand
  have hx0 : 0 ≤ v / 1000 := by grind
  have hn := (ofAbs_num (f := b64) (k := 31) hx0 (by grind) (by decide) (by decide) false).1
  have hf := floor_div (f := b64) (a := a) (n := 1000) (by decide) (by decide)
    (by rw [ha, show ((1000 : Nat) : Rat) = 1000 from rfl]; grind) (by rw [ha]; show v < 2 ^ 52; grind)
  rw [ha, show ((1000 : Nat) : Rat) = 1000 from rfl] at hf
  unfold tscOf
  simp only
  rw [hb, ht1, div_num ht3, show (false != false) = false from rfl, ha, ht2, hn, floor_num, hf]
  refine asInt32_ok (Rat.le_floor_iff.2 (by simpa using hx0)) ?_
  refine Rat.floor_lt_iff.2 ?_
  show _ < (2147483648 : Rat)
  grind

theorem rat_floor_nat (m n : Nat) : ((m : Rat) / (n : Rat)).floor = (m / n : Nat) := by
  by_cases hn : n = 0
  · subst hn
    rw [Nat.div_zero, show ((0 : Nat) : Rat) = 0 from rfl, Rat.div_def, Rat.inv_zero, Rat.mul_zero]
    rfl
  · have hn' : (0 : Rat) < (n : Rat) := by
      have := Rat.natCast_lt_natCast.2 (Nat.pos_of_ne_zero hn)
      simpa using this
    have hc : (m : Rat) / n * n = m := Rat.div_mul_cancel (Rat.ne_of_gt hn')
    refine floor_eq ?_ ?_
    · refine Rat.le_of_mul_le_mul_right (c := (n : Rat)) ?_ hn'
      rw [hc, Rat.intCast_natCast, ← Rat.natCast_mul]
      exact Rat.natCast_le_natCast.2 (Nat.div_mul_le_self m n)
    · refine Rat.lt_of_mul_lt_mul_right (c := (n : Rat)) ?_ (Rat.le_of_lt hn')
      have h1 : m < (m / n + 1) * n := by
        have := Nat.div_add_mod m n
        have := Nat.mod_lt m (Nat.pos_of_ne_zero hn)
        rw [Nat.add_mul, Nat.mul_comm (m / n)]
        omega
      have h2 := Rat.natCast_lt_natCast.2 h1
      rw [Rat.natCast_mul, Rat.natCast_add] at h2
      rw [hc, Rat.intCast_natCast]
      exact h2

/-- What remains of the time after thousands, times a thousand, rounded down. -/
theorem tusOf_eq {e : Elt} {v : Rat} (h : IsTime e v) (h1 : 2 ^ 20 ≤ v) (h2 : v < 2 ^ 31) :
    tusOf e = .ok (BitVec.ofInt 32 ((v - 1000 * (v / 1000).floor) * 1000).floor) := by
  obtain ⟨b, a, rfl, hb, ha⟩ := time_num h (by grind)
  obtain ⟨bt, ht1, ht2, ht3, ht4⟩ := fl64_thousand
  obtain ⟨K, W, hK, hW, hlt, hv⟩ := time_parts ha h1 (by grind)
  have hm : units b64.mant a % units b64.mant bt = W % (1000 * 2 ^ 32) * 2 ^ K := by
    rw [ht4, hW, hK, Nat.pow_add, Nat.mul_comm (2 ^ K), ← Nat.mul_assoc, Nat.mul_mod_mul_right]
  have hF : W % (1000 * 2 ^ 32) < 1000 * 2 ^ 32 := Nat.mod_lt _ (by decide)
  obtain ⟨bf, hf⟩ := units_rep (p := b64.mant) (m := W % (1000 * 2 ^ 32)) (by show _ < 2 ^ 53; omega) K
  obtain ⟨bp, hp1, hp2, -⟩ := ofAbs_rep (f := b64) (m := W % (1000 * 2 ^ 32) * 1000) (j := 32) (k := 33) (by decide)
    (by show _ < 2 ^ 53; omega) (by omega) (by decide) (by decide) false
  have hbf : b64.abs bf = (W % (1000 * 2 ^ 32) : Nat) / 2 ^ 32 := by
    unfold Fmt.abs
    rw [hf, hK, Rat.natCast_mul, natCast_pow2, pow2_add]
    have := pow2_ne K
    generalize (2 : Rat) ^ K = A at *
    grind
  have hprod : b64.mul (.num false bf) (fl64 1000) = .num false bp := by
    rw [ht1, ← hp1, mul_num, show (false != false) = false from rfl, hbf, ht2, Rat.natCast_mul,
      show ((1000 : Nat) : Rat) = 1000 from rfl]
    generalize ((W % (1000 * 2 ^ 32) : Nat) : Rat) = x
    have : x / 2 ^ 32 * 1000 = x * 1000 / 2 ^ 32 := by grind
    rw [this]
  -- the same in rational numbers
  have hk : (v / 1000).floor = (W / (1000 * 2 ^ 32) : Nat) := by
    rw [← rat_floor_nat, Rat.natCast_mul, natCast_pow2, hv, show ((1000 : Nat) : Rat) = 1000 from rfl]
    generalize (W : Rat) = w
    have : w / 2 ^ 32 / 1000 = w / (1000 * 2 ^ 32) := by grind
    rw [this]
  have hr : (v - 1000 * ((W / (1000 * 2 ^ 32) : Nat) : Rat)) * 1000 = (W % (1000 * 2 ^ 32) * 1000 : Nat) / 2 ^ 32 := by
    have hdm := Nat.div_add_mod W (1000 * 2 ^ 32)
    have hdm' : (W : Rat) = 1000 * 2 ^ 32 * (W / (1000 * 2 ^ 32) : Nat) + (W % (1000 * 2 ^ 32) : Nat) := by
      rw [← natCast_pow2, ← show ((1000 : Nat) : Rat) = 1000 from rfl, ← Rat.natCast_mul, ← Rat.natCast_mul, ← Rat.natCast_add, hdm]
    rw [hv, Rat.natCast_mul, show ((1000 : Nat) : Rat) = 1000 from rfl]
    generalize ((W % (1000 * 2 ^ 32) : Nat) : Rat) = R at *
    generalize ((W / (1000 * 2 ^ 32) : Nat) : Rat) = Q at *
    grind
  unfold tusOf
  simp only
  rw [hb, ht1, fmod_num ht3, hm, ← hf, roundUnits_exact, ← ht1, hprod, trunc_num, hp2, hk, Rat.intCast_natCast, hr]
  rw [show ((2 : Rat) ^ 32) = ((2 ^ 32 : Nat) : Rat) from (natCast_pow2 32).symm, rat_floor_nat]
  exact asInt32_ok (Int.natCast_nonneg _) (by omega)

/-! ## Dates -/

theorem toInt16_ofNat {n : Nat} (h : n < 2 ^ 15) : (BitVec.ofNat 16 n).toInt = n := by
  rw [BitVec.toInt_ofNat']
  simp only [Int.bmod, Nat.reducePow]
  split <;> omega

theorem toInt32_ofInt {n : Int} (h0 : 0 ≤ n) (h : n < 2 ^ 31) : (BitVec.ofInt 32 n).toInt = n := by
  rw [BitVec.toInt_ofInt]
  simp only [Int.bmod, Nat.reducePow]
  split <;> omega

theorem day_table : ∀ n < 7, dayNames.getD n [] = dayName n := by decide +kernel

theorem month_table : ∀ n < 13, 1 ≤ n → monthNames.getD (n - 1) [] = monthName n := by decide +kernel

theorem digits_table : ∀ n < 60, twoDigits '0' n = digits2 n ∧
    twoDigits ' ' n = if n < 10 then [' ', digit n] else digits2 n := by decide +kernel

/-- The parts of a date. -/
theorem dateTime_ok {s us : Int} (hs : 0 ≤ s) (hs' : s ≤ 2 ^ 33) (hu : 0 ≤ us) (hu' : us < 1000000) :
    ∃ t : Moment, t.Valid ∧ t.micros = s * 1000000 + us ∧ (dateTime s us).text = t.text ∧ (dateTime s us).year.toInt = t.year ∧
      (dateTime s us).month.toInt = t.month ∧ (dateTime s us).day.toInt = t.day ∧ (dateTime s us).hour.toInt = t.hour ∧
      (dateTime s us).minute.toInt = t.minute ∧ (dateTime s us).second.toInt = t.second ∧
      (dateTime s us).micro.toInt = t.micro := by
  obtain ⟨n, hn⟩ : ∃ n : Nat, s + epochDays * 86400 = n := ⟨(s + epochDays * 86400).toNat, by omega⟩
  have ht : (s + epochDays * 86400).toNat = n := by omega
  have he : epochDays = 719162 := rfl
  obtain ⟨h1, h2, h3, h4, h5, h6⟩ := dateOf_ok (n / 86400)
  have hy : (dateOf (n / 86400)).1 < 2 ^ 15 := by
    have hsum := years_sum ((dateOf (n / 86400)).1 - 1)
    unfold dayNumber at h6
    omega
  have hd : (dateOf (n / 86400)).2.2 ≤ 31 := by
    refine Nat.le_trans h5 ?_
    unfold monthDays
    split
    · split <;> decide
    · split <;> decide
  refine ⟨⟨(dateOf (n / 86400)).1, (dateOf (n / 86400)).2.1, (dateOf (n / 86400)).2.2, n % 86400 / 3600, n % 86400 / 60 % 60,
    n % 86400 % 60, us.toNat⟩, ⟨h1, ⟨h2, h3⟩, ⟨h4, h5⟩, ?_, ?_, ?_, ?_⟩, ?_, ?_, ?_, ?_, ?_, ?_, ?_, ?_, ?_⟩
  · show n % 86400 / 3600 < 24
    omega
  · show n % 86400 / 60 % 60 < 60
    omega
  · show n % 86400 % 60 < 60
    omega
  · show us.toNat < 1000000
    omega
  · unfold Moment.micros
    simp only [h6, epoch_ok]
    omega
  all_goals unfold dateTime; simp only [ht]
  · unfold Moment.text weekday
    simp only [h6]
    rw [day_table _ (Nat.mod_lt _ (by decide)), month_table _ (by omega) h2, (digits_table _ (Nat.lt_of_le_of_lt hd (by decide))).2,
      (digits_table (n % 86400 / 3600) (by omega)).1, (digits_table (n % 86400 / 60 % 60) (by omega)).1,
      (digits_table (n % 86400 % 60) (by omega)).1]
    simp [natText]
  · exact toInt16_ofNat hy
  · exact toInt16_ofNat (Nat.lt_of_le_of_lt h3 (by decide))
  · exact toInt16_ofNat (Nat.lt_of_le_of_lt hd (by decide))
  · exact toInt16_ofNat (by omega)
  · exact toInt16_ofNat (by omega)
  · exact toInt16_ofNat (by omega)
  · rw [toInt32_ofInt hu (by omega)]
    omega

end Verif.Bor
