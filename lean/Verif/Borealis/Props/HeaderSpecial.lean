import Verif.Borealis.Props.Header
import Verif.Py.IeeeNearest
/-!
# C46, C55: numbers in headers that are infinite or not numbers
-/
namespace Verif.Bor
open Verif Verif.Ieee

/-- An infinite float32. -/
def Inf32 (b : BitVec 32) : Prop := b.toNat % 2 ^ 31 = 255 * 2 ^ 23

/-- A float32 that is not a number. -/
def Nan32 (b : BitVec 32) : Prop := 255 * 2 ^ 23 < b.toNat % 2 ^ 31

/-- An infinite float64. -/
def Inf64 (b : BitVec 64) : Prop := b.toNat % 2 ^ 63 = 2047 * 2 ^ 52

/-- A float64 that is not a number. -/
def Nan64 (b : BitVec 64) : Prop := 2047 * 2 ^ 52 < b.toNat % 2 ^ 63

theorem finite32 (b : BitVec 32) : f32Finite b ∨ Inf32 b ∨ Nan32 b := by
  have := b.isLt
  unfold f32Finite Inf32 Nan32
  omega

theorem ofBits_inf32 {b : BitVec 32} : Inf32 b ↔ ∃ s, b32.ofBits b.toNat = .inf s := by
  unfold Inf32 Fmt.ofBits
  have e : (b32.top + 1) * 2 ^ b32.mant = 2 ^ 31 := rfl
  have f : b32.top * 2 ^ b32.mant = 255 * 2 ^ 23 := rfl
  simp only [e, f]
  constructor
  · intro h
    rw [if_neg (by omega), if_pos h]
    exact ⟨_, rfl⟩
  · rintro ⟨s, h⟩
    split at h
    · cases h
    · split at h
      · assumption
      · cases h

theorem ofBits_nan32 {b : BitVec 32} : Nan32 b ↔ b32.ofBits b.toNat = .nan := by
  unfold Nan32 Fmt.ofBits
  have e : (b32.top + 1) * 2 ^ b32.mant = 2 ^ 31 := rfl
  have f : b32.top * 2 ^ b32.mant = 255 * 2 ^ 23 := rfl
  simp only [e, f]
  constructor
  · intro h
    rw [if_neg (by omega), if_neg (by omega)]
  · intro h
    split at h
    · cases h
    · split at h
      · cases h
      · omega

theorem ofBits_inf64 {b : BitVec 64} (h : Inf64 b) : b64.ofBits b.toNat = .inf (b.toNat / 2 ^ 63 % 2 == 1) := by
  unfold Inf64 at h
  unfold Fmt.ofBits
  have e : (b64.top + 1) * 2 ^ b64.mant = 2 ^ 63 := rfl
  have f : b64.top * 2 ^ b64.mant = 2047 * 2 ^ 52 := rfl
  simp only [e, f]
  rw [if_neg (by omega), if_pos h]

theorem ofBits_nan64 {b : BitVec 64} (h : Nan64 b) : b64.ofBits b.toNat = .nan := by
  unfold Nan64 at h
  unfold Fmt.ofBits
  have e : (b64.top + 1) * 2 ^ b64.mant = 2 ^ 63 := rfl
  have f : b64.top * 2 ^ b64.mant = 2047 * 2 ^ 52 := rfl
  simp only [e, f]
  rw [if_neg (by omega), if_neg (by omega)]

/-- **C55.** Distances in records that can be converted are numbers: a record with a distance that is infinite or a NaN is not
converted. -/
theorem C55_distance_finite {cfg : NpCfg} {ops : Ops} {bad16 : Option Int → BitVec 16} {bad32 : Option Int → BitVec 32} {wide : Bool}
    (ho : FloatHeader ops bad16 bad32 wide) {t : Target} {s : Source} {ds : List PlainRec}
    (h : convertRecord cfg ops t s = .ok ds) {d : PlainRec} (hd : d ∈ ds) {k : PyStr} (hk : k = py! "first_range" ∨ k = py! "range_sep")
    {b : BitVec 32} (hb : Dict.get? s.fields k = some (.np .f32 (.flt b.toNat))) : f32Finite b := by
  obtain ⟨rev, beam, i, txpow, nrang, l, -, h, hl⟩ := convertRecord_common h hd
  have key : ∃ n, roundOf (.flt b.toNat) = .ok n := by
    rcases hk with rfl | rfl
    · obtain ⟨m, h1, -⟩ := entry_i16 (k := py! "frang") h rfl
      rw [bind_of_ok (field_iff.2 hb), bind_of_ok (x := (Val.np .f32 (.flt b.toNat)).flt) (a := .flt b.toNat) rfl] at h1
      obtain ⟨n, h2, -⟩ := bind_ok h1
      exact ⟨n, by rw [← ho.round]; exact h2⟩
    · obtain ⟨m, h1, -⟩ := entry_i16 (k := py! "rsep") h rfl
      rw [bind_of_ok (field_iff.2 hb), bind_of_ok (x := (Val.np .f32 (.flt b.toNat)).flt) (a := .flt b.toNat) rfl] at h1
      obtain ⟨n, h2, -⟩ := bind_ok h1
      exact ⟨n, by rw [← ho.round]; exact h2⟩
  obtain ⟨n, hn⟩ := key
  rcases finite32 b with hf | hf | hf
  · exact hf
  · obtain ⟨s, hs⟩ := ofBits_inf32.1 hf
    simp [roundOf, single, hs, Fl.round?] at hn
  · simp [roundOf, single, ofBits_nan32.1 hf, Fl.round?] at hn

/-- **C55.** Antennas of which a phase is infinite transmit; those with a NaN and without infinity do not. -/
theorem C55_antennas_special {ops : Ops} {bad16 : Option Int → BitVec 16} {bad32 : Option Int → BitVec 32} {wide : Bool}
    (ho : FloatHeader ops bad16 bad32 wide) {cfg : NpCfg} {s : Source} {ds : List PlainRec} {m x : NdArr} {norm : Val}
    {beams : List Elt} {nr nl : Nat} (hr : RawacfRec s.fields m x norm beams nr nl) (h : convertRawacf cfg ops s = .ok ds)
    {a : NdArr} {n : Nat} (ha : Dict.get? s.fields (py! "tx_antenna_phases") = some (.arr a)) (hs : a.shape = [n]) (hw : a.WF)
    (hn : n ≤ 16) : ∀ d ∈ ds, ∃ p : Int, intField d (py! "txpow") = some p ∧
      ∀ (i : Nat) (re im : BitVec 32), a.data[i]? = some (.cpx re.toNat im.toNat) →
        (Inf32 re ∨ Inf32 im → (BitVec.ofInt 16 p).getLsbD i = true) ∧
        (¬ Inf32 re ∧ ¬ Inf32 im ∧ (Nan32 re ∨ Nan32 im) → (BitVec.ofInt 16 p).getLsbD i = false) := by
  intro d hd
  have hlen : a.data.length = n := by
    have := hw
    unfold NdArr.WF at this
    rw [this, hs]; simp [prod]
  obtain ⟨p, h1, h2⟩ := (C55_rawacf hr h d hd).2.2.2.2 a n ha hs hlen hn
  refine ⟨p, h1, fun i re im he => ?_⟩
  have h3 := h2 i _ he
  rw [ho.isOn] at h3
  have hi : ∀ b : BitVec 32, Inf32 b ↔ b32.ofBits b.toNat = .inf false ∨ b32.ofBits b.toNat = .inf true := by
    intro b
    rw [ofBits_inf32]
    constructor
    · rintro ⟨s, hs⟩
      cases s
      · exact .inl hs
      · exact .inr hs
    · rintro (h | h)
      · exact ⟨_, h⟩
      · exact ⟨_, h⟩
  rw [hi, hi, ofBits_nan32, ofBits_nan32]
  constructor
  · intro hc
    rw [h3]
    unfold onOf
    simp only
    rw [if_pos (by rcases hc with (hc | hc) | (hc | hc) <;> simp [hc])]
  · rintro ⟨hc1, hc2, hc3⟩
    rw [h3]
    unfold onOf
    simp only
    rw [if_neg (by rintro (h | h | h | h) <;> simp_all), if_pos hc3]

/-- **C46.** A record with a phase offset that is infinite or a NaN does not pass the check. -/
theorem C46_phases_special {ops : Ops} {bad16 : Option Int → BitVec 16} {bad32 : Option Int → BitVec 32} {wide : Bool}
    (ho : FloatHeader ops bad16 bad32 wide) {r : Rec} {a : NdArr} {n : Nat}
    (ha : Dict.get? r (py! "pulse_phase_offset") = some (.arr a)) (hs : a.shape = [n]) (hw : a.WF) {b : BitVec 32}
    (hb : .flt b.toNat ∈ a.data) (hf : ¬ f32Finite b) : phaseCheck ops r = .error .notConvertible := by
  refine (C46_phases (ops := ops) ha hs hw).2 ⟨_, hb, ?_⟩
  rw [ho.isZero]
  rcases finite32 b with h | h | h
  · exact absurd h hf
  · obtain ⟨s, hs⟩ := ofBits_inf32.1 h
    simp [phaseZero, single, hs]
  · simp [phaseZero, single, ofBits_nan32.1 h]

/-- **C55.** Noise that does not fit a float32 becomes infinite with its sign, infinite noise stays so, and NaN stays a NaN. -/
theorem C55_noise_special {cfg : NpCfg} {ops : Ops} {bad16 : Option Int → BitVec 16} {bad32 : Option Int → BitVec 32} {wide : Bool}
    (ho : FloatHeader ops bad16 bad32 wide) {t : Target} {s : Source} {ds : List PlainRec}
    (h : convertRecord cfg ops t s = .ok ds) {d : PlainRec} (hd : d ∈ ds) {b : BitVec 64}
    (hb : IsFirst (Dict.get? s.fields (py! "noise_at_freq")) (.flt b.toNat)) :
    ∃ v, f32Field d (py! "noise.search") = some v ∧
      (∀ x, IsF64 b x → 2 ^ 128 - 2 ^ 103 ≤ x → v = 0x7F800000) ∧
      (∀ x, IsF64 b x → x ≤ -(2 ^ 128 - 2 ^ 103) → v = 0xFF800000) ∧
      (Inf64 b → v = if b.msb then 0xFF800000 else 0x7F800000) ∧
      (Nan64 b → Nan32 v) := by
  obtain ⟨e, h1, h2⟩ := (C55_header h d hd).noise
  have he : e = .flt b.toNat := by
    obtain ⟨a, n, h3, h4, h5⟩ := h1
    obtain ⟨a', n', h3', h4', h5'⟩ := hb
    rw [h3] at h3'
    cases h3'
    rw [h5] at h5'
    exact Option.some.inj h5'
  subst he
  refine ⟨_, h2, ?_, ?_, ?_, ?_⟩
  · intro x hx hl
    obtain ⟨s, m, hs, rfl⟩ := num_of_val ((isF64_iff _ _).1 hx)
    have hm := abs_nonneg b64 m
    cases s
    · have := ofAbs32_infinite false (x := b64.abs m) hl
      simp [ho.toF32, narrowOf, double, hs, Fmt.to, this]
      rfl
    · simp only [signed, if_true] at hl
      have : (0 : Rat) < 2 ^ 128 - 2 ^ 103 := by decide +kernel
      grind
  · intro x hx hl
    obtain ⟨s, m, hs, rfl⟩ := num_of_val ((isF64_iff _ _).1 hx)
    have hm := abs_nonneg b64 m
    cases s
    · simp only [signed, Bool.false_eq_true, if_false] at hl
      have : (0 : Rat) < 2 ^ 128 - 2 ^ 103 := by decide +kernel
      grind
    · have := ofAbs32_infinite true (x := b64.abs m) (by unfold tooLarge; simp only [signed, if_true] at hl; grind)
      simp [ho.toF32, narrowOf, double, hs, Fmt.to, this]
      rfl
  · intro hi
    have hs : (b.toNat / 2 ^ 63 % 2 == 1) = b.msb := by
      have := b.isLt
      rw [BitVec.msb_eq_decide]
      by_cases hc : 2 ^ 63 ≤ b.toNat
      · rw [show b.toNat / 2 ^ 63 = 1 by omega]
        simpa using hc
      · rw [show b.toNat / 2 ^ 63 = 0 by omega]
        simpa using hc
    rw [ho.toF32, narrowOf, double, ofBits_inf64 hi, hs]
    cases b.msb <;> rfl
  · intro hi
    rw [ho.toF32, narrowOf, double, ofBits_nan64 hi]
    unfold Nan32; decide +kernel

/-- Not vacuous: an infinite distance. -/
example : Inf32 0xFF800000 ∧ ¬ f32Finite 0xFF800000 ∧ Nan32 0x7FC00001 ∧ Inf64 0xFFF0000000000000 ∧ Nan64 0x7FF0000000000001 := by
  unfold Inf32 Nan32 f32Finite Inf64 Nan64
  decide

/-- A record with infinite noise, -1e300 and NaN is converted. -/
example : ([0x7ff0000000000000, 0xfe37e43c8800759c, 0x7ff8000000000000].map fun n => (convertBfiq numpy2 (headerOps true)
      (sampleSource ((headerFields scaleBfiq).set (py! "noise_at_freq") (.arr ⟨.f64, [2], [.flt n, .flt 0]⟩)))).map fun l => l.map fun d =>
        f32Field d (py! "noise.search")) =
    [.ok (List.replicate 2 (some 0x7F800000)), .ok (List.replicate 2 (some 0xFF800000)), .ok (List.replicate 2 (some 0x7FC00000))] := by
  decide +kernel

/-- One with an infinite distance is not. -/
example : convertBfiq numpy2 (headerOps true) (sampleSource ((headerFields scaleBfiq).set (py! "range_sep") (.np .f32 (.flt 0x7F800000)))) =
    .error .overflowError := by decide +kernel

example : phaseCheck (headerOps true) [(py! "pulse_phase_offset", .arr ⟨.f32, [2], [.flt 0, .flt 0x7F800000]⟩)] = .error .notConvertible :=
  C46_phases_special (headerOps_header true) (n := 2) (a := ⟨.f32, [2], [.flt 0, .flt 0x7F800000]⟩) rfl rfl rfl (b := 0x7F800000)
    (by decide) (by unfold f32Finite; decide)

end Verif.Bor
