import Verif.Borealis.Lemmas.Scale
import Verif.Py.IeeeRoot
import Verif.Borealis.Props.ConvertIqdat
import Verif.Borealis.Props.ConvertRawacf
import Verif.Borealis.Props.Times
/-!
# C42, C43, C44: scaling

With the arithmetic of NumPy on float32 or float64, the converted samples, correlations and powers are the scaled
numbers of the Borealis record.
-/
namespace Verif.Bor
open Verif Verif.Ieee

theorem complex_is {e : Elt} {re im : Rat} (h : IsComplex e re im) :
    ∃ r i : Nat, e = .cpx r i ∧ Cx.Is b32 ⟨b32.ofBits r, b32.ofBits i⟩ re im := by
  obtain ⟨r, i, rfl, h1, h2⟩ := h
  exact ⟨_, _, rfl, (isF32_iff _ _).1 h1, (isF32_iff _ _).1 h2⟩

theorem double_is {v : Val} {x : Rat} (h : IsDouble v x) : ∃ b : Nat, v = .np .f64 (.flt b) ∧ (b64.ofBits b).val? b64 = some x := by
  obtain ⟨b, rfl, h1⟩ := h
  exact ⟨_, rfl, (isF64_iff _ _).1 h1⟩

theorem exact_iq (a n : Rat) (k : Int) : a * (1 / n) * 32767 * k = a / n * 32767 * k := by
  rw [Rat.div_def, Rat.div_def, Rat.one_mul]

theorem exact_acf (a n : Rat) (k : Int) : a * (((32767 ^ 2 * k : Int) : Rat) * (1 / (n * n))) = a * (32767 ^ 2 * k) / (n * n) := by
  have e : ((32767 ^ 2 : Int) : Rat) = 32767 ^ 2 := by decide +kernel
  rw [Rat.intCast_mul, Rat.div_def, Rat.div_def, Rat.one_mul, e, ← Rat.mul_assoc]

/-- A scaled sample: a float64 close to the number. -/
theorem iq_near (wide : Bool) {e : Elt} {norm : Val} {re im n : Rat} {k : Int} (he : IsComplex e re im) (hn : IsDouble norm n)
    (ha : re.abs ≤ 2 ^ 40) (hb : im.abs ≤ 2 ^ 40) (hn1 : 1 / 2 ^ 30 ≤ n) (hn2 : n ≤ 2 ^ 40) (hk : k.natAbs ≤ 2 ^ 30) :
    ∃ y z, IsF64 (iqOf wide e norm k).1 y ∧ IsF64 (iqOf wide e norm k).2 z ∧
      Rel (1 / 2 ^ 21) (1 / 2 ^ 60) (re / n * 32767 * k) y ∧ Rel (1 / 2 ^ 21) (1 / 2 ^ 60) (im / n * 32767 * k) z := by
  obtain ⟨r, i, rfl, hx⟩ := complex_is he
  obtain ⟨b, rfl, hb'⟩ := double_is hn
  obtain ⟨y, z, h1, hy, hz, h2, h3⟩ := iqNumber_error wide hx hb' ha hb hn1 hn2 hk
  rw [exact_iq] at h2 h3
  exact ⟨y, z, bits64_val h1.1 hy, bits64_val h1.2 hz, h2, h3⟩

/-- **C42.** Every sample of the bfiq record, divided by the normalization factor and multiplied by the largest int16 and the
scaling factor, is in the iqdat record of its beam where RST looks for it, rounded towards zero and clipped to the range
of int16, whatever the version of NumPy.  The sample is up to `2 ^ 40`, the normalization factor from `2 ^ -30` to
`2 ^ 40`, the scaling factor up to `2 ^ 30`. -/
theorem C42_scaled {cfg : NpCfg} {ops : Ops} {s : Source} {recs : List PlainRec} {a : NdArr} {norm : Val} {square : Fl → Fl} {wide : Bool}
    {beams : List Elt} {na nq ns : Nat} (ho : FloatScale ops square wide) (hr : BfiqRec s.fields a norm beams na nq ns)
    (hsz : nq * (2 * na * ns) < 2 ^ 31) (h : convertBfiq cfg ops s = .ok recs)
    {n : Rat} (hn : IsDouble norm n) (hn1 : 1 / 2 ^ 30 ≤ n) (hn2 : n ≤ 2 ^ 40) (hk : s.factor.natAbs ≤ 2 ^ 30) :
    recs.length = beams.length ∧
    ∀ b, b < beams.length → ∃ d data toff, recs[b]? = some d ∧
      arrField d (py! "data") = some data ∧ arrField d (py! "toff") = some toff ∧
      ∀ i x t, i < nq → x < na → t < ns → ∃ off : Nat, ∃ e, i32At toff [i] = some (off : Int) ∧
        a.shaped [na, nq, beams.length, ns] [x, i, b, t] = some e ∧
        ∀ re im, IsComplex e re im → re.abs ≤ 2 ^ 40 → im.abs ≤ 2 ^ 40 → ∃ p q,
          i16At data [off + 2 * (x * ns + t)] = some p ∧ Near16 (re / n * 32767 * s.factor) p ∧
          i16At data [off + 2 * (x * ns + t) + 1] = some q ∧ Near16 (im / n * 32767 * s.factor) q := by
  obtain ⟨h1, h2⟩ := C42_samples hr hsz h
  refine ⟨h1, fun b hb => ?_⟩
  obtain ⟨d, data, toff, h3, h4, -, h5, -, h6⟩ := h2 b hb
  refine ⟨d, data, toff, h3, h4, h5, fun i x t hi hx ht => ?_⟩
  obtain ⟨off, e, h7, h8, h9, h10⟩ := h6 i x t hi hx ht
  refine ⟨off, e, h7, h8, fun re im he hre him => ?_⟩
  rw [ho.iq] at h9 h10
  obtain ⟨y, z, hy, hz, hy', hz'⟩ := iq_near wide he hn hre him hn1 hn2 hk
  exact ⟨_, _, h9, stored_near hy hy', h10, stored_near hz hz'⟩

/-- **C44.** Samples that are too large become the largest int16, samples that are too small the smallest. -/
theorem C44_saturation {cfg : NpCfg} {ops : Ops} {s : Source} {recs : List PlainRec} {a : NdArr} {norm : Val} {square : Fl → Fl} {wide : Bool}
    {beams : List Elt} {na nq ns : Nat} (ho : FloatScale ops square wide) (hr : BfiqRec s.fields a norm beams na nq ns)
    (hsz : nq * (2 * na * ns) < 2 ^ 31) (h : convertBfiq cfg ops s = .ok recs)
    {n : Rat} (hn : IsDouble norm n) (hn1 : 1 / 2 ^ 30 ≤ n) (hn2 : n ≤ 2 ^ 40) (hk : s.factor.natAbs ≤ 2 ^ 30)
    {b : Nat} {d : PlainRec} (hd : recs[b]? = some d) :
    ∃ data toff, arrField d (py! "data") = some data ∧ arrField d (py! "toff") = some toff ∧
      ∀ i x t, i < nq → x < na → t < ns → ∃ off : Nat, ∃ e, i32At toff [i] = some (off : Int) ∧
        a.shaped [na, nq, beams.length, ns] [x, i, b, t] = some e ∧
        ∀ re im, IsComplex e re im → re.abs ≤ 2 ^ 40 → im.abs ≤ 2 ^ 40 →
          (32768 ≤ re / n * 32767 * s.factor → i16At data [off + 2 * (x * ns + t)] = some 32767) ∧
          (re / n * 32767 * s.factor ≤ -32769 → i16At data [off + 2 * (x * ns + t)] = some (-32768)) ∧
          (32768 ≤ im / n * 32767 * s.factor → i16At data [off + 2 * (x * ns + t) + 1] = some 32767) ∧
          (im / n * 32767 * s.factor ≤ -32769 → i16At data [off + 2 * (x * ns + t) + 1] = some (-32768)) := by
  obtain ⟨h1, h2⟩ := C42_samples hr hsz h
  have hlt : b < beams.length := by
    rw [← h1]
    exact (List.getElem?_eq_some_iff.1 hd).1
  obtain ⟨d', data, toff, h3, h4, -, h5, -, h6⟩ := h2 b hlt
  rw [hd] at h3
  cases h3
  refine ⟨data, toff, h4, h5, fun i x t hi hx ht => ?_⟩
  obtain ⟨off, e, h7, h8, h9, h10⟩ := h6 i x t hi hx ht
  refine ⟨off, e, h7, h8, fun re im he hre him => ?_⟩
  rw [ho.iq] at h9 h10
  obtain ⟨y, z, hy, hz, hy', hz'⟩ := iq_near wide he hn hre him hn1 hn2 hk
  refine ⟨fun hv => ?_, fun hv => ?_, fun hv => ?_, fun hv => ?_⟩
  · rw [h9, clamp16_above hy hy' hv]
  · rw [h9, clamp16_below hy hy' hv]
  · rw [h10, clamp16_above hz hz' hv]
  · rw [h10, clamp16_below hz hz' hv]

/-- A correctly rounded product is a square. -/
theorem squareOk_mul : SquareOk (fun x => b64.mul x x) := fun x v hx hv =>
  mul_err good64 hx hx (Rat.le_trans (bound_mul hv hv) (by decide +kernel))

/-- The sample operations with the arithmetic of NumPy. -/
def scaleOps (wide : Bool) : Ops :=
  { floatOps with iq := iqOf wide, acf := acfOf (fun x => b64.mul x x) wide, power := powOf (fun x => b64.mul x x) wide }

theorem scaleOps_scale (wide : Bool) : FloatScale (scaleOps wide) (fun x => b64.mul x x) wide := ⟨rfl, rfl, rfl⟩

/-- `1/4 - 3/8 i`, `-1 + 5 i` and so on. -/
def scaleData : NdArr := ⟨.c64, [24], (List.range 24).map fun i => if i % 2 = 0 then .cpx 0x3E800000 0xBEC00000 else .cpx 0xBF800000 0x40A00000⟩

/-- A record with normalization factor 3. -/
def scaleBfiq : Rec :=
  ((sampleBfiq .v06 []).set (py! "data") (.arr scaleData)).set (py! "data_normalization_factor") (.np .f64 (.flt 0x4008000000000000))

theorem scaleBfiq_rec : BfiqRec scaleBfiq scaleData (.np .f64 (.flt 0x4008000000000000)) [.int 3, .int 7] 2 2 3 where
  data := rfl
  size := rfl
  dims := rfl
  norm := rfl
  order := ⟨_, rfl, rfl⟩
  samps := rfl
  seqs := rfl
  beams := ⟨_, rfl, rfl, rfl⟩

theorem three_double : IsDouble (.np .f64 (.flt 0x4008000000000000)) 3 :=
  ⟨0x4008000000000000, rfl, by unfold f64Finite; decide, by decide +kernel⟩

theorem scale_sample : IsComplex (.cpx 0x3E800000 0xBEC00000) (1 / 4) (-3 / 8) :=
  ⟨0x3E800000, 0xBEC00000, rfl, ⟨by unfold f32Finite; decide, by decide +kernel⟩, ⟨by unfold f32Finite; decide, by decide +kernel⟩⟩

/-- `32767 / 12`, `- 32767 / 8`, `- 32767 / 3` and a number that is too large, with both precisions. -/
example (wide : Bool) : ((convertBfiq numpy2 (scaleOps wide) (sampleSource scaleBfiq)).map fun l => l.map fun d =>
      (List.range 4).map fun i => (arrField d (py! "data")).bind fun a => i16At a [i]) =
    .ok [[some 2730, some (-4095), some (-10922), some 32767], [some (-10922), some 32767, some 2730, some (-4095)]] := by
  cases wide <;> decide +kernel

example (ds : List PlainRec) (h : convertBfiq numpy2 (scaleOps false) (sampleSource scaleBfiq) = .ok ds) : ds.length = 2 ∧
    ∃ d data, ds[0]? = some d ∧ arrField d (py! "data") = some data ∧ ∃ (off : Nat) (p : Int), i16At data [off] = some p ∧
      Near16 (1 / 4 / 3 * 32767 * 1) p := by
  obtain ⟨h1, h2⟩ := C42_scaled (scaleOps_scale false) scaleBfiq_rec (by decide) h three_double (by decide +kernel) (by decide +kernel)
    (by decide)
  refine ⟨h1, ?_⟩
  obtain ⟨d, data, toff, h3, h4, -, h5⟩ := h2 0 (by decide)
  obtain ⟨off, e, -, h6, h7⟩ := h5 0 0 0 (by decide) (by decide) (by decide)
  cases h6
  obtain ⟨p, q, h8, h9, -⟩ := h7 _ _ scale_sample (by decide +kernel) (by decide +kernel)
  exact ⟨d, data, h3, h4, _, p, h8, h9⟩

/-! ## C43 -/

theorem div_pow2 (d : Nat) (x : Rat) : 1 / 2 ^ d * x = x / 2 ^ d := by
  rw [Rat.div_def, Rat.div_def, Rat.one_mul, Rat.mul_comm]

/-- A scaled correlation. -/
theorem acf_near {square : Fl → Fl} (hsq : SquareOk square) (wide : Bool) {e : Elt} {norm : Val} {re im n : Rat} {k : Int}
    (he : IsComplex e re im) (hn : IsDouble norm n)
    (ha : re.abs ≤ 2 ^ 40) (hb : im.abs ≤ 2 ^ 40) (hn1 : 1 / 2 ^ 10 ≤ n) (hn2 : n ≤ 2 ^ 40) (hk : k.natAbs ≤ 2 ^ 24) :
    NearF32 (re * (32767 ^ 2 * k) / (n * n)) (acfOf square wide e norm k).1 ∧
    NearF32 (im * (32767 ^ 2 * k) / (n * n)) (acfOf square wide e norm k).2 := by
  obtain ⟨r, i, rfl, hx⟩ := complex_is he
  obtain ⟨b, rfl, hb'⟩ := double_is hn
  obtain ⟨y, z, h1, hy, hz, h2, h3⟩ := acfNumber_error hsq wide hx hb' ha hb hn1 hn2 hk
  rw [exact_acf] at h2 h3
  unfold Rel at h2 h3
  rw [div_pow2] at h2 h3
  exact ⟨⟨y, bits32_val h1.1 hy, h2⟩, ⟨z, bits32_val h1.2 hz, h3⟩⟩

/-- The power of a scaled correlation. -/
theorem power_near {square : Fl → Fl} (hsq : SquareOk square) (wide : Bool) {e : Elt} {norm : Val} {re im n v w : Rat} {k : Int}
    (he : IsComplex e re im) (hn : IsDouble norm n)
    (ha : re.abs ≤ 2 ^ 40) (hb : im.abs ≤ 2 ^ 40) (hn1 : 1 / 2 ^ 10 ≤ n) (hn2 : n ≤ 2 ^ 40) (hk : k.natAbs ≤ 2 ^ 24)
    (hv : v = re * (32767 ^ 2 * k) / (n * n)) (hw : w = im * (32767 ^ 2 * k) / (n * n)) (hv1 : v.abs ≤ 2 ^ 60) (hw1 : w.abs ≤ 2 ^ 60) :
    NearRoot (v * v + w * w) (powOf square wide e norm k) := by
  obtain ⟨r, i, rfl, hx⟩ := complex_is he
  obtain ⟨b, rfl, hb'⟩ := double_is hn
  rw [← exact_acf] at hv hw
  obtain ⟨p, h1, h2, h3, h4⟩ := powerNumber_error hsq wide hx hb' ha hb hn1 hn2 hk hv hw hv1 hw1
  unfold Rel at h4
  rw [div_pow2] at h4
  exact ⟨p, bits32_val h1 h2, h3, h4⟩

/-- **C43.** In the rawacf record of a beam, `acfd` and `xcfd` are the correlations of the same beam, range and lag times the square of the
largest int16 and the scaling factor, divided by the square of the normalization factor, and `pwr0` is the absolute value of the scaled
correlation of lag zero, whatever the version of NumPy.  Correlations are up to `2 ^ 40`, the normalization factor from `2 ^ -10` to
`2 ^ 40`, the scaling factor up to `2 ^ 24`; for the power, the scaled correlations are up to `2 ^ 60`. -/
theorem C43_scaled {cfg : NpCfg} {ops : Ops} {s : Source} {recs : List PlainRec} {m x : NdArr} {norm : Val} {square : Fl → Fl} {wide : Bool}
    {beams : List Elt} {nr nl : Nat} (ho : FloatScale ops square wide) (hsq : SquareOk square) (hr : RawacfRec s.fields m x norm beams nr nl)
    (h : convertRawacf cfg ops s = .ok recs)
    {n : Rat} (hn : IsDouble norm n) (hn1 : 1 / 2 ^ 10 ≤ n) (hn2 : n ≤ 2 ^ 40) (hk : s.factor.natAbs ≤ 2 ^ 24) :
    recs.length = beams.length ∧
    ∀ b, b < beams.length → ∃ d acfd xcfd pwr0, recs[b]? = some d ∧
      arrField d (py! "acfd") = some acfd ∧ arrField d (py! "xcfd") = some xcfd ∧ arrField d (py! "pwr0") = some pwr0 ∧
      (∀ i j, i < nr → j + 1 < nl → ∃ e f,
        m.shaped [beams.length, nr, nl] [b, i, j] = some e ∧ x.shaped [beams.length, nr, nl] [b, i, j] = some f ∧
        (∀ re im, IsComplex e re im → re.abs ≤ 2 ^ 40 → im.abs ≤ 2 ^ 40 → ∃ p q,
          f32At acfd [i, j, 0] = some p ∧ NearF32 (re * (32767 ^ 2 * s.factor) / (n * n)) p ∧
          f32At acfd [i, j, 1] = some q ∧ NearF32 (im * (32767 ^ 2 * s.factor) / (n * n)) q) ∧
        (∀ re im, IsComplex f re im → re.abs ≤ 2 ^ 40 → im.abs ≤ 2 ^ 40 → ∃ p q,
          f32At xcfd [i, j, 0] = some p ∧ NearF32 (re * (32767 ^ 2 * s.factor) / (n * n)) p ∧
          f32At xcfd [i, j, 1] = some q ∧ NearF32 (im * (32767 ^ 2 * s.factor) / (n * n)) q)) ∧
      (∀ i, i < nr → ∃ e, m.shaped [beams.length, nr, nl] [b, i, 0] = some e ∧
        ∀ re im v w, IsComplex e re im → re.abs ≤ 2 ^ 40 → im.abs ≤ 2 ^ 40 →
          v = re * (32767 ^ 2 * s.factor) / (n * n) → w = im * (32767 ^ 2 * s.factor) / (n * n) → v.abs ≤ 2 ^ 60 → w.abs ≤ 2 ^ 60 →
          ∃ p, f32At pwr0 [i] = some p ∧ NearRoot (v * v + w * w) p) := by
  obtain ⟨h1, h2⟩ := C43_correlations hr h
  refine ⟨h1, fun b hb => ?_⟩
  obtain ⟨d, acfd, xcfd, pwr0, slist, h3, h4, -, h5, -, h6, -, -, -, h7, h8, -⟩ := h2 b hb
  refine ⟨d, acfd, xcfd, pwr0, h3, h4, h5, h6, fun i j hi hj => ?_, fun i hi => ?_⟩
  · obtain ⟨e, f, he, hf, g1, g2, g3, g4⟩ := h7 i j hi hj
    rw [ho.acf] at g1 g2 g3 g4
    refine ⟨e, f, he, hf, fun re im hc hre him => ?_, fun re im hc hre him => ?_⟩
    · obtain ⟨k1, k2⟩ := acf_near hsq wide hc hn hre him hn1 hn2 hk
      exact ⟨_, _, g1, k1, g2, k2⟩
    · obtain ⟨k1, k2⟩ := acf_near hsq wide hc hn hre him hn1 hn2 hk
      exact ⟨_, _, g3, k1, g4, k2⟩
  · obtain ⟨e, he, g1⟩ := h8 i hi
    rw [ho.power] at g1
    exact ⟨e, he, fun re im v w hc hre him hv hw hv1 hw1 => ⟨_, g1, power_near hsq wide hc hn hre him hn1 hn2 hk hv hw hv1 hw1⟩⟩

/-- The same numbers as correlations. -/
def scaleAcfs : NdArr := ⟨.c64, [12], (List.range 12).map fun i => if i % 2 = 0 then .cpx 0x3E800000 0xBEC00000 else .cpx 0xBF800000 0x40A00000⟩

def scaleRawacf : Rec :=
  (((sampleRawacf .v06 []).set (py! "main_acfs") (.arr scaleAcfs)).set (py! "xcfs") (.arr scaleAcfs)).set
    (py! "data_normalization_factor") (.np .f64 (.flt 0x4008000000000000))

theorem scaleRawacf_rec : RawacfRec scaleRawacf scaleAcfs scaleAcfs (.np .f64 (.flt 0x4008000000000000)) [.int 3, .int 7] 2 3 where
  main := rfl
  cross := rfl
  mainSize := rfl
  crossSize := rfl
  dims := .inl rfl
  norm := rfl
  beams := ⟨_, rfl, rfl, rfl⟩

/-- `32767 ** 2 / 36 = 29824341.36…`, `-44736512.04…` and the power `53766596.01…`, as float32. -/
example (wide : Bool) : ((convertRawacf numpy2 (scaleOps wide) (sampleSource scaleRawacf)).map fun l => (l.take 1).map fun d =>
      ((arrField d (py! "acfd")).bind fun a => f32At a [0, 0, 0], (arrField d (py! "acfd")).bind fun a => f32At a [0, 0, 1],
       (arrField d (py! "pwr0")).bind fun a => f32At a [0])) =
    .ok [(some 0x4BE38AAB, some 0xCC2AA800, some 0x4C4D1A71)] := by
  cases wide <;> decide +kernel

example (ds : List PlainRec) (h : convertRawacf numpy2 (scaleOps true) (sampleSource scaleRawacf) = .ok ds) : ds.length = 2 ∧
    ∃ d acfd pwr0 p q, ds[0]? = some d ∧ arrField d (py! "acfd") = some acfd ∧ f32At acfd [0, 0, 0] = some p ∧
      NearF32 (1 / 4 * (32767 ^ 2 * 1) / (3 * 3)) p ∧ arrField d (py! "pwr0") = some pwr0 ∧ f32At pwr0 [0] = some q ∧
      ∃ v w : Rat, v = 1 / 4 * (32767 ^ 2 * 1) / (3 * 3) ∧ w = -3 / 8 * (32767 ^ 2 * 1) / (3 * 3) ∧ NearRoot (v * v + w * w) q := by
  obtain ⟨h1, h2⟩ := C43_scaled (scaleOps_scale true) squareOk_mul scaleRawacf_rec h three_double (by decide +kernel) (by decide +kernel)
    (by decide)
  refine ⟨h1, ?_⟩
  obtain ⟨d, acfd, xcfd, pwr0, h3, h4, -, h5, h6, h7⟩ := h2 0 (by decide)
  obtain ⟨e, f, he, -, h8, -⟩ := h6 0 0 (by decide) (by decide)
  cases he
  obtain ⟨p, q, h9, h10, -⟩ := h8 _ _ scale_sample (by decide +kernel) (by decide +kernel)
  obtain ⟨e, he, h11⟩ := h7 0 (by decide)
  cases he
  obtain ⟨r, h12, h13⟩ := h11 _ _ _ _ scale_sample (by decide +kernel) (by decide +kernel) rfl rfl (by decide +kernel) (by decide +kernel)
  exact ⟨d, acfd, pwr0, p, r, h3, h4, h9, h10, h5, h12, _, _, by decide +kernel, by decide +kernel, h13⟩

/-- **C43** The square root of which the power is made is the one IEEE 754 asks for: of every finite number that is not negative it
is finite and, of all numbers of the format (float32 or float64), the closest to the exact root, that is, the root is not beyond the
middle between it and any other. -/
theorem C43_root (wide : Bool) (n : Nat) (a : Rat) (ha : ((precision wide).ofBits n).val? (precision wide) = some a) (h0 : 0 ≤ a) :
    ∃ b, ((precision wide).sqrt ((precision wide).ofBits n)).val? (precision wide) = some b ∧ 0 ≤ b ∧
      ∀ z c, ((precision wide).ofBits z).val? (precision wide) = some c → 0 ≤ c →
        (b < c → a ≤ ((b + c) / 2) * ((b + c) / 2)) ∧ (c < b → ((b + c) / 2) * ((b + c) / 2) ≤ a) := by
  have good : (precision wide).Good := by cases wide <;> first | exact good32 | exact good64
  generalize precision wide = f at *
  have fits : ∀ n s m, f.ofBits n = .num s m → m < f.top * 2 ^ f.mant := by
    intro n s m h
    unfold Fmt.ofBits at h
    dsimp only at h
    split at h
    · cases h
      assumption
    · split at h <;> cases h
  have pos : ∀ s m, 0 ≤ signed s (f.abs m) → signed s (f.abs m) = f.abs m := by
    intro s m h
    have := abs_nonneg f m
    cases s
    · rfl
    · simp only [signed, if_true] at h ⊢
      grind
  obtain ⟨s, m, hn, rfl⟩ := num_of_val ha
  have hm := fits n s m hn
  obtain ⟨r, hr, h1, h2⟩ := sqrt_nearest good hm
  have hv : (f.sqrt (f.ofBits n)).val? f = some (f.abs r) := by
    rw [hn]
    cases s with
    | false => rw [h1]; rfl
    | true =>
      have hz : m = 0 := by
        have := abs_nonneg f m
        simp only [signed, if_true] at h0
        exact abs_eq_zero (f := f) (by grind)
      subst hz
      have e : r = 0 := by
        rw [show f.sqrt (.num false 0) = .num false 0 from rfl] at h1
        cases h1
        rfl
      subst e
      rw [show f.sqrt (.num true 0) = .num true 0 from rfl, val_num, abs_zero_num]
      rfl
  refine ⟨_, hv, abs_nonneg f r, ?_⟩
  intro z c hc hc0
  obtain ⟨t, k, hk, rfl⟩ := num_of_val hc
  rw [pos s m h0]
  rw [pos t k hc0]
  obtain ⟨h3, h4⟩ := h2 k
  refine ⟨fun h => h3 ?_, fun h => h4 ?_⟩
  · rcases Nat.lt_or_ge r k with h' | h'
    · exact h'
    · exact absurd ((abs_le f).2 h') (Rat.not_le.2 h)
  · rcases Nat.lt_or_ge k r with h' | h'
    · exact h'
    · exact absurd ((abs_le f).2 h') (Rat.not_le.2 h)

/-- The root of two as float32, between two other numbers. -/
example : (b32.sqrt (b32.ofBits 0x40000000)).val? b32 = some (11863283 / 8388608) ∧
    (b32.ofBits 0x40000000).val? b32 = some 2 ∧ (b32.ofBits 0x3FB504F4).val? b32 = some (11863284 / 8388608) ∧
    (2 : Rat) ≤ ((11863283 / 8388608 + 11863284 / 8388608) / 2) * ((11863283 / 8388608 + 11863284 / 8388608) / 2) ∧
    ((11863283 / 8388608 + 11863282 / 8388608) / 2) * ((11863283 / 8388608 + 11863282 / 8388608) / 2) ≤ (2 : Rat) := by
  decide +kernel

end Verif.Bor
