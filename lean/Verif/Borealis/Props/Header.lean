import Verif.Borealis.Lemmas.Header
import Verif.Borealis.Props.ConvertCheck
import Verif.Borealis.Props.ConvertHeader
import Verif.Borealis.Props.Scale
/-!
# C54, C55: numbers in headers

With the arithmetic of NumPy, the numbers in headers are those of the Borealis record, rounded to their types.
-/
namespace Verif.Bor
open Verif Verif.Ieee

theorem natText_eq (n : Nat) : natText n = (toString n).toList := by
  show Nat.toDigits 10 n = (Nat.repr n).toList
  unfold Nat.repr
  rw [String.toList_ofList]

theorem intText_eq (n : Int) : intText n = (toString n).toList := by
  unfold intText
  cases n with
  | ofNat k =>
    rw [if_neg (by simp only [Int.ofNat_eq_natCast]; omega), natText_eq]
    rfl
  | negSucc k =>
    rw [if_pos (by omega), natText_eq]
    show _ = (Int.repr (Int.negSucc k)).toList
    unfold Int.repr
    rw [String.toList_append]
    rfl

theorem IsSingle.float {v : Option Val} {x : Rat} (h : IsSingle v x) : ∃ b : BitVec 32, IsFloat v (.flt b.toNat) ∧ IsF32 b x := by
  obtain ⟨b, h1, h2⟩ := h
  exact ⟨b, .inl h1, h2⟩

/-- **C55.** Distances, times and noise in the header of a converted record, for both kinds of conversion and all versions
of NumPy: the delay of the first range is rounded towards zero, distances to the nearest integer, the integration time
down to seconds and microseconds, the noise to the nearest float32. -/
theorem C55_numbers {cfg : NpCfg} {ops : Ops} {bad16 : Option Int → BitVec 16} {bad32 : Option Int → BitVec 32} {wide : Bool}
    (ho : FloatHeader ops bad16 bad32 wide) {t : Target} {s : Source} {ds : List PlainRec}
    (h : convertRecord cfg ops t s = .ok ds) : ∀ d ∈ ds, NumbersOf s d := by
  intro d hd
  have hh := C55_header h d hd
  refine ⟨fun x hx hlt => ?_, fun x hx h0 hlt => ?_, fun p hp x hx hle => ?_, ?_⟩
  · obtain ⟨b, h1, h2⟩ := hx.float
    refine ⟨_, hh.firstLag _ h1, ?_⟩
    rw [ho.toI16]
    exact truncOf_eq h2 hlt
  · obtain ⟨b, h1, h2⟩ := hx.float
    obtain ⟨h3, h4⟩ := hh.time _ h1
    rw [ho.floor, floorOf_eq h2 h0 hlt] at h3
    rw [ho.micros] at h4
    obtain ⟨us, h5, h6, h7, h8, h9⟩ := microsOf_eq (bad := bad32) wide h2 h0 hlt
    rw [h5] at h4
    have f1 := Rat.floor_le x
    have f2 := Rat.lt_floor_add_one x
    rw [Rat.intCast_add, show ((1 : Int) : Rat) = 1 from rfl] at f2
    exact ⟨_, us, h3, h4, f1, f2, h6, h7, h8, h9⟩
  · obtain ⟨b, h1, h2⟩ := hx.float
    obtain ⟨m, h3, h4⟩ := roundOf_eq h2
    exact ⟨m, hh.distances p hp _ m h1 (by rw [ho.round]; exact h3) (h4.fits hle), h4⟩
  · obtain ⟨e, h1, h2⟩ := hh.noise
    refine ⟨e, h1, fun x hx hle => ⟨_, h2, ?_⟩⟩
    obtain ⟨b, rfl, h3⟩ := hx
    rw [ho.toF32]
    exact narrowOf_eq h3 hle

/-- **C55.** The separation of samples in microseconds, for a rate above 30.6 Hz.  Missing: it should be the nearest integer,
see `C55_separation_violation`. -/
theorem C55_separation_partial {cfg : NpCfg} {ops : Ops} {bad16 : Option Int → BitVec 16} {bad32 : Option Int → BitVec 32} {wide : Bool}
    (ho : FloatHeader ops bad16 bad32 wide) {t : Target} {s : Source} {ds : List PlainRec}
    (h : convertRecord cfg ops t s = .ok ds) {v : Val} {x : Rat} (hv : Dict.get? s.fields (py! "rx_sample_rate") = some v)
    (hx : IsDouble v x) (h0 : 0 < x) (hlt : 1000000 < 32767 * x) : ∀ d ∈ ds,
    ∃ m, intField d (py! "smsep") = some m ∧ Separation x m ∧ ∀ k : Int, x * k = 1000000 → m = k := by
  intro d hd
  obtain ⟨b, rfl, h1⟩ := hx
  have hs := periodOf_eq (bad := bad16) h1 h0 hlt
  refine ⟨_, (C55_header h d hd).rate _ (.inr hv), by rw [ho.period]; exact hs, fun k hk => ?_⟩
  rw [ho.period]
  generalize (periodOf bad16 (.flt b.toNat)).toInt = m at hs
  have e : (1000000 : Rat) / x = k := by
    have : (1000000 : Rat) / x * x = k * x := by rw [Rat.div_mul_cancel (Rat.ne_of_gt h0), Rat.mul_comm, hk]
    exact Rat.le_antisymm (Rat.le_of_mul_le_mul_right (by rw [this]; exact Rat.le_refl) h0)
      (Rat.le_of_mul_le_mul_right (by rw [this]; exact Rat.le_refl) h0)
  obtain ⟨h2, h3⟩ := hs
  rw [e] at h2 h3
  have t : (1 : Rat) / 2 ^ 38 < 1 := by decide +kernel
  have := int_between (m := m) (a := k - 1) (b := k + 1) (by rw [Rat.intCast_sub]; exact h2) (by
    rw [Rat.intCast_add, show ((1 : Int) : Rat) = 1 from rfl]
    grind)
  omega

/-- **C55** violated: for the rate of samples 7 microseconds apart, the header says 6, as the quotient is just below 7 and rounded
down. -/
theorem C55_separation_violation {cfg : NpCfg} {ops : Ops} {bad16 : Option Int → BitVec 16} {bad32 : Option Int → BitVec 32}
    {wide : Bool} (ho : FloatHeader ops bad16 bad32 wide) {t : Target} {s : Source} {ds : List PlainRec}
    (h : convertRecord cfg ops t s = .ok ds)
    (hv : Dict.get? s.fields (py! "rx_sample_rate") = some (.np .f64 (.flt 0x4101704924924925))) :
    (∀ d ∈ ds, intField d (py! "smsep") = some 6) ∧
    ∃ x, IsF64 0x4101704924924925 x ∧ (1000000 / x - 7).abs < 1 / 2 ^ 49 ∧
      ∀ b y, IsF64 b y → (x - 1000000 / 7).abs ≤ (y - 1000000 / 7).abs := by
  refine ⟨fun d hd => ?_, ?_⟩
  · rw [(C55_header h d hd).rate _ (.inr hv), ho.period]
    have : (b64.div (fl64 1000000) (double (.flt 0x4101704924924925))).trunc? b64 = some 6 := by decide +kernel
    unfold periodOf
    rw [this, int16Of_fits (by decide) (by decide)]
  · have hx : (0 : Rat) ≤ 1000000 / 7 ∧ (1000000 : Rat) / 7 ≤ 2 ^ 126 := by decide +kernel
    obtain ⟨m, h1, h2⟩ := ofAbs_nearest good64 false hx.1 hx.2
    have h3 : b64.ofAbs false (1000000 / 7) = .num false 0x4101704924924925 := by decide +kernel
    rw [h3] at h1
    cases h1
    refine ⟨b64.abs 0x4101704924924925, (isF64_iff _ _).2 (by decide +kernel), by decide +kernel, fun b y hy => ?_⟩
    obtain ⟨u, n, -, rfl⟩ := num_of_val ((isF64_iff _ _).1 hy)
    have h5 := h2 n
    have h6 := h2 0
    rw [abs_zero_num] at h6
    have := abs_nonneg b64 n
    have := hx.1
    generalize (1000000 : Rat) / 7 = q at *
    generalize b64.abs 0x4101704924924925 = a at *
    have := abs_cases (a - q)
    have := abs_cases (b64.abs n - q)
    have := abs_cases (0 - q)
    have := abs_cases (signed u (b64.abs n) - q)
    cases u <;> simp only [signed, Bool.false_eq_true, if_false, if_true] at * <;> grind

/-- **C55.** The direction in the header of a converted record is that of its beam, rounded to float32, for both kinds of
conversion. -/
theorem C55_azimuth {ops : Ops} {bad16 : Option Int → BitVec 16} {bad32 : Option Int → BitVec 32} {wide : Bool}
    (ho : FloatHeader ops bad16 bad32 wide) {cfg : NpCfg} {s : Source} {recs : List PlainRec} {beams : List Elt}
    (h : (∃ a norm na nq ns, BfiqRec s.fields a norm beams na nq ns ∧ nq * (2 * na * ns) < 2 ^ 31 ∧ na < 2 ^ 31 ∧ nq < 2 ^ 31 ∧
        ns < 2 ^ 31 ∧ convertBfiq cfg ops s = .ok recs) ∨
      ∃ m x norm nr nl, RawacfRec s.fields m x norm beams nr nl ∧ nr < 2 ^ 15 ∧ convertRawacf cfg ops s = .ok recs)
    {z : NdArr} (hz : Dict.get? s.fields (py! "beam_azms") = some (.arr z)) {b : Nat} {d : PlainRec} (hd : recs[b]? = some d) :
    ∃ e, z.data[b]? = some e ∧ ∀ x, IsDoubleElt e x → InRange32 x →
      ∃ v, f32Field d (py! "bmazm") = some v ∧ Nearest32 x v := by
  have key : ∃ e, z.data[b]? = some e ∧ f32Field d (py! "bmazm") = some (ops.toF32 e) := by
    rcases h with ⟨a, norm, na, nq, ns, hr, h1, h2, h3, h4, h⟩ | ⟨m, x, norm, nr, nl, hr, h1, h⟩
    · exact (C42_header hr h1 h2 h3 h4 h hd).2.2.2.2.2 z hz
    · exact (C43_header hr h1 h hd).2.2.2.2 z hz
  obtain ⟨e, h1, h2⟩ := key
  refine ⟨e, h1, fun x hx hle => ⟨_, h2, ?_⟩⟩
  obtain ⟨c, rfl, h3⟩ := hx
  rw [ho.toF32]
  exact narrowOf_eq h3 hle

/-- **C55.** The first range in an iqdat record as a number of ranges: the quotient of two distances, rounded towards zero. -/
theorem C55_skip {ops : Ops} {bad16 : Option Int → BitVec 16} {bad32 : Option Int → BitVec 32} {wide : Bool}
    (ho : FloatHeader ops bad16 bad32 wide) {cfg : NpCfg} {s : Source} {ds : List PlainRec} (h : convertBfiq cfg ops s = .ok ds)
    {x y : Rat} (hx : IsSingle (Dict.get? s.fields (py! "first_range")) x) (hy : IsSingle (Dict.get? s.fields (py! "range_sep")) y)
    (hy0 : y ≠ 0) (hq : (x / y).abs ≤ 2 ^ 30) :
    ∀ d ∈ ds, ∃ m, intField d (py! "skpnum") = some m ∧ ((m : Rat) - x / y).abs < 1 + (x / y).abs / 2 ^ 24 + 1 / 2 ^ 150 := by
  intro d hd
  obtain ⟨rev, norm, nsamps, nseq, order, beam, b, l, -, -, h⟩ := convertBfiq_mem h hd
  obtain ⟨p, h1, h2⟩ := hx
  obtain ⟨q, h3, h4⟩ := hy
  obtain ⟨m, h5, h6⟩ := entry_i32 (k := py! "skpnum") h rfl
  rw [bind_of_ok (field_iff.2 h1), bind_of_ok (x := (Val.np .f32 (.flt p.toNat)).flt) (a := .flt p.toNat) rfl,
    bind_of_ok (field_iff.2 h3), bind_of_ok (x := (Val.np .f32 (.flt q.toNat)).flt) (a := .flt q.toNat) rfl] at h5
  cases h5
  refine ⟨_, h6, ?_⟩
  rw [ho.quot]
  exact quotOf_eq h2 h4 hy0 hq

/-- **C55.** The noise in an iqdat record is that of the bfiq record, each rounded to float32, and attenuations are zero.  (There is
a level of noise for each frequency, not one for each sequence.) -/
theorem C55_noise {ops : Ops} {bad16 : Option Int → BitVec 16} {bad32 : Option Int → BitVec 32} {wide : Bool}
    (ho : FloatHeader ops bad16 bad32 wide) {cfg : NpCfg} {s : Source} {ds : List PlainRec} (h : convertBfiq cfg ops s = .ok ds)
    {z : NdArr} {n : Nat} (hz : Dict.get? s.fields (py! "noise_at_freq") = some (.arr z)) (hs : z.shape = [n]) (hw : z.WF) :
    ∀ d ∈ ds, ∃ tnoise tatten, arrField d (py! "tnoise") = some tnoise ∧ tnoise.shape = [n] ∧
      (∀ i e, z.data[i]? = some e → ∀ x, IsDoubleElt e x → InRange32 x → ∃ v, f32At tnoise [i] = some v ∧ Nearest32 x v) ∧
      arrField d (py! "tatten") = some tatten ∧ ∀ i v, i16At tatten [i] = some v → v = 0 := by
  intro d hd
  obtain ⟨rev, norm, nsamps, nseq, order, beam, b, l, -, -, h⟩ := convertBfiq_mem h hd
  obtain ⟨v, h1, h2⟩ := entry_get (k := py! "tnoise") h rfl
  rw [bind_of_ok (field_iff.2 hz), bind_of_ok (x := (Val.arr z).arr?) (a := z) rfl] at h1
  cases h1
  have h3 := entry_ok (k := py! "tatten") h rfl
  have hlen : z.data.length = n := by
    have := hw
    unfold NdArr.WF at this
    rw [this, hs]; simp [prod]
  refine ⟨_, _, by simp only [arrField, h2, arrF32]; rfl, hs, fun i e he x hx hle => ?_, by simp only [arrField, h3, arr16]; rfl,
    fun i v hv => ?_⟩
  · obtain ⟨c, rfl, h4⟩ := hx
    refine ⟨ops.toF32 (.flt c.toNat), ?_, ?_⟩
    · rw [hs]
      exact f32At_vec (by rw [List.length_map, hlen]) (by rw [List.getElem?_map, he]; rfl)
    · rw [ho.toF32]
      exact narrowOf_eq h4 hle
  · by_cases hi : i < nseq
    · rw [i16At_vec (l := List.replicate nseq 0) (v := 0) (by simp) (by simp [hi]) (by unfold signedOk; omega)] at hv
      exact (Option.some.inj hv).symm
    · unfold i16At signedAt Spec.elementAt at hv
      simp [Spec.rowMajor, hi] at hv

/-- **C55.** The antennas that transmit, in a rawacf record. -/
theorem C55_antennas {ops : Ops} {bad16 : Option Int → BitVec 16} {bad32 : Option Int → BitVec 32} {wide : Bool}
    (ho : FloatHeader ops bad16 bad32 wide) {cfg : NpCfg} {s : Source} {ds : List PlainRec} {m x : NdArr} {norm : Val}
    {beams : List Elt} {nr nl : Nat} (hr : RawacfRec s.fields m x norm beams nr nl) (h : convertRawacf cfg ops s = .ok ds)
    {a : NdArr} {n : Nat} (ha : Dict.get? s.fields (py! "tx_antenna_phases") = some (.arr a)) (hs : a.shape = [n]) (hw : a.WF)
    (hn : n ≤ 16) : ∀ d ∈ ds, ∃ p : Int, intField d (py! "txpow") = some p ∧
      ∀ i e re im, a.data[i]? = some e → IsComplex e re im → ((BitVec.ofInt 16 p).getLsbD i = true ↔ re ≠ 0 ∨ im ≠ 0) := by
  intro d hd
  have hlen : a.data.length = n := by
    have := hw
    unfold NdArr.WF at this
    rw [this, hs]; simp [prod]
  obtain ⟨p, h1, h2⟩ := (C55_rawacf hr h d hd).2.2.2.2 a n ha hs hlen hn
  refine ⟨p, h1, fun i e re im he hc => ?_⟩
  rw [h2 i e he, ho.isOn]
  exact onOf_iff hc

/-- **C46.** A record passes the check of phase offsets iff all are zero as numbers. -/
theorem C46_phases_float {ops : Ops} {bad16 : Option Int → BitVec 16} {bad32 : Option Int → BitVec 32} {wide : Bool}
    (ho : FloatHeader ops bad16 bad32 wide) {r : Rec} {a : NdArr} {n : Nat}
    (ha : Dict.get? r (py! "pulse_phase_offset") = some (.arr a)) (hs : a.shape = [n]) (hw : a.WF) {xs : List Rat}
    (hx : a.data.length = xs.length) (hv : ∀ (i : Nat) e x, a.data[i]? = some e → xs[i]? = some x → IsSingleElt e x) :
    ((∀ x ∈ xs, x = 0) → phaseCheck ops r = .ok ()) ∧ ((∃ x ∈ xs, x ≠ 0) → phaseCheck ops r = .error .notConvertible) := by
  obtain ⟨h1, h2⟩ := C46_phases (ops := ops) ha hs hw
  rw [ho.isZero] at h1 h2
  refine ⟨fun h => h1 fun e he => ?_, fun ⟨x, hm, hne⟩ => h2 ?_⟩
  · obtain ⟨i, hi, rfl⟩ := List.mem_iff_getElem.1 he
    have hi' : i < xs.length := by omega
    exact (phaseZero_iff (hv i _ _ (List.getElem?_eq_getElem hi) (List.getElem?_eq_getElem hi'))).2 (h _ (List.getElem_mem hi'))
  · obtain ⟨i, hi, rfl⟩ := List.mem_iff_getElem.1 hm
    have hi' : i < a.data.length := by omega
    refine ⟨_, List.getElem_mem hi', fun hz => hne ?_⟩
    exact (phaseZero_iff (hv i _ _ (List.getElem?_eq_getElem hi') (List.getElem?_eq_getElem hi))).1 hz

/-- **C55.** The versions of the formats, and the comment of a converted record. -/
theorem C55_comment {cfg : NpCfg} {ops : Ops} {t : Target} {s : Source} {ds : List PlainRec}
    (h : convertRecord cfg ops t s = .ok ds) : ∀ d ∈ ds,
    (t = .iqdat → intField d (py! "iqdata.revision.major") = some 1 ∧ intField d (py! "iqdata.revision.minor") = some 0) ∧
    (t = .rawacf → intField d (py! "rawacf.revision.major") = some 1 ∧ intField d (py! "rawacf.revision.minor") = some 0) ∧
    ∀ n e c, IsVector (Dict.get? s.fields (py! "beam_nums")) n → IsText (Dict.get? s.fields (py! "experiment_comment")) e →
      IsText (Dict.get? s.fields (py! "slice_comment")) c →
      textField d (py! "combf") = some (py! "Converted from Borealis file: " ++ s.origin ++ py! " record " ++ s.name ++
        py! " with scaling factor = " ++ (toString s.factor).toList ++ py! " ; Number of beams in record: " ++
        (toString n).toList ++ py! " ; " ++ e ++ py! " ; " ++ c) := by
  intro d hd
  have c32 : ∀ {l : List Entry} {k} {n : Int}, dictOf l = .ok d → signedOk 4 n → Dict.get? l k = some (i32 (pyIntTo cfg 4 n)) →
      intField d k = some n := by
    intro l k n h hn hk
    obtain ⟨m, h1, h2⟩ := entry_i32 h hk
    rw [pyIntTo_eq cfg rfl hn] at h1
    cases h1
    exact h2
  refine ⟨?_, ?_, ?_⟩
  · rintro rfl
    obtain ⟨rev, norm, nsamps, nseq, order, beam, b, l, -, -, h⟩ := convertBfiq_mem h hd
    exact ⟨c32 h (by unfold signedOk; omega) rfl, c32 h (by unfold signedOk; omega) rfl⟩
  · rintro rfl
    obtain ⟨_, _, _, _, _, _, _, _, _, -, -, -, -, h⟩ := convertRawacf_mem h hd
    exact ⟨c32 h (by unfold signedOk; omega) rfl, c32 h (by unfold signedOk; omega) rfl⟩
  · rintro n e c ⟨a, ha, hs⟩ he hc
    obtain ⟨rev, beam, b, txpow, nrang, l, -, h, hl⟩ := convertRecord_common h hd
    have hk : Dict.get? (commonFields cfg ops s rev beam b txpow nrang ++ l) (py! "combf") = some s.combf := by
      rw [get?_append, hl.combf]
      rfl
    obtain ⟨m, h1, h2⟩ := entry_text h hk
    rw [bind_of_ok (field_iff.2 ha), bind_of_ok (a := n) (by simp [Val.len, hs]),
      bind_of_ok (field_iff.2 he), bind_of_ok (x := (Val.py .str (.str e)).text) (a := e) rfl,
      bind_of_ok (field_iff.2 hc), bind_of_ok (x := (Val.py .str (.str c)).text) (a := c) rfl] at h1
    cases h1
    rw [h2, intText_eq, natText_eq]

/-! ## C54 -/

theorem bits32_quiet {x : Fl} (hx : ∀ s m, x = .num s m → m < 255 * 2 ^ 23) : ¬ IsSNaN (bits32 x) := by
  rintro ⟨h1, h2, h3⟩
  unfold bits32 at h1 h2 h3
  rw [BitVec.toNat_ofNat] at h1 h2 h3
  cases x with
  | num s m =>
    have hm := hx s m rfl
    have e : b32.bits (.num s m) = (if s then 256 * 2 ^ 23 else 0) + m := rfl
    rw [e] at h1
    cases s <;> simp at h1 <;> omega
  | inf s =>
    have e : b32.bits (.inf s) = (if s then 256 * 2 ^ 23 else 0) + 255 * 2 ^ 23 := rfl
    rw [e] at h2
    cases s <;> simp at h2
  | nan =>
    have e : b32.bits .nan = 255 * 2 ^ 23 + 2 ^ 22 := rfl
    rw [e] at h3
    omega

theorem ofAbs_fits {f : Ieee.Fmt} {neg s : Bool} {x : Rat} {m : Nat} (h : f.ofAbs neg x = .num s m) : m < f.top * 2 ^ f.mant := by
  unfold Ieee.Fmt.ofAbs at h
  simp only at h
  split at h
  · cases h; assumption
  · cases h

/-- **C54.** Rounding to single precision gives no signalling NaN (`QuietOps` is a hypothesis of `C54_roundtrip`). -/
theorem C54_quiet {ops : Ops} {bad16 : Option Int → BitVec 16} {bad32 : Option Int → BitVec 32} {wide : Bool}
    (ho : FloatHeader ops bad16 bad32 wide) : QuietOps ops := by
  intro e
  rw [ho.toF32]
  refine bits32_quiet fun s m h => ?_
  cases hd : double e with
  | num s' m' => rw [hd] at h; exact ofAbs_fits h
  | inf s' => rw [hd] at h; cases h
  | nan => rw [hd] at h; cases h

/-! ## Examples -/

/-- What does not fit int16. -/
def noInt16 (_ : Option Int) : BitVec 16 := 0

/-- What does not fit int32. -/
def noInt32 (_ : Option Int) : BitVec 32 := 0

/-- All operations with the arithmetic of NumPy; numbers that do not fit become zero. -/
def headerOps (wide : Bool) : Ops :=
  { scaleOps wide with
    toI16 := truncOf noInt16, toF32 := narrowOf, period := periodOf noInt16, floor := floorOf noInt16
    micros := microsOf noInt32 wide, round := roundOf, quot := quotOf noInt32, isOn := onOf, isZero := phaseZero }

theorem headerOps_header (wide : Bool) : FloatHeader (headerOps wide) noInt16 noInt32 wide where
  toI16 := rfl
  toF32 := rfl
  period := by simp only [headerOps]
  floor := rfl
  micros := rfl
  round := rfl
  quot := rfl
  isOn := rfl
  isZero := rfl

example (wide : Bool) : QuietOps (headerOps wide) := C54_quiet (headerOps_header wide)

theorem headerOps_times (wide : Bool) : FloatTimes (headerOps wide) := ⟨rfl, rfl, rfl⟩

/-- First range 180 km after 1200 μs, ranges of 45 km, integration time 3.7 s, rate 10000 / 3 Hz, noise and directions 0.1,
timestamps in 2020. -/
def headerFields (r : Rec) : Rec :=
  ((((((((r.set (py! "first_range") (.np .f32 (.flt 0x43340000))).set (py! "range_sep") (.np .f32 (.flt 0x42340000))).set
    (py! "first_range_rtt") (.np .f32 (.flt 0x44960000))).set (py! "int_time") (.np .f32 (.flt 0x406ccccd))).set
    (py! "rx_sample_rate") (.np .f64 (.flt 0x40aa0aaaaaaaaaab))).set
    (py! "noise_at_freq") (.arr ⟨.f64, [2], [.flt 0x3fb999999999999a, .flt 0]⟩)).set
    (py! "beam_azms") (.arr ⟨.f64, [2], [.flt 0x3fb999999999999a, .flt 0xbfb999999999999a]⟩)).set
    (py! "sqn_timestamps") (.arr ⟨.f64, [2], [t0, t2]⟩)).set
    (py! "tx_antenna_phases") (.arr ⟨.c64, [4], [.cpx 0x3f800000 0, .cpx 0 0x80000000, .cpx 0x80000000 0, .cpx 0 0x00000001]⟩)

/-- The numbers in the headers of a bfiq and a rawacf record. -/
def headerNumbers (d : PlainRec) : List (Option Int) :=
  [py! "lagfr", py! "smsep", py! "intt.sc", py! "intt.us", py! "frang", py! "rsep", py! "txpow"].map (intField d)

example (wide : Bool) : ((convertBfiq numpy2 (headerOps wide) (sampleSource (headerFields scaleBfiq))).map fun l => l.map fun d =>
      (headerNumbers d, intField d (py! "skpnum"))) =
    .ok (List.replicate 2 ([some 1200, some 300, some 3, some 700000, some 180, some 45, some (-1)], some 4)) := by
  cases wide <;> decide +kernel

example (wide : Bool) : ((convertBfiq numpy2 (headerOps wide) (sampleSource (headerFields scaleBfiq))).map fun l => l.map fun d =>
      (f32Field d (py! "noise.search"), f32Field d (py! "bmazm"), (arrField d (py! "tnoise")).bind fun a => f32At a [0])) =
    .ok [(some 0x3dcccccd, some 0x3dcccccd, some 0x3dcccccd), (some 0x3dcccccd, some 0xbdcccccd, some 0x3dcccccd)] := by
  cases wide <;> decide +kernel

/-- The first and the last antenna transmit. -/
example (wide : Bool) : ((convertRawacf numpy2 (headerOps wide) (sampleSource (headerFields scaleRawacf))).map fun l => l.map headerNumbers) =
    .ok (List.replicate 2 [some 1200, some 300, some 3, some 700000, some 180, some 45, some 9]) := by
  cases wide <;> decide +kernel

/-- The integration time of 3.1 s has 99999 μs. -/
example (wide : Bool) : ((convertBfiq numpy2 (headerOps wide)
      (sampleSource ((headerFields scaleBfiq).set (py! "int_time") (.np .f32 (.flt 0x40466666))))).map fun l => l.map fun d =>
        (intField d (py! "intt.sc"), intField d (py! "intt.us"))) = .ok (List.replicate 2 (some 3, some 99999)) := by
  cases wide <;> decide +kernel

/-- Samples 7 μs apart. -/
example : ((convertBfiq numpy2 (headerOps true)
      (sampleSource ((headerFields scaleBfiq).set (py! "rx_sample_rate") (.np .f64 (.flt 0x4101704924924925))))).map fun l => l.map fun d =>
        intField d (py! "smsep")) = .ok (List.replicate 2 (some 6)) := by decide +kernel

/-- The hypotheses about numbers can be met: 180 and 45 km, 3333.3 Hz, 0.1. -/
example : IsSingle (Dict.get? (headerFields scaleBfiq) (py! "first_range")) 180 ∧
    IsSingle (Dict.get? (headerFields scaleBfiq) (py! "range_sep")) 45 ∧
    IsDouble (.np .f64 (.flt 0x40aa0aaaaaaaaaab)) (b64.abs 0x40aa0aaaaaaaaaab) ∧ (1000000 : Rat) < 32767 * b64.abs 0x40aa0aaaaaaaaaab ∧
    IsDoubleElt (.flt 0x3fb999999999999a) (b64.abs 0x3fb999999999999a) :=
  ⟨⟨0x43340000, by decide +kernel, by unfold IsF32 f32Finite; decide +kernel⟩, ⟨0x42340000, by decide +kernel, by unfold IsF32 f32Finite; decide +kernel⟩,
    ⟨0x40aa0aaaaaaaaaab, rfl, (isF64_iff _ _).2 (by decide +kernel)⟩, by decide +kernel,
    ⟨0x3fb999999999999a, rfl, (isF64_iff _ _).2 (by decide +kernel)⟩⟩

example (ds : List PlainRec) (h : convertBfiq numpy2 (headerOps false) (sampleSource (headerFields scaleBfiq)) = .ok ds) :
    ∀ d ∈ ds, ∃ m, intField d (py! "skpnum") = some m ∧ ((m : Rat) - 180 / 45).abs < 1 + (180 / 45 : Rat).abs / 2 ^ 24 + 1 / 2 ^ 150 :=
  C55_skip (headerOps_header false) h ⟨0x43340000, by decide +kernel, by unfold IsF32 f32Finite; decide +kernel⟩
    ⟨0x42340000, by decide +kernel, by unfold IsF32 f32Finite; decide +kernel⟩ (by decide) (by decide +kernel)

/-- Offsets of zero and minus zero. -/
example : phaseCheck (headerOps true) [(py! "pulse_phase_offset", .arr ⟨.f32, [2], [.flt 0, .flt 0x80000000]⟩)] = .ok () :=
  (C46_phases_float (headerOps_header true) (n := 2) (a := ⟨.f32, [2], [.flt 0, .flt 0x80000000]⟩) rfl rfl rfl (xs := [0, 0]) rfl (by
    intro i e x he hx
    match i, he, hx with
    | 0, he, hx => cases he; cases hx; exact ⟨0, rfl, (isF32_iff _ _).2 (by decide +kernel)⟩
    | 1, he, hx => cases he; cases hx; exact ⟨0x80000000, rfl, (isF32_iff _ _).2 (by decide +kernel)⟩)).1 (by decide)

end Verif.Bor
