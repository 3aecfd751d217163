import Verif.Borealis.Props.ConvertHeader
import Verif.Borealis.Lemmas.ConvertCheck
import Verif.Borealis.Model.Checks
/-!
# C51-C53: phase codes, times of sequences and the flag for cross correlations
-/
namespace Verif.Bor
open Verif

/-! ## C51 -/

/-- **C51** holds for phase offsets that are one for each pulse: they are left alone when a file is read, so
that a phase-coded record is not convertible. -/
theorem C51_partial {ops : Ops} {r r' : Rec} {a p : NdArr} {n : Nat}
    (ha : Dict.get? r (py! "pulse_phase_offset") = some (.arr a)) (hs : a.shape = [n]) (hw : a.WF)
    (hp : Dict.get? r (py! "pulses") = some (.arr p)) (hps : p.shape = [n])
    (hcoded : ∃ e ∈ a.data, ops.isZero e ≠ true) (h : ppoSiteFix1 r = .ok r') :
    r' = r ∧ phaseCheck ops r' = .error .notConvertible := by
  have : r' = r := by
    unfold ppoSiteFix1 at h
    rw [ha] at h
    simp only [Val.shape?, hs] at h
    rw [bind_of_ok (a := [n]) rfl, bind_of_ok (field_iff.2 hp), bind_of_ok (a := p.shape) rfl, hps] at h
    simp at h
    exact h.symm
  subst this
  refine ⟨rfl, ?_⟩
  rw [phaseCheck_eq ha hs hw]
  obtain ⟨e, he, hz⟩ := hcoded
  exact if_neg fun h => hz (List.all_eq_true.1 h e he)

/-- **C51** is violated by phase offsets for each sequence and pulse, which are how Borealis records phase codes:
reading the file replaces them by zeros, and the record is taken for one without phase codes. -/
theorem C51_violation {ops : Ops} (hz : ops.isZero (.flt 0) = true) {r : Rec} {a p : NdArr} {n m k : Nat}
    (ha : Dict.get? r (py! "pulse_phase_offset") = some (.arr a)) (hs : a.shape = [n, m])
    (hp : Dict.get? r (py! "pulses") = some (.arr p)) (hps : p.shape = [k]) :
    ∃ r', ppoSiteFix1 r = .ok r' ∧ phaseCheck ops r' = .ok () := by
  refine ⟨r.set (py! "pulse_phase_offset") (zerosF32 [k]), ?_, ?_⟩
  · unfold ppoSiteFix1
    rw [ha]
    simp only [Val.shape?, hs]
    rw [bind_of_ok (a := [n, m]) rfl, bind_of_ok (field_iff.2 hp)]
    simp only [hps]
    rw [bind_of_ok (a := [k]) rfl, if_pos (by simp)]
  · rw [phaseCheck_eq (n := k) (by rw [Dict.get?_set_self]; rfl) rfl (by simp [NdArr.WF, prod])]
    rw [if_pos]
    simp [hz]

example : ∃ r', ppoSiteFix1 ((sampleBfiq .v06 []).set (py! "pulse_phase_offset")
      (.arr ⟨.f32, [2, 3], [.flt 1, .flt 2, .flt 3, .flt 4, .flt 5, .flt 6]⟩)) = .ok r' ∧
    phaseCheck sampleOps r' = .ok () :=
  C51_violation (by decide) (a := ⟨.f32, [2, 3], [.flt 1, .flt 2, .flt 3, .flt 4, .flt 5, .flt 6]⟩)
    (Dict.get?_set_self ..) rfl (p := ⟨.u32, [3], [.int 0, .int 9, .int 12]⟩) (by decide +kernel) rfl

example : phaseCheck sampleOps ((sampleBfiq .v06 []).set (py! "pulse_phase_offset")
    (.arr ⟨.f32, [3], [.flt 1, .flt 2, .flt 3]⟩)) = .error .notConvertible := by decide +kernel

/-! ## C52 -/

/-- **C52.** There is one time for each sequence in an iqdat record.  The times are right if the timestamps of
Borealis are in milliseconds; but they are in seconds, as the header takes them (`HeaderOf.date`). -/
theorem C52_partial {cfg : NpCfg} {ops : Ops} (hops : RightTimes ops) {s : Source} {ds : List PlainRec} {a : NdArr}
    {nq : Nat} (ha : Dict.get? s.fields (py! "sqn_timestamps") = some (.arr a)) (hs : a.shape = [nq])
    (hw : a.WF) (h : convertBfiq cfg ops s = .ok ds) :
    ∀ d ∈ ds, ∃ tsc tus, arrField d (py! "tsc") = some tsc ∧ tsc.shape = [nq] ∧
      arrField d (py! "tus") = some tus ∧ tus.shape = [nq] ∧
      ∀ i e n, a.data[i]? = some e → IsWhole e n → n < 2 ^ 31 →
        i32At tsc [i] = some ((n / 1000 : Nat) : Int) ∧ i32At tus [i] = some ((n % 1000 * 1000 : Nat) : Int) := by
  intro d hd
  obtain ⟨rev, norm, nsamps, nseq, order, beam, b, l, -, ho, h⟩ := convertBfiq_mem h hd
  have hlen : a.data.length = nq := by
    have := hw
    unfold NdArr.WF at this
    rw [this, hs]; simp [prod]
  obtain ⟨v1, h1, h2⟩ := entry_get (k := py! "tsc") h rfl
  rw [bind_of_ok (field_iff.2 ha), bind_of_ok (x := (Val.arr a).elems) (a := a.data) (by simp [Val.elems, hs])] at h1
  obtain ⟨l1, hl1, h1⟩ := bind_ok h1
  cases h1
  obtain ⟨v2, h3, h4⟩ := entry_get (k := py! "tus") h rfl
  rw [bind_of_ok (field_iff.2 ha), bind_of_ok (x := (Val.arr a).elems) (a := a.data) (by simp [Val.elems, hs])] at h3
  obtain ⟨l2, hl2, h3⟩ := bind_ok h3
  cases h3
  refine ⟨_, _, by simp only [arrField, h2, arr32]; rfl, by simp only [hlen], by simp only [arrField, h4, arr32]; rfl,
    by simp only [hlen], fun i e n he hn hlt => ?_⟩
  obtain ⟨y1, hy1, ht1⟩ := mapE_get hl1 he
  obtain ⟨y2, hy2, ht2⟩ := mapE_get hl2 he
  obtain ⟨r1, r2⟩ := hops e n hn hlt
  rw [r1] at ht1
  cases ht1
  rw [r2] at ht2
  cases ht2
  have e1 : (BitVec.ofNat 32 (n / 1000)).toInt = ((n / 1000 : Nat) : Int) := by
    rw [BitVec.toInt_ofNat']
    simp only [Int.bmod, Nat.reducePow]
    split <;> omega
  have e2 : (BitVec.ofNat 32 (n % 1000 * 1000)).toInt = ((n % 1000 * 1000 : Nat) : Int) := by
    rw [BitVec.toInt_ofNat']
    simp only [Int.bmod, Nat.reducePow]
    split <;> omega
  refine ⟨i32At_vec (by rw [List.length_map, mapE_length hl1]) ?_ (signedOk4 (by omega)),
    i32At_vec (by rw [List.length_map, mapE_length hl2]) ?_ (signedOk4 (by omega))⟩
  · rw [List.getElem?_map, hy1, Option.map_some, e1]
  · rw [List.getElem?_map, hy2, Option.map_some, e2]

/-- **C52** is violated: the seconds of a sequence are not those of its timestamp, for any time after the first
second of 1970. -/
theorem C52_violation {cfg : NpCfg} {ops : Ops} (hops : RightTimes ops) {s : Source} {ds : List PlainRec} {a : NdArr}
    {nq : Nat} (ha : Dict.get? s.fields (py! "sqn_timestamps") = some (.arr a)) (hs : a.shape = [nq])
    (hw : a.WF) (h : convertBfiq cfg ops s = .ok ds) {d : PlainRec} (hd : d ∈ ds)
    {i n : Nat} {e : Elt} (he : a.data[i]? = some e) (hn : IsWhole e n) (hlt : n < 2 ^ 31) (h0 : 0 < n) :
    ∃ tsc, arrField d (py! "tsc") = some tsc ∧ ∃ m : Int, i32At tsc [i] = some m ∧ m < n := by
  obtain ⟨tsc, tus, h1, -, -, -, h2⟩ := C52_partial hops ha hs hw h d hd
  exact ⟨tsc, h1, _, (h2 i e n he hn hlt).1, by omega⟩

/-- Operations with the right times. -/
def exactOps : Ops :=
  { sampleOps with
    tsc := fun e => match e with
      | .flt b => .ok (BitVec.ofNat 32 ((f64Scaled (BitVec.ofNat 64 b)).toNat / 2 ^ 1074 / 1000))
      | _ => .error .valueError
    tus := fun e => match e with
      | .flt b => .ok (BitVec.ofNat 32 ((f64Scaled (BitVec.ofNat 64 b)).toNat / 2 ^ 1074 % 1000 * 1000))
      | _ => .error .valueError }

set_option exponentiation.threshold 2000 in
theorem exactOps_right : RightTimes exactOps := by
  rintro e n ⟨b, rfl, -, hb⟩ -
  have : (f64Scaled (BitVec.ofNat 64 b.toNat)).toNat / 2 ^ 1074 = n := by
    rw [BitVec.ofNat_toNat, BitVec.setWidth_eq, hb]
    generalize hK : 2 ^ 1074 = K
    have hpos : 0 < K := by rw [← hK]; exact Nat.two_pow_pos _
    have : ((n : Int) * 2 ^ 1074).toNat = n * K := by
      rw [← hK]
      have : ((n : Int) * 2 ^ 1074) = ((n * 2 ^ 1074 : Nat) : Int) := by simp
      rw [this, Int.toNat_natCast]
    rw [this, Nat.mul_div_cancel _ hpos]
  exact ⟨by simp only [exactOps, this], by simp only [exactOps, this]⟩

/-- 2020-01-01 00:00:00 and 00:00:03. -/
def sampleTimes : NdArr := ⟨.f64, [2], [.flt 4744404735195348992, .flt 4744404735207931904]⟩

example : IsWhole (.flt 4744404735195348992) 1577836800 :=
  ⟨BitVec.ofNat 64 4744404735195348992, rfl, by unfold f64Finite; decide, by decide +kernel⟩

example : ((convertRecord numpy2 exactOps .iqdat (sampleSource
      ((sampleBfiq .v06 []).set (py! "sqn_timestamps") (.arr sampleTimes)))).map fun l => l.map fun d =>
      (arrField d (py! "tsc")).bind fun a => i32At a [0]) = .ok [some 1577836, some 1577836] := by decide +kernel

/-! ## C53 -/

/-- **C53** holds up to v0.6: the flag for cross correlations of an iqdat record says whether there is an
interferometer array. -/
theorem C53_partial {cfg : NpCfg} {ops : Ops} {s : Source} {ds : List PlainRec} {o : NdArr}
    (ho : Dict.get? s.fields (py! "antenna_arrays_order") = some (.arr o)) (ht : o.ty = .npStr)
    (h : convertBfiq cfg ops s = .ok ds) : ∀ d ∈ ds,
    intField d (py! "xcf") = some (if .str (py! "intf") ∈ o.data then 1 else 0) := by
  intro d hd
  obtain ⟨-, -, o', ho', h1, h2⟩ := C55_iqdat h d hd
  rw [ho] at ho'
  cases ho'
  split
  · rename_i hi
    exact h2.2 ⟨ht, hi⟩
  · rename_i hi
    rcases h1 with h1 | h1
    · exact h1
    · exact absurd (h2.1 h1).2 hi

/-- **C53** is violated in v0.7, where the names of the arrays are bytes: the flag is always zero. -/
theorem C53_violation {cfg : NpCfg} {ops : Ops} {s : Source} {ds : List PlainRec}
    (hc : ConformsRecord (formatOf .v07 .bfiq).siteSingleTypes (formatOf .v07 .bfiq).siteArrayTypes s.fields)
    (h : convertBfiq cfg ops s = .ok ds) : ∀ d ∈ ds, intField d (py! "xcf") = some 0 := by
  intro d hd
  obtain ⟨-, -, o, ho, h1, h2⟩ := C55_iqdat h d hd
  have ht : o.ty = .npBytes := by
    refine Classical.byContradiction fun hn => hc.typed (py! "antenna_arrays_order") .npBytes (.inr ⟨?_, _, ho, hn⟩)
    decide +kernel
  rcases h1 with h1 | h1
  · exact h1
  · rw [ht] at h2
    cases (h2.1 h1).1

example : ConformsRecord (formatOf .v07 .bfiq).siteSingleTypes (formatOf .v07 .bfiq).siteArrayTypes
      ((sampleBfiq .v07 []).set (py! "antenna_arrays_order")
        (.arr ⟨.npBytes, [2], [.bytes [109, 97, 105, 110], .bytes [105, 110, 116, 102]]⟩)) ∧
    (convertRecord numpy2 sampleOps .iqdat (sampleSource ((sampleBfiq .v07 []).set (py! "antenna_arrays_order")
        (.arr ⟨.npBytes, [2], [.bytes [109, 97, 105, 110], .bytes [105, 110, 116, 102]]⟩)))).map
      (fun l => l.map fun d => intField d (py! "xcf")) = .ok [some 0, some 0] :=
  ⟨conformsB_sound (by decide +kernel), by decide +kernel⟩

example : (convertRecord numpy2 sampleOps .iqdat (sampleSource (sampleBfiq .v05 []))).map
      (fun l => l.map fun d => intField d (py! "xcf")) = .ok [some 1, some 1] := by decide +kernel

end Verif.Bor
