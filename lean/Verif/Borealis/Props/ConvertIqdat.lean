import Verif.Borealis.Lemmas.ConvertBfiq
import Verif.Borealis.Lemmas.Clamp
import Verif.Borealis.Lemmas.ConvertSamples
/-!
# C42, C44: conversion of bfiq to iqdat
-/
namespace Verif.Bor
open Verif

/-! ## C44: clamping -/

/-- **C44.** A clamped sample is a 16-bit integer: its value rounded towards zero, or the nearest 16-bit
integer. -/
theorem C44_clamp (nan : BitVec 16) (b : BitVec 64) :
    (-32768 ≤ clamp16 nan b ∧ clamp16 nan b ≤ 32767) ∧ (f64Finite b → clamp16 nan b = nearest16 b) :=
  ⟨clamp16_range nan b, clamp16_finite⟩

example : f64Finite 0xC0E3880000000000 ∧ clamp16 0 0xC0E3880000000000 = -32768 ∧ clamp16 0 0x40C3880000000000 = 10000 ∧
    clamp16 0 0x7FF0000000000000 = 32767 ∧ ¬ f64Finite 0x7FF0000000000000 := by
  refine ⟨?_, by decide +kernel, by decide +kernel, by decide +kernel, ?_⟩ <;> unfold f64Finite <;> decide

/-! ## C42 -/

/-- **C42.** Every sample of a bfiq record is in the iqdat record of its beam, where RST looks for it: at
the offset of its sequence, the samples of one antenna array after those of the other, real and imaginary
part in turn.  There is one iqdat record for each beam, in order. -/
theorem C42_samples {cfg : NpCfg} {ops : Ops} {s : Source} {recs : List PlainRec} {a : NdArr} {norm : Val}
    {beams : List Elt} {na nq ns : Nat} (hr : BfiqRec s.fields a norm beams na nq ns)
    (hsz : nq * (2 * na * ns) < 2 ^ 31) (h : convertBfiq cfg ops s = .ok recs) :
    recs.length = beams.length ∧
    ∀ b, b < beams.length → ∃ d data toff, recs[b]? = some d ∧
      arrField d (py! "data") = some data ∧ data.shape = [nq * (2 * na * ns)] ∧
      arrField d (py! "toff") = some toff ∧ toff.shape = [nq] ∧
      ∀ i x t, i < nq → x < na → t < ns → ∃ off : Nat, ∃ e, i32At toff [i] = some (off : Int) ∧
        a.shaped [na, nq, beams.length, ns] [x, i, b, t] = some e ∧
        i16At data [off + 2 * (x * ns + t)] = some (clamp16 ops.nan16 (ops.iq e norm s.factor).1) ∧
        i16At data [off + 2 * (x * ns + t) + 1] = some (clamp16 ops.nan16 (ops.iq e norm s.factor).2) := by
  obtain ⟨rev, o, -, ho, -, h⟩ := convertBfiq_ok hr h
  refine ⟨by rw [mapE_length h, enumFrom_length], fun b hb => ?_⟩
  have hbe : (enumFrom 0 beams)[b]? = some (b, beams[b]) := by
    rw [enumFrom_get, List.getElem?_eq_getElem hb]; simp
  obtain ⟨d, hd, h⟩ := mapE_get h hbe
  obtain ⟨l, h1, h⟩ := bind_ok h
  obtain ⟨na', nq', nb', ns', hs, -, hl, hg⟩ := beamSamples_ok h1
  cases hs
  have hlen : 2 * l.length = nq * (2 * na * ns) := by
    rw [hl]; simp [Nat.mul_assoc, Nat.mul_left_comm]
  refine ⟨d, _, _, hd, entry_arr h rfl, by simp only [hlen], entry_arr h rfl, rfl, fun i x t hi hx ht => ?_⟩
  obtain ⟨h2, h3⟩ := hg i x t hi hx ht
  obtain ⟨e, he⟩ := Option.isSome_iff_exists.1 h3
  rw [he] at h2
  refine ⟨i * (2 * na * ns), e, ?_, he, ?_, ?_⟩
  · refine i32At_vec (by simp) ?_ (signedOk4 ?_)
    · simp only [List.getElem?_map, range_get hi, Option.map_some, ho, List.headD_cons]
      rw [wrapInt_eq (signedOk4 _)]
      exact Nat.lt_of_le_of_lt (Nat.mul_le_mul_right _ (Nat.le_of_lt hi)) hsz
    · exact Nat.lt_of_le_of_lt (Nat.mul_le_mul_right _ (Nat.le_of_lt hi)) hsz
  · have hp : i * (2 * na * ns) + 2 * (x * ns + t) = 2 * (i * (na * ns) + (x * ns + t)) := by
      rw [Nat.mul_add 2 (i * (na * ns)), Nat.mul_left_comm 2 i, Nat.mul_assoc 2 na]
    rw [hp]
    exact i16At_vec (pairs_length _ _ l) (pairs_get _ _ l _ e h2).1 (clamp16_ok _ _)
  · have hp : i * (2 * na * ns) + 2 * (x * ns + t) = 2 * (i * (na * ns) + (x * ns + t)) := by
      rw [Nat.mul_add 2 (i * (na * ns)), Nat.mul_left_comm 2 i, Nat.mul_assoc 2 na]
    rw [hp]
    exact i16At_vec (pairs_length _ _ l) (pairs_get _ _ l _ e h2).2 (clamp16_ok _ _)

/-- **C42.** The numbers of sequences, antenna arrays and samples in an iqdat record are those of the bfiq
record, each sequence takes as many elements as it has samples, and the beam number and direction are those of its beam. -/
theorem C42_header {cfg : NpCfg} {ops : Ops} {s : Source} {recs : List PlainRec} {a : NdArr} {norm : Val}
    {beams : List Elt} {na nq ns : Nat} (hr : BfiqRec s.fields a norm beams na nq ns)
    (hsz : nq * (2 * na * ns) < 2 ^ 31) (hna : na < 2 ^ 31) (hnq : nq < 2 ^ 31) (hns : ns < 2 ^ 31)
    (h : convertBfiq cfg ops s = .ok recs)
    {b : Nat} {d : PlainRec} (hd : recs[b]? = some d) :
    intField d (py! "seqnum") = some (nq : Int) ∧ intField d (py! "chnnum") = some (na : Int) ∧
    intField d (py! "smpnum") = some (ns : Int) ∧
    (∃ tsze, arrField d (py! "tsze") = some tsze ∧ tsze.shape = [nq] ∧
      ∀ i, i < nq → i32At tsze [i] = some ((2 * na * ns : Nat) : Int)) ∧
    (∀ n : Int, beams[b]? = some (.int n) → signedOk 2 n → intField d (py! "bmnum") = some n) ∧
    (∀ z, Dict.get? s.fields (py! "beam_azms") = some (.arr z) → ∃ e, z.data[b]? = some e ∧
      f32Field d (py! "bmazm") = some (ops.toF32 e)) := by
  obtain ⟨rev, o, -, ho, -, h⟩ := convertBfiq_ok hr h
  have hlt : b < beams.length := by
    have := mapE_length h
    rw [enumFrom_length] at this
    rw [← this]
    exact (List.getElem?_eq_some_iff.1 hd).1
  have hbe : (enumFrom 0 beams)[b]? = some (b, beams[b]) := by
    rw [enumFrom_get, List.getElem?_eq_getElem hlt]; simp
  obtain ⟨d', hd', h⟩ := mapE_get h hbe
  rw [hd] at hd'
  cases hd'
  obtain ⟨l, -, h⟩ := bind_ok h
  refine ⟨?_, ?_, ?_, ⟨_, entry_arr h rfl, rfl, fun i hi => ?_⟩, ?_, ?_⟩
  · obtain ⟨n, h1, h2⟩ := entry_i32 (k := py! "seqnum") h rfl
    obtain ⟨v, h3, h1⟩ := bind_ok h1
    rw [field_iff, hr.seqs] at h3
    cases h3
    cases h1
    rw [h2, wrapInt_eq (signedOk4 hnq)]
  · obtain ⟨n, h1, h2⟩ := entry_i32 (k := py! "chnnum") h rfl
    rw [ho, List.headD_cons, pyIntTo_eq cfg rfl (signedOk4 hna)] at h1
    cases h1
    exact h2
  · obtain ⟨n, h1, h2⟩ := entry_i32 (k := py! "smpnum") h rfl
    obtain ⟨v, h3, h1⟩ := bind_ok h1
    rw [field_iff, hr.samps] at h3
    cases h3
    cases h1
    rw [h2, wrapInt_eq (signedOk4 hns)]
  · have hlt : 2 * na * ns < 2 ^ 31 := by
      refine Nat.lt_of_le_of_lt ?_ hsz
      calc 2 * na * ns = 1 * (2 * na * ns) := by rw [Nat.one_mul]
        _ ≤ nq * (2 * na * ns) := Nat.mul_le_mul_right _ (by omega)
    refine i32At_vec (by simp) ?_ (signedOk4 hlt)
    rw [ho, List.headD_cons, wrapInt_eq (signedOk4 hlt), List.getElem?_replicate, if_pos hi]
  · intro n hn hs
    rw [List.getElem?_eq_getElem hlt] at hn
    obtain ⟨m, h1, h2⟩ := entry_i16 (k := py! "bmnum") h rfl
    cases h1
    rw [h2]
    simp only [Option.some.injEq] at hn
    simp only [hn, eltI16, wrapInt_eq hs]
  · intro z hz
    obtain ⟨m, h1, h2⟩ := entry_f32 (k := py! "bmazm") h rfl
    obtain ⟨v, h3, h1⟩ := bind_ok h1
    rw [field_iff, hz] at h3
    cases h3
    obtain ⟨zs, h3, h1⟩ := bind_ok h1
    have : zs = z.data := by
      simp only [Val.elems] at h3
      split at h3
      · cases h3; rfl
      · cases h3
    subst this
    obtain ⟨e, h3, h1⟩ := bind_ok h1
    cases h1
    refine ⟨e, ?_, h2⟩
    unfold at_ at h3
    split at h3
    · rename_i hx; cases h3; exact hx
    · cases h3

example : ∃ ds, convertBfiq numpy1 sampleOps (sampleSource (sampleBfiq .v05 [])) = .ok ds ∧ ds.length = 2 ∧
    ∀ b, b < 2 → ∃ d data, ds[b]? = some d ∧ arrField d (py! "data") = some data ∧ data.shape = [24] := by
  obtain ⟨ds, h⟩ := convertBfiq_succeeds (cfg := numpy1) (s := sampleSource (sampleBfiq .v05 []))
    (sampleBfiq_conforms .v05 _) (sampleBfiq_real .v05 _) (sampleBfiq_convertible .v05 (.inl rfl)) (sampleBfiq_rec .v05 _)
    (by decide)
  obtain ⟨h1, h2⟩ := C42_samples (sampleBfiq_rec .v05 []) (by decide) h
  refine ⟨ds, h, h1, fun b hb => ?_⟩
  obtain ⟨d, data, toff, h3, h4, h5, -⟩ := h2 b hb
  exact ⟨d, data, h3, h4, h5⟩

example : ((convertBfiq numpy1 sampleOps (sampleSource (sampleBfiq .v05 []))).map fun l => l.map fun d =>
      [(arrField d (py! "data")).bind fun a => i16At a [4], intField d (py! "seqnum"), intField d (py! "chnnum"),
        intField d (py! "smpnum"), intField d (py! "bmnum")]) =
    .ok [[some 108, some 2, some 2, some 3, some 3], [some 120, some 2, some 2, some 3, some 7]] := by decide +kernel

end Verif.Bor
