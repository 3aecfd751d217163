import Verif.Borealis.Lemmas.ConvertRawacf
import Verif.Borealis.Lemmas.ConvertSamples
/-!
# C43: conversion of rawacf
-/
namespace Verif.Bor
open Verif

/-- **C43.** In the rawacf record of a beam, `acfd` and `xcfd` hold at (range, lag) real and imaginary part
of the scaled correlations of the same beam, range and lag, for all lags but the last; `pwr0` is the power
of lag zero; `slist` lists all ranges.  There is one record for each beam, in order. -/
theorem C43_correlations {cfg : NpCfg} {ops : Ops} {s : Source} {recs : List PlainRec} {m x : NdArr} {norm : Val}
    {beams : List Elt} {nr nl : Nat} (hr : RawacfRec s.fields m x norm beams nr nl)
    (h : convertRawacf cfg ops s = .ok recs) :
    recs.length = beams.length ∧
    ∀ b, b < beams.length → ∃ d acfd xcfd pwr0 slist, recs[b]? = some d ∧
      arrField d (py! "acfd") = some acfd ∧ acfd.shape = [nr, nl - 1, 2] ∧
      arrField d (py! "xcfd") = some xcfd ∧ xcfd.shape = [nr, nl - 1, 2] ∧
      arrField d (py! "pwr0") = some pwr0 ∧ pwr0.shape = [nr] ∧
      arrField d (py! "slist") = some slist ∧ slist.shape = [nr] ∧
      (∀ i j, i < nr → j + 1 < nl → ∃ e f,
        m.shaped [beams.length, nr, nl] [b, i, j] = some e ∧ x.shaped [beams.length, nr, nl] [b, i, j] = some f ∧
        f32At acfd [i, j, 0] = some (ops.acf e norm s.factor).1 ∧
        f32At acfd [i, j, 1] = some (ops.acf e norm s.factor).2 ∧
        f32At xcfd [i, j, 0] = some (ops.acf f norm s.factor).1 ∧
        f32At xcfd [i, j, 1] = some (ops.acf f norm s.factor).2) ∧
      (∀ i, i < nr → ∃ e, m.shaped [beams.length, nr, nl] [b, i, 0] = some e ∧
        f32At pwr0 [i] = some (ops.power e norm s.factor)) ∧
      (∀ i, i < nr → i < 2 ^ 15 → i16At slist [i] = some (i : Int)) := by
  obtain ⟨rev, intf, -, h⟩ := convertRawacf_ok hr h
  refine ⟨by rw [mapE_length h, enumFrom_length], fun b hb => ?_⟩
  have hbe : (enumFrom 0 beams)[b]? = some (b, beams[b]) := by
    rw [enumFrom_get, List.getElem?_eq_getElem hb]; simp
  obtain ⟨d, hd, h⟩ := mapE_get h hbe
  obtain ⟨l0, lm, lx, h0, hm, hx, h⟩ := rawacfRecord_ok h
  obtain ⟨_, _, _, hs, hl0, -, hg0⟩ := beamLagZero_ok h0
  cases hs
  obtain ⟨_, _, _, hs, hlm, hgm⟩ := beamLags_ok hm
  cases hs
  obtain ⟨_, _, _, hs, hlx, hgx⟩ := beamLags_ok hx
  cases hs
  refine ⟨d, _, _, _, _, hd, entry_arr h rfl, rfl, entry_arr h rfl, rfl, entry_arr h rfl, rfl,
    entry_arr h rfl, rfl, fun i j hi hj => ?_, fun i hi => ?_, fun i hi hi' => ?_⟩
  · obtain ⟨h1, h2⟩ := hgm i j hi (by omega)
    obtain ⟨e, he⟩ := Option.isSome_iff_exists.1 h2
    rw [he] at h1
    obtain ⟨h3, h4⟩ := hgx i j hi (by omega)
    obtain ⟨f, hf⟩ := Option.isSome_iff_exists.1 h4
    rw [hf] at h3
    have hj' : j < nl - 1 := by omega
    exact ⟨e, f, he, hf,
      f32At_pair hi hj' (by omega) (pairs_get (fun e => (ops.acf e norm s.factor).1) (fun e => (ops.acf e norm s.factor).2) lm _ e h1).1,
      f32At_pair hi hj' (by omega) (pairs_get (fun e => (ops.acf e norm s.factor).1) (fun e => (ops.acf e norm s.factor).2) lm _ e h1).2,
      f32At_pair hi hj' (by omega) (pairs_get (fun e => (ops.acf e norm s.factor).1) (fun e => (ops.acf e norm s.factor).2) lx _ f h3).1,
      f32At_pair hi hj' (by omega) (pairs_get (fun e => (ops.acf e norm s.factor).1) (fun e => (ops.acf e norm s.factor).2) lx _ f h3).2⟩
  · obtain ⟨h1, h2⟩ := hg0 i hi
    obtain ⟨e, he⟩ := Option.isSome_iff_exists.1 h2
    rw [he] at h1
    exact ⟨e, he, f32At_vec (by simpa using hl0) (by simp [h1])⟩
  · refine i16At_vec (by simp) ?_ (by unfold signedOk; omega)
    rw [List.getElem?_map, range_get hi, Option.map_some, wrapInt_eq (by unfold signedOk; omega)]

/-- **C43.** The numbers of ranges and lags in a rawacf record are those of its arrays, `xcf` says that there are
cross correlations, and the beam number and direction are those of its beam. -/
theorem C43_header {cfg : NpCfg} {ops : Ops} {s : Source} {recs : List PlainRec} {m x : NdArr} {norm : Val}
    {beams : List Elt} {nr nl : Nat} (hr : RawacfRec s.fields m x norm beams nr nl) (hnr : nr < 2 ^ 15)
    (h : convertRawacf cfg ops s = .ok recs) {b : Nat} {d : PlainRec} (hd : recs[b]? = some d) :
    intField d (py! "nrang") = some (nr : Int) ∧ intField d (py! "xcf") = some 1 ∧
    (∀ l, Dict.get? s.fields (py! "lags") = some (.arr l) → l.shape = [nl, 2] → 0 < nl → nl ≤ 2 ^ 15 →
      intField d (py! "mplgs") = some ((nl - 1 : Nat) : Int)) ∧
    (∀ n : Int, beams[b]? = some (.int n) → signedOk 2 n → intField d (py! "bmnum") = some n) ∧
    (∀ z, Dict.get? s.fields (py! "beam_azms") = some (.arr z) → ∃ e, z.data[b]? = some e ∧
      f32Field d (py! "bmazm") = some (ops.toF32 e)) := by
  obtain ⟨rev, intf, -, h⟩ := convertRawacf_ok hr h
  have hlt : b < beams.length := by
    have := mapE_length h
    rw [enumFrom_length] at this
    rw [← this]
    exact (List.getElem?_eq_some_iff.1 hd).1
  have hbe : (enumFrom 0 beams)[b]? = some (b, beams[b]) := by
    rw [enumFrom_get, List.getElem?_eq_getElem hlt]; simp
  obtain ⟨d', hd', h⟩ := mapE_get h hbe
  rw [hd] at hd'
  cases hd'
  obtain ⟨l0, lm, lx, -, -, -, h⟩ := rawacfRecord_ok h
  refine ⟨?_, ?_, ?_, ?_, ?_⟩
  · obtain ⟨n, h1, h2⟩ := entry_i16 (k := py! "nrang") h rfl
    cases h1
    rw [h2, wrapInt_eq (by unfold signedOk; omega)]
  · obtain ⟨n, h1, h2⟩ := entry_i16 (k := py! "xcf") h rfl
    rw [hr.cross, Option.isSome_some, if_pos rfl, pyIntTo_eq cfg rfl (by decide)] at h1
    cases h1
    exact h2
  · intro l hl hs hp hn
    obtain ⟨n, h1, h2⟩ := entry_i16 (k := py! "mplgs") h rfl
    obtain ⟨v, h3, h1⟩ := bind_ok h1
    rw [field_iff, hl] at h3
    cases h3
    obtain ⟨v, h3, h1⟩ := bind_ok h1
    have : v = nl := by
      simp only [Val.shapeAt, Val.shape?, hs, bind, Except.bind] at h3
      cases h3
      rfl
    subst this
    rw [pyIntTo_eq cfg rfl (by unfold signedOk; omega)] at h1
    cases h1
    rw [h2]
    congr 1
    omega
  · intro n hn hs
    rw [List.getElem?_eq_getElem hlt] at hn
    obtain ⟨m, h1, h2⟩ := entry_i16 (k := py! "bmnum") h rfl
    cases h1
    rw [h2]
    simp only [Option.some.injEq] at hn
    simp only [hn, eltI16, wrapInt_eq hs]
  · intro z hz
    obtain ⟨m, h1, h2⟩ := entry_f32 (k := py! "bmazm") h rfl
    obtain ⟨v, h3, h1⟩ := bind_ok h1
    rw [field_iff, hz] at h3
    cases h3
    obtain ⟨zs, h3, h1⟩ := bind_ok h1
    have : zs = z.data := by
      simp only [Val.elems] at h3
      split at h3
      · cases h3; rfl
      · cases h3
    subst this
    obtain ⟨e, h3, h1⟩ := bind_ok h1
    cases h1
    refine ⟨e, ?_, h2⟩
    unfold at_ at h3
    split at h3
    · rename_i hx; cases h3; exact hx
    · cases h3

example : ((convertRawacf numpy1 sampleOps (sampleSource (sampleRawacf .v05 []))).map fun l => l.map fun d =>
      ((arrField d (py! "acfd")).bind fun a => f32At a [1, 1, 1], (arrField d (py! "xcfd")).bind fun a => f32At a [1, 0, 0],
        (arrField d (py! "pwr0")).bind fun a => f32At a [1], intField d (py! "bmnum"))) =
    .ok [(some 204, some 303, some 103, some 3), (some 210, some 309, some 109, some 7)] := by decide +kernel

example : RawacfRec (sampleRawacf .v05 []) (sampleAcfs 100) (sampleAcfs 300) (.np .f64 (.flt 9)) [.int 3, .int 7] 2 3 :=
  sampleRawacf_rec .v05 []

end Verif.Bor
