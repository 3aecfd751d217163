import Verif.Borealis.Lemmas.ConvertBfiq
/-!
# Lemmas on `__convert_rawacf_record`
-/
namespace Verif.Bor
open Verif

theorem lagIdx_get {b nr nl i j : Nat} (hi : i < nr) (hj : j < nl) :
    ((List.range nr).flatMap fun i => (List.range nl).map fun j => [b, i, j])[i * nl + j]? = some [b, i, j] := by
  rw [flatMap_getElem? _ nl _ _ _ _ hj, range_get hi, Option.bind_some, List.getElem?_map, range_get hj]
  · rfl
  · intro i; simp

theorem beamLags_ok {a : NdArr} {b : Nat} {l : List Elt} (h : beamLags a b = .ok l) :
    ∃ nb nr nl, a.shape = [nb, nr, nl] ∧ l.length = nr * (nl - 1) ∧
      ∀ i j, i < nr → j < nl - 1 →
        l[i * (nl - 1) + j]? = a.get? [b, i, j] ∧ (a.get? [b, i, j]).isSome := by
  unfold beamLags at h
  split at h
  · rename_i nb nr nl hs
    split at h
    · refine ⟨nb, nr, nl, hs, ?_, ?_⟩
      · rw [mapE_length h, length_flatMap_const _ (nl - 1)]
        · simp
        · intro i; simp
      · intro i j hi hj
        obtain ⟨y, h1, h2⟩ := mapE_get h (lagIdx_get (b := b) hi hj)
        rw [h1]
        split at h2
        · rename_i e he
          cases h2
          exact ⟨he.symm, by simp [he]⟩
        · cases h2
    · cases h
  · cases h

theorem beamLagZero_ok {a : NdArr} {b : Nat} {l : List Elt} (h : beamLagZero a b = .ok l) :
    ∃ nb nr nl, a.shape = [nb, nr, nl] ∧ l.length = nr ∧ 0 < nl ∧
      ∀ i, i < nr → l[i]? = a.get? [b, i, 0] ∧ (a.get? [b, i, 0]).isSome := by
  unfold beamLagZero at h
  split at h
  · rename_i nb nr nl hs
    split at h
    · rename_i hb
      refine ⟨nb, nr, nl, hs, ?_, hb.2, ?_⟩
      · rw [mapE_length h]; simp
      · intro i hi
        obtain ⟨y, h1, h2⟩ := mapE_get h (i := i) (x := [b, i, 0]) (by simp [range_get hi])
        rw [h1]
        split at h2
        · rename_i e he
          cases h2
          exact ⟨he.symm, by simp [he]⟩
        · cases h2
    · cases h
  · cases h

/-- What is needed to convert a rawacf record. -/
theorem convertRawacf_ok {cfg : NpCfg} {ops : Ops} {s : Source} {recs : List PlainRec} {m x : NdArr} {norm : Val}
    {beams : List Elt} {nr nl : Nat} (hr : RawacfRec s.fields m x norm beams nr nl)
    (h : convertRawacf cfg ops s = .ok recs) :
    ∃ rev intf,
      (∃ t, Dict.get? s.fields (py! "borealis_git_hash") = some t ∧ ∃ u, t.text = .ok u ∧ revisions u = .ok rev) ∧
      mapE (fun p => rawacfRecord cfg ops s rev ⟨m.ty, [beams.length, nr, nl], m.data⟩ intf
        (some ⟨x.ty, [beams.length, nr, nl], x.data⟩) norm nr nl p.2 p.1) (enumFrom 0 beams) = .ok recs := by
  have hdims : rawacfDims s.fields = .ok [beams.length, nr, nl] := by
    unfold rawacfDims
    rcases hr.dims with h | ⟨h1, h2⟩
    · simp only [h, numbers_dims]
    · simp only [h1, h2, numbers_dims]
  unfold convertRawacf at h
  rw [bind_of_ok hdims] at h
  obtain ⟨v, h1, h⟩ := bind_ok h
  rw [field_iff, hr.main] at h1
  cases h1
  obtain ⟨v, h1, h⟩ := bind_ok h
  rw [Val.reshape, if_pos (by rw [hr.mainSize]; simp [prod])] at h1
  cases h1
  obtain ⟨v, h1, h⟩ := bind_ok h
  cases h1
  obtain ⟨v, h1, h⟩ := bind_ok h
  rw [field_iff, hr.norm] at h1
  cases h1
  obtain ⟨intf, -, h⟩ := bind_ok h
  obtain ⟨xs, h1, h⟩ := bind_ok h
  unfold shapedField at h1
  rw [hr.cross] at h1
  obtain ⟨v, h2, h1⟩ := bind_ok h1
  rw [Val.reshape, if_pos (by rw [hr.crossSize]; simp [prod])] at h2
  cases h2
  cases h1
  obtain ⟨t, ht, h⟩ := bind_ok h
  obtain ⟨u, hu, h⟩ := bind_ok h
  obtain ⟨rev, hrev, h⟩ := bind_ok h
  obtain ⟨v, h1, h⟩ := bind_ok h
  obtain ⟨be, hbe, hbs, hbd⟩ := hr.beams
  rw [field_iff, hbe] at h1
  cases h1
  obtain ⟨v, h1, h⟩ := bind_ok h
  rw [Val.elems, hbs] at h1
  cases h1
  rw [hbd] at h
  exact ⟨rev, intf, ⟨t, field_iff.1 ht, u, hu, hrev⟩, h⟩

theorem rawacfRecord_ok {cfg : NpCfg} {ops : Ops} {s : Source} {rev : Revision × Revision} {main x : NdArr}
    {intf : Option NdArr} {norm : Val} {nr nl : Nat} {beam : Elt} {b : Nat} {d : PlainRec}
    (h : rawacfRecord cfg ops s rev main intf (some x) norm nr nl beam b = .ok d) :
    ∃ l0 lm lx, beamLagZero main b = .ok l0 ∧ beamLags main b = .ok lm ∧ beamLags x b = .ok lx ∧
      dictOf (rawacfFields cfg ops s rev norm nr nl beam b l0 lm (some lx)) = .ok d := by
  unfold rawacfRecord at h
  obtain ⟨l0, h0, h⟩ := bind_ok h
  obtain ⟨lm, h1, h⟩ := bind_ok h
  obtain ⟨li, -, h⟩ := bind_ok h
  obtain ⟨lx, h2, h⟩ := bind_ok h
  obtain ⟨l, h3, h2⟩ := bind_ok h2
  cases h2
  exact ⟨l0, lm, l, h0, h1, h3, h⟩

theorem f32_of_cell (b : BitVec 32) : BitVec.ofNat 32 (leNat (natLE 4 b.toNat)) = b := by
  rw [leNat_natLE, Nat.mod_eq_of_lt (by have := b.isLt; omega)]
  simp

theorem f32At_vec {n : Nat} {l : List (BitVec 32)} {i : Nat} {v : BitVec 32} (hl : l.length = n)
    (h : l[i]? = some v) : f32At ⟨.float32, [n], l.map fun b => natLE 4 b.toNat⟩ [i] = some v := by
  unfold f32At
  simp only [if_true]
  rw [elementAt_vec (x := natLE 4 v.toNat) (by simpa using hl) (by simp [h])]
  simp [f32_of_cell]

theorem f32At_pair {nr n : Nat} {l : List (BitVec 32)} {i j c : Nat} {v : BitVec 32} (hi : i < nr) (hj : j < n)
    (hc : c < 2) (h : l[2 * (i * n + j) + c]? = some v) :
    f32At ⟨.float32, [nr, n, 2], l.map fun b => natLE 4 b.toNat⟩ [i, j, c] = some v := by
  have hp : Spec.rowMajor [nr, n, 2] [i, j, c] = some (2 * (i * n + j) + c) := by
    simp only [Spec.rowMajor, Spec.prod, if_pos hi, if_pos hj, if_pos hc, Option.map_some, Option.some.injEq]
    rw [Nat.mul_add, Nat.mul_left_comm 2 i]
    simp only [Nat.mul_one, Nat.add_zero, Nat.mul_comm n 2, Nat.mul_comm j 2]
    omega
  unfold f32At
  simp only [if_true, Spec.elementAt, hp, Option.bind_some, List.getElem?_map, h, Option.map_some]
  simp [f32_of_cell]

end Verif.Bor
