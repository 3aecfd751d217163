import Verif.Borealis.Lemmas.SiteToArray
/-!
# Lemmas on reshaping and flattening records
-/
namespace Verif.Bor
open Verif

theorem ints_map (l : List Nat) : Val.dimsOf.ints (l.map fun n => Elt.int (Int.ofNat n)) = .ok (l.map Int.ofNat) := by
  induction l with
  | nil => rfl
  | cons n l ih =>
    simp only [List.map_cons, Val.dimsOf.ints, ih, bind, Except.bind]
    rw [if_pos (show 0 ≤ Int.ofNat n from Int.natCast_nonneg n)]

theorem dimsOf_numbers (l : List Nat) : (numbers l).dimsOf = .ok l := by
  simp only [numbers, Val.dimsOf, ints_map, bind, Except.bind, toShape_ofNat]

/-- A record and the record with the data in its dimensions. -/
structure Reshaped (t : FType) (c : Common) (flat : List PyStr) (r r' : Rec) : Prop where
  keys : r'.keys = r.keys
  same : ∀ k, k ∉ flat → r'.get? k = r.get? k
  data : ∀ k ∈ flat, ∃ a, r.get? k = some (.arr a) ∧ a.WF ∧
    a.shape = [prod ((mainShape t).map (Q.size c r))] ∧
    r'.get? k = some (.arr { a with shape := (mainShape t).map (Q.size c r) })
  size : ∀ q, Q.size c r' q = Q.size c r q

theorem reshapeRec_ok {f t o c flat r} (hc : Coherent f t flat) (h : SiteRec f t o c flat r) :
    ∃ r', reshapeRec f r = .ok r' ∧ Reshaped t c flat r r' ∧ SiteRec f t o c [] r' := by
  have hcoh := hc.reshape
  unfold CohR at hcoh
  cases hr : f.reshape with
  | none =>
    rw [hr] at hcoh
    have hfl : flat = [] := by simpa using hcoh
    subst hfl
    exact ⟨r, by simp [reshapeRec, hr], ⟨rfl, fun _ _ => rfl, by simp, fun _ => rfl⟩, h⟩
  | some dk =>
    obtain ⟨df, ks⟩ := dk
    rw [hr] at hcoh
    simp only [decide_eq_true_eq] at hcoh
    obtain ⟨rfl, hdf, hdfa, hdfu, hdfs, hks⟩ := hcoh
    have hd := h.dims df hdf hdfa
    have hval : ∀ k ∈ ks, ∃ a, r.get? k = some (.arr a) ∧ a.WF ∧
        a.shape = [prod ((mainShape t).map (Q.size c r))] ∧
        (Val.arr a).reshape ((mainShape t).map (Q.size c r)) =
          .ok (.arr { a with shape := (mainShape t).map (Q.size c r) }) := by
      intro k hk
      obtain ⟨harr, -, -, -, -, -, -, -, hsh⟩ := hks k hk
      obtain ⟨hu, hs, ha, hp⟩ := harr
      obtain ⟨ty, hty⟩ := Option.isSome_iff_exists.1 ha
      obtain ⟨a, h1, -, h3, h4⟩ := h.array k ty hu hs hty
      have hshape : a.shape = [prod ((mainShape t).map (Q.size c r))] := by
        rw [h4]; simp [storedShape, hk, shapeOf, hp, hsh]
      refine ⟨a, h1, h3, hshape, ?_⟩
      have : prod ((mainShape t).map (Q.size c r)) = a.data.length := by
        rw [h3, hshape]; simp [prod]
      simp [Val.reshape, this]
    obtain ⟨r', hr', hkeys, hout, hin⟩ := mapFieldsOf_ok
      (g := fun v => v.reshape ((mainShape t).map (Q.size c r))) (r := r) hc.nodupF
      (fun k hk => by
        obtain ⟨a, h1, -, -, h4⟩ := hval k hk
        exact ⟨_, _, h1, h4⟩)
    have hne : ∀ k ∈ ks, k ≠ py! "beam_nums" ∧ k ≠ py! "blanked_samples" ∧ k ≠ py! "num_sequences" ∧
        k ∉ dimFields ∧ k ∉ f.shared := fun k hk => by
      obtain ⟨-, h1, h2, h3, h4, h5, -, -⟩ := hks k hk
      exact ⟨h1, h2, h3, h4, h5⟩
    have hbn : r'.get? (py! "beam_nums") = r.get? (py! "beam_nums") := hout _ fun hk => (hne _ hk).1 rfl
    have hbl : r'.get? (py! "blanked_samples") = r.get? (py! "blanked_samples") :=
      hout _ fun hk => (hne _ hk).2.1 rfl
    have hns : r'.get? (py! "num_sequences") = r.get? (py! "num_sequences") :=
      hout _ fun hk => (hne _ hk).2.2.1 rfl
    have hsize : ∀ q, Q.size c r' q = Q.size c r q := by
      intro q
      cases q <;> simp only [Q.size, seqsOf, beamsOf, blankedOf, lenOf, hbn, hbl, hns]
    have hsz : Q.size c r' = Q.size c r := funext hsize
    have hdata : ∀ k ∈ ks, ∃ a, r.get? k = some (.arr a) ∧ a.WF ∧
        a.shape = [prod ((mainShape t).map (Q.size c r))] ∧
        r'.get? k = some (.arr { a with shape := (mainShape t).map (Q.size c r) }) := by
      intro k hk
      obtain ⟨a, h1, h2, h3, h4⟩ := hval k hk
      obtain ⟨v, v', hv, hg, hv'⟩ := hin k hk
      rw [h1] at hv
      cases hv
      rw [h4] at hg
      cases hg
      exact ⟨a, h1, h2, h3, hv'⟩
    refine ⟨r', ?_, ⟨hkeys, hout, hdata, hsize⟩, ?_⟩
    · simp only [reshapeRec, hr, field_ok hd, dimsOf_numbers, bind, Except.bind]
      exact hr'
    · refine ⟨?_, ?_, ?_, ?_, ?_, ?_⟩
      · rw [hns]; exact h.seqs
      · have := h.beams
        unfold beamsOf lenOf at this ⊢
        rw [hbn]; exact this
      · intro k ty hu hs
        have : k ∉ ks := fun hk => by
          obtain ⟨⟨-, hs', -⟩, -⟩ := hks k hk
          rw [hs] at hs'; cases hs'
        rw [hout k this]
        exact h.scalar k ty hu hs
      · intro k ty hu hs ha
        obtain ⟨a, h1, h2, h3, h4⟩ := h.array k ty hu hs ha
        by_cases hk : k ∈ ks
        · obtain ⟨b, hb, -, hbs, hb'⟩ := hdata k hk
          rw [h1] at hb
          cases hb
          refine ⟨_, hb', h2, ?_, ?_⟩
          · have : a.data.length = prod ((mainShape t).map (Q.size c r)) := by
              rw [h3, hbs]; simp [prod]
            exact this
          · obtain ⟨⟨-, -, -, hp⟩, -, -, -, -, -, -, -, hsh⟩ := hks k hk
            simp only [storedShape, List.not_mem_nil, if_false, shapeOf, hp, hsh, hsz]
        · refine ⟨a, by rw [hout k hk]; exact h1, h2, h3, ?_⟩
          rw [h4, hsz]
          simp [storedShape, hk]
      · intro k hk hka
        rw [hout k (fun hk' => (hne k hk').2.2.2.1 hk), hsz]
        exact h.dims k hk hka
      · intro k hk
        rw [hkeys]; exact h.shared k hk

/-- The records after reshaping. -/
structure ReshapedAll (t : FType) (c : Common) (flat : List PyStr) (rs rs' : Records) : Prop where
  length : rs'.length = rs.length
  keys : rs'.keys = rs.keys
  recs : ∀ i (h : i < rs.length) (h' : i < rs'.length), Reshaped t c flat rs[i].2 rs'[i].2

theorem reshape_ok {f t o c flat rs} (hc : Coherent f t flat) (h : SiteRecords f t o c flat rs) :
    ∃ rs', mapRecords (reshapeRec f) rs = .ok rs' ∧ ReshapedAll t c flat rs rs' ∧
      SiteRecords f t o c [] rs' := by
  obtain ⟨rs', hm, hl, hk, hi⟩ := mapRecords_ok (g := reshapeRec f)
    (P := fun r r' => Reshaped t c flat r r' ∧ SiteRec f t o c [] r')
    (fun p hp => reshapeRec_ok hc (h.recs p hp))
  refine ⟨rs', hm, ⟨hl, hk, fun i h1 h2 => (hi i h1 h2).1⟩, ?_, h.pos, ?_, ?_⟩
  · intro e
    have : rs.length = 0 := by rw [← hl, e]; rfl
    exact h.nonempty (List.length_eq_zero_iff.1 this)
  · intro p hp
    obtain ⟨i, hi', rfl⟩ := List.getElem_of_mem hp
    exact (hi i (by omega) hi').2
  · rcases h.blanked with hb | hb
    · left
      intro p hp
      obtain ⟨i, hi', rfl⟩ := List.getElem_of_mem hp
      exact ((hi i (by omega) hi').1.size .blanked).trans (hb _ (List.getElem_mem _))
    · right
      intro p hp
      obtain ⟨i, hi', rfl⟩ := List.getElem_of_mem hp
      intro e
      exact hb rs[i] (List.getElem_mem _) (((hi i (by omega) hi').1.size .blanked).symm.trans e)

/-- `_site_to_array` of the records of a slice. -/
theorem siteToArray_ok {f t o c flat rs} (hc : Coherent f t flat) (h : SiteRecords f t o c flat rs) :
    ∃ rs' A, siteToArray f rs = .ok A ∧ ReshapedAll t c flat rs rs' ∧ SiteRecords f t o c [] rs' ∧
      Stacked f t o c rs' A := by
  obtain ⟨rs', hm, hall, hrs'⟩ := reshape_ok hc h
  obtain ⟨A, hA, hst⟩ := stackRecords_ok hc hrs'
  refine ⟨rs', A, ?_, hall, hrs', hst⟩
  simp [siteToArray, hc.restr, hm, hA, bind, Except.bind]

end Verif.Bor
