import Verif.Borealis.Lemmas.Reshape
/-!
# Lemmas on `_array_to_site`
-/
namespace Verif.Bor
open Verif

theorem stacked_seqs {f t o c rs flat A i} (hc : Coherent f t flat) (h : SiteRecords f t o c [] rs)
    (hA : Stacked f t o c rs A) (hi : i < rs.length) :
    ∃ v, A.get? (py! "num_sequences") = some v ∧ v.elemInt i = .ok (Int.ofNat (seqsOf rs[i].2)) := by
  obtain ⟨a, ha, -, hw, hs, hg⟩ := hA.scalar _ _ hc.seqs.2 hc.seqs.1
  obtain ⟨n, -, hn⟩ := (h.recs rs[i] (List.getElem_mem hi)).seqs
  obtain ⟨v, hv, hgv⟩ := hg i hi
  rw [hn] at hv
  cases hv
  refine ⟨.arr a, ha, ?_⟩
  have hb : inBounds a.shape [i] = true := by rw [hs]; simp [inBounds, hi]
  have : a.get? [i] = some (.int n) := by
    rw [NdArr.get?_eq_some_get hw hb, hgv]; rfl
  simp [Val.elemInt, hs, this, seqsOf, hn]

theorem evalDimS_ok {f t o c rs flat A i d q} (hc : Coherent f t flat) (h : SiteRecords f t o c [] rs)
    (hA : Stacked f t o c rs A) (hi : i < rs.length) (hd : denS f t d = some q) :
    evalDimS A i d = .ok [Int.ofNat (q.size c rs[i].2)] := by
  cases d with
  | elem k =>
    simp only [denS] at hd
    split at hd
    · rename_i hk
      subst hk
      cases hd
      obtain ⟨v, hv, he⟩ := stacked_seqs hc h hA hi
      simp only [evalDimS, field_ok hv, he, bind, Except.bind, Q.size]
    · split at hd
      · rename_i hk
        subst hk
        cases hd
        have hv := hA.lens _ _ hc.beams
        simp only [evalDimS, field_ok hv, bind, Except.bind]
        rw [elemInt_numbers (n := lenOf (py! "beam_nums") rs[i].2) (by
          rw [List.getElem?_map, List.getElem?_eq_getElem hi]; rfl)]
        rfl
      · split at hd
        · rename_i hk
          obtain ⟨rfl, hg⟩ := hk
          cases hd
          have hv := hA.lens _ _ hg
          simp only [evalDimS, field_ok hv, bind, Except.bind]
          rw [elemInt_numbers (n := lenOf (py! "blanked_samples") rs[i].2) (by
            rw [List.getElem?_map, List.getElem?_eq_getElem hi]; rfl)]
          rfl
        · cases hd
  | shape k j =>
    cases j with
    | zero => cases hd
    | succ j =>
      simp only [denS] at hd
      split at hd
      · rename_i hk
        rw [Option.filter_eq_some_iff] at hd
        obtain ⟨hu, hs, ha, hp⟩ := hk
        obtain ⟨ty, hty⟩ := Option.isSome_iff_exists.1 ha
        obtain ⟨a, hav, -, -, hsh, -⟩ := hA.array k ty hu hs hty
        have e : a.shape[j + 1]? = some (q.size c rs[i].2) := by
          rw [hsh, List.getElem?_cons_succ, List.getElem?_map]
          simp only [shapeOf, hp, if_false, hd.1, Option.map_some]
          rw [max_common hd.2 h.nonempty rs[i].2]
        simp only [evalDimS, field_ok hav, bind, Except.bind, Val.shapeAt, Val.shape?, e]
      · cases hd
  | lenElem k => cases hd
  | ppo => cases hd

theorem evalSiteDims_ok {f t o c rs flat A i} (hc : Coherent f t flat) (h : SiteRecords f t o c [] rs)
    (hA : Stacked f t o c rs A) (hi : i < rs.length) : ∀ {ds : List DimS} {qs : List Q},
    mapO (denS f t) ds = some qs →
    evalSiteDims A i ds = .ok ((qs.map (Q.size c rs[i].2)).map Int.ofNat)
  | [], qs, hm => by cases hm; rfl
  | d :: ds, qs, hm => by
    simp only [mapO] at hm
    split at hm
    · rename_i q qs' hq hqs
      cases hm
      simp [evalSiteDims, evalDimS_ok hc h hA hi hq, evalSiteDims_ok hc h hA hi hqs, bind, Except.bind]
    · cases hm

theorem evalPpo_ok {f t o c rs flat A i ty} (hc : Coherent f t flat) (h : SiteRecords f t o c [] rs)
    (hA : Stacked f t o c rs A) (hi : i < rs.length) (hf : FlatPpoOK o c rs)
    (hu : py! "pulse_phase_offset" ∈ f.unshared) (hs : f.single.get? (py! "pulse_phase_offset") = none)
    (ha : f.arrays.get? (py! "pulse_phase_offset") = some ty) :
    ∃ ls, evalDimS A i .ppo = .ok ls ∧
      slicedShape ls (o.shape.map (Q.max c rs)) = some (o.shape.map (Q.size c rs[i].2)) := by
  obtain ⟨a, hav, -, -, hsh, -⟩ := hA.array _ ty hu hs ha
  obtain ⟨v, hv, he⟩ := stacked_seqs hc h hA hi
  have hm := List.getElem_mem hi
  simp only [shapeOf, if_true] at hsh
  have hpos := h.pos
  unfold Common.Pos at hpos
  obtain ⟨n, hn0, hn⟩ := (h.recs _ hm).seqs
  have hns : seqsOf rs[i].2 = n := by simp [seqsOf, hn]
  simp only [evalDimS, field_ok hav, Val.shape?, field_ok hv, he, bind, Except.bind]
  cases o with
  | none =>
    have e0 : Q.max c rs .none = 0 := max_const h.nonempty fun _ _ => rfl
    simp only [Ppo.shape, List.map_cons, List.map_nil, e0] at hsh ⊢
    rw [hsh, if_pos (by simp [prod, hns]; omega)]
    exact ⟨_, rfl, by simp [slicedShape, sliceLen, Q.size]⟩
  | perSeq =>
    have ep : Q.max c rs .pulses = c.pulses := max_common rfl h.nonempty rs[i].2
    have hle : seqsOf rs[i].2 ≤ Q.max c rs .seqs := size_le_max (q := .seqs) hm
    simp only [Ppo.shape, List.map_cons, List.map_nil, ep] at hsh ⊢
    have hbig : ¬ ((prod a.shape : Int) < Int.ofNat (seqsOf rs[i].2)) := by
      rw [hsh]
      have : seqsOf rs[i].2 ≤ prod [rs.length, Q.max c rs .seqs, c.pulses] := by
        simp only [prod, Nat.mul_one]
        calc seqsOf rs[i].2 ≤ 1 * (Q.max c rs .seqs * 1) := by omega
          _ ≤ rs.length * (Q.max c rs .seqs * c.pulses) :=
            Nat.mul_le_mul (by omega) (Nat.mul_le_mul (Nat.le_refl _) (by omega))
      intro hlt
      have := Int.ofNat_lt.1 hlt
      omega
    rw [if_neg hbig, hsh]
    simp only [hi, if_true]
    refine ⟨_, rfl, ?_⟩
    simp [slicedShape, sliceLen, Q.size, Nat.min_eq_left hle]
  | flat =>
    have ep : Q.max c rs .pulses = c.pulses := max_common rfl h.nonempty rs[i].2
    obtain ⟨h1, h2⟩ := hf rfl rs[i] hm
    simp only [Ppo.shape, List.map_cons, List.map_nil, ep] at hsh ⊢
    have hbig : ¬ ((prod a.shape : Int) < Int.ofNat (seqsOf rs[i].2)) := by
      rw [hsh]
      intro hlt
      have := Int.ofNat_lt.1 hlt
      simp only [prod, Nat.mul_one] at this
      omega
    rw [if_neg hbig, hsh]
    simp only [hi, if_true]
    refine ⟨_, rfl, ?_⟩
    simp [slicedShape, sliceLen, Q.size, Nat.min_eq_right h1]

theorem getRow_ok {rs : Records} {k ty M a i ls} (hst : ArrayStack rs k ty M a) (hi : i < rs.length)
    {b : NdArr} (hb : rs[i].2.get? k = some (.arr b)) (hw : b.WF) (ht : b.ty = ty)
    (hls : slicedShape ls M = some b.shape)
    (hle : ∀ idx, inBounds b.shape idx = true → inBounds M idx = true) :
    getRow a i ls = .ok b := by
  obtain ⟨hat, -, hsh, hg⟩ := hst
  obtain ⟨b', hb', hgb⟩ := hg i hi
  rw [hb] at hb'
  cases hb'
  simp only [getRow, hsh, hi, if_true, hls]
  congr 1
  refine NdArr.ext_get (NdArr.wf_ofFn ..) hw (by simp [hat, ht]) rfl ?_
  intro idx hidx
  simp only [NdArr.shape_ofFn] at hidx
  rw [NdArr.get_ofFn hidx, hgb idx (hle idx hidx), if_pos hidx]

theorem siteField_ok {f t o c rs flat A i k dims} (hc : Coherent f t flat) (h : SiteRecords f t o c [] rs)
    (hA : Stacked f t o c rs A) (hi : i < rs.length) (hf : FlatPpoOK o c rs)
    (hk : (k, dims) ∈ f.dimsSite) :
    ∃ v, siteField f A i k dims = .ok v ∧ rs[i].2.get? k = some v := by
  have hu : k ∈ f.unshared := hc.sup k (List.mem_map.2 ⟨_, hk, rfl⟩)
  have hm := List.getElem_mem hi
  have hr := h.recs _ hm
  cases hs : f.single.get? k with
  | some ty =>
    obtain ⟨a, ha, hat, hw, hsh, hg⟩ := hA.scalar k ty hu hs
    obtain ⟨v, hv, hok⟩ := hr.scalar k ty hu hs
    obtain ⟨v', hv', hgv⟩ := hg i hi
    rw [hv] at hv'
    cases hv'
    refine ⟨v, ?_, hv⟩
    have hb : inBounds a.shape [i] = true := by rw [hsh]; simp [inBounds, hi]
    have he : a.get? [i] = some (scalarElt v) := by rw [NdArr.get?_eq_some_get hw hb, hgv]
    simp only [siteField, hs, field_ok ha, bind, Except.bind, singleOf, hsh, he]
    unfold ScalarOK at hok
    split at hok
    · rename_i hstr
      obtain ⟨s, rfl, -⟩ := hok
      subst hstr
      simp [scalarElt]
    · rename_i hstr
      obtain ⟨e, rfl⟩ := hok
      simp [hstr, scalarElt, hat, arrayTy]
  | none =>
    obtain ⟨dimsA, hdA⟩ : ∃ d, (k, d) ∈ f.dimsArray := by
      obtain ⟨p, hp, rfl⟩ := List.mem_map.1 hu
      exact ⟨p.2, hp⟩
    have hcohA := hc.cohA _ hdA
    unfold CohA at hcohA
    cases hat : f.arrays.get? k with
    | none => simp [hs, hat] at hcohA
    | some ty =>
      have hcohS := hc.cohS _ hk
      simp only [CohS, hs, decide_eq_true_eq] at hcohS
      obtain ⟨a, hav, hst⟩ := hA.array k ty hu hs hat
      obtain ⟨b, hb, hbt, hbw, hbs⟩ := hr.array k ty hu hs hat
      have hbs' : b.shape = (shapeOf o t k).map (Q.size c rs[i].2) := by
        rw [hbs]; simp [storedShape]
      have hls : ∃ ls, evalSiteDims A i dims = .ok ls ∧
          slicedShape ls ((shapeOf o t k).map (Q.max c rs)) = some b.shape := by
        by_cases hp : k = py! "pulse_phase_offset"
        · subst hp
          rw [if_pos rfl] at hcohS
          subst hcohS
          obtain ⟨ls, h1, h2⟩ := evalPpo_ok hc h hA hi hf hu hs hat
          refine ⟨ls, by simp [evalSiteDims, h1, bind, Except.bind], ?_⟩
          rw [hbs']
          simpa [shapeOf] using h2
        · rw [if_neg hp] at hcohS
          refine ⟨_, evalSiteDims_ok hc h hA hi hcohS, ?_⟩
          rw [hbs']
          simp only [shapeOf, hp, if_false]
          apply slicedShape_le
          · simp
          · intro j h1 h2
            simp only [List.getElem_map]
            exact size_le_max hm
      obtain ⟨ls, hev, hsl⟩ := hls
      have hfit := (fits_shape h hm k).2
      rw [← hbs'] at hfit
      refine ⟨.arr b, ?_, hb⟩
      simp [siteField, hs, field_ok hat, hev, field_ok hav, getRow_ok hst hi hb hbw hbt hsl hfit, bind,
        Except.bind]

/-- The generated text fields of the format have the type listed for them. -/
def Kept (f : Format) (k : PyStr) : Prop :=
  ∀ ty l, f.genSite.get? k = some (.const ty l) → f.arrays.get? k = some ty

theorem siteRecord_ok {f t o c rs flat A i tkey} (hc : Coherent f t flat)
    (h : SiteRecords f t o c [] rs) (h1 : OneSlice tkey f t rs)
    (hA : Stacked f t o c rs A) (hi : i < rs.length) (hf : FlatPpoOK o c rs) :
    ∃ r, siteRecord f A i = .ok r ∧ (∀ k, k ∈ r.keys ↔ k ∈ f.siteFields) ∧
      ∀ k, Kept f k → r.get? k = rs[i].2.get? k := by
  have hm := List.getElem_mem hi
  have hr := h.recs _ hm
  obtain ⟨p0, hp0, hg0, -⟩ := firstRec_ok h.nonempty
  -- shared
  obtain ⟨sh, hsh, hshk, hshg⟩ := forFields_get (g := fun k (_ : Unit) => field A k)
    (P := fun k _ v => A.get? k = some v) (l := f.shared.map fun k => (k, ())) (fun p hp => by
      obtain ⟨k, hk, rfl⟩ := List.mem_map.1 hp
      have : k ∈ A.keys := (hA.keys k).2 (by simp [Format.arrayFields, hk])
      obtain ⟨v, hv⟩ := Dict.mem_keys_iff.1 this
      exact ⟨v, field_ok hv, hv⟩)
  -- generated
  obtain ⟨sp, hsp, hspk, hspg⟩ := forFields_get (g := fun _ g => evalGenS A i g)
    (P := fun k g v => (∀ ty l, g = .const ty l → v = vec ty ((dimNames t).map (constElt ty)) ∧
        k ∈ descriptorFields) ∧
      (∀ ds, g = .dims ds → rs[i].2.get? k = some v)) (l := f.genSite) (fun p hp => by
      have hcoh := hc.cohGS p hp
      unfold CohGS at hcoh
      cases hg : p.2 with
      | const ty l =>
        rw [hg] at hcoh
        simp only [decide_eq_true_eq] at hcoh
        obtain ⟨hd, -, rfl⟩ := hcoh
        refine ⟨_, rfl, ?_, fun ds e => by cases e⟩
        intro ty' l' e
        cases e
        exact ⟨rfl, hd⟩
      | dims ds =>
        rw [hg] at hcoh
        simp only [decide_eq_true_eq] at hcoh
        obtain ⟨hd, hda, hmo⟩ := hcoh
        have hev := evalSiteDims_ok hc h hA hi hmo
        refine ⟨numbers ((mainShape t).map (Q.size c rs[i].2)), ?_, (fun ty l e => by cases e), ?_⟩
        · simp only [evalGenS, hev, bind, Except.bind, vec, numbers, List.map_map, List.length_map]
          rfl
        · intro ds' _
          exact hr.dims _ hd hda)
  -- unshared
  obtain ⟨un, hun, hunk, hung⟩ := forFields_get (g := fun k dims => siteField f A i k dims)
    (P := fun k _ v => rs[i].2.get? k = some v) (l := f.dimsSite)
    (fun p hp => siteField_ok hc h hA hi hf hp)
  have hshk' : ∀ k, k ∈ sh.keys ↔ k ∈ f.shared := by
    intro k; rw [hshk]; simp [Dict.keys]
  have hspk' : ∀ k, k ∈ sp.keys ↔ k ∈ f.siteSpecific := by intro k; rw [hspk]; rfl
  have hunk' : ∀ k, k ∈ un.keys ↔ k ∈ f.unshared := by
    intro k; rw [hunk]; exact ⟨hc.sup k, hc.sub k⟩
  have hnsh : sh.NodupKeys := by
    unfold Dict.NodupKeys
    rw [hshk]
    have : Dict.keys (f.shared.map fun k => (k, ())) = f.shared := by
      unfold Dict.keys; rw [List.map_map]; exact List.map_id _
    rw [this]
    exact hc.nodupS
  have hnsp : sp.NodupKeys := by unfold Dict.NodupKeys; rw [hspk]; exact hc.nodupGS
  have hnun : un.NodupKeys := by unfold Dict.NodupKeys; rw [hunk]; exact hc.nodupD
  have hget : ∀ k, (update (update (update [] sh) sp) un).get? k =
      (un.get? k).or ((sp.get? k).or (sh.get? k)) := by
    intro k
    rw [get?_update hnun, get?_update hnsp, get?_update hnsh]
    simp [Dict.get?]
  refine ⟨update (update (update [] sh) sp) un, ?_, ?_, ?_⟩
  · simp [siteRecord, hsh, hsp, hun, bind, Except.bind]
  · intro k
    have e : k ∈ (update (update (update [] sh) sp) un).keys ↔
        ¬ (un.get? k).or ((sp.get? k).or (sh.get? k)) = none := by
      rw [← hget k, Dict.get?_eq_none_iff, Decidable.not_not]
    rw [e]
    simp only [Format.siteFields, List.mem_append, Option.or_eq_none_iff, Dict.get?_eq_none_iff, hunk',
      hspk', hshk']
    by_cases h1 : k ∈ f.unshared <;> by_cases h2 : k ∈ f.siteSpecific <;> by_cases h3 : k ∈ f.shared <;>
      simp [h1, h2, h3]
  · intro k hkept
    rw [hget]
    by_cases hku : k ∈ f.unshared
    · obtain ⟨v, _, hv, -, hP⟩ := hung k (hc.sub k hku)
      rw [hv, hP]; rfl
    · have hn : un.get? k = none := by rw [Dict.get?_eq_none_iff, hunk']; exact hku
      rw [hn, Option.none_or]
      by_cases hks : k ∈ f.siteSpecific
      · obtain ⟨v, x, hv, hx, hPc, hPd⟩ := hspg k hks
        rw [hv]
        cases x with
        | dims ds => rw [hPd ds rfl]; rfl
        | const ty l =>
          have hgx := Dict.get?_of_mem hc.nodupGS hx
          have hty := hkept ty l hgx
          obtain ⟨hvv, hd⟩ := hPc ty l rfl
          rw [h1.descriptors _ hm k hd ty hty, hvv]
          rfl
      · have hn2 : sp.get? k = none := by rw [Dict.get?_eq_none_iff, hspk']; exact hks
        rw [hn2, Option.none_or]
        by_cases hsh' : k ∈ f.shared
        · obtain ⟨v, _, hv, -, hP⟩ := hshg k (by simpa [Dict.keys] using hsh')
          rw [hA.shared p0 hg0 k hsh' hku, h1.shared p0 hp0 _ hm k hsh' hku] at hP
          rw [hv, hP]
        · have hn3 : sh.get? k = none := by rw [Dict.get?_eq_none_iff, hshk']; exact hsh'
          rw [hn3]
          symm
          rw [Dict.get?_eq_none_iff]
          intro hk
          have := h1.only _ hm k hk
          simp only [Format.siteFields, List.mem_append] at this
          rcases this with (h | h) | h
          · exact hsh' h
          · exact hku h
          · exact hks h

theorem siteRows_ok {tkey f A ts} {P : Nat → PyStr × Rec → Prop} : ∀ {l : List Nat},
    (∀ i ∈ l, ∃ n r, rowKey tkey ts i = .ok n ∧ siteRecord f A i = .ok r ∧ P i (n, r)) →
    ∃ out, siteRows tkey f A ts l = .ok out ∧ out.length = l.length ∧
      ∀ j (h : j < l.length) (h' : j < out.length), P l[j] out[j]
  | [], _ => ⟨[], rfl, rfl, fun j h => absurd h (by simp)⟩
  | i :: l, h => by
    obtain ⟨n, r, h1, h2, h3⟩ := h i (List.mem_cons_self ..)
    obtain ⟨out, ho, hl, hP⟩ := siteRows_ok (P := P) (l := l) fun j hj => h j (List.mem_cons_of_mem _ hj)
    refine ⟨(n, r) :: out, ?_, by simp [hl], ?_⟩
    · simp [siteRows, h1, h2, ho, bind, Except.bind]
    · intro j hj hj'
      cases j with
      | zero => simpa using h3
      | succ j => simpa using hP j (by simpa using hj) (by simpa using hj')

theorem rowKey_ok {f t o c rs flat A i tkey} (hc : Coherent f t flat)
    (h : SiteRecords f t o c [] rs) (h1 : OneSlice tkey f t rs)
    (hA : Stacked f t o c rs A) (hi : i < rs.length) {ts : NdArr}
    (hts : A.get? (py! "sqn_timestamps") = some (.arr ts)) :
    rowKey tkey ts i = .ok rs[i].1 := by
  have hm := List.getElem_mem hi
  obtain ⟨hu, hs, ha, hp⟩ := hc.times
  obtain ⟨ty, hty⟩ := Option.isSome_iff_exists.1 ha
  obtain ⟨a, hav, hat, hw, hsh, hg⟩ := hA.array _ ty hu hs hty
  rw [hts] at hav
  cases hav
  obtain ⟨b, hb, hgb⟩ := hg i hi
  obtain ⟨b', ty', -, hb', -, hbw, hbs⟩ := (h.recs _ hm).arr hc.times (by simp)
  rw [hb] at hb'
  cases hb'
  obtain ⟨n, hn0, hn⟩ := (h.recs _ hm).seqs
  have hns : Q.size c rs[i].2 .seqs = n := by simp [Q.size, seqsOf, hn]
  rw [hc.shapes.2.1, List.map_cons, List.map_nil, hns] at hbs
  simp only [shapeOf, hp, if_false, hc.shapes.2.1, List.map_cons, List.map_nil] at hsh hgb
  obtain ⟨b', e, hb', hhd, hkey⟩ := h1.times _ hm
  rw [hb] at hb'
  cases hb'
  have hle : n ≤ Q.max c rs .seqs := by rw [← hns]; exact size_le_max hm
  have hin : inBounds [Q.max c rs .seqs] [0] = true := by simp [inBounds]; omega
  have hbin : inBounds b.shape [0] = true := by rw [hbs]; simp [inBounds]; omega
  have hval : ts.get? [i, 0] = some e := by
    rw [NdArr.get?_eq_some_get hw (by rw [hsh]; exact inBounds_cons.2 ⟨hi, hin⟩), hgb [0] hin, if_pos hbin,
      ← NdArr.get?_eq_some_get hbw hbin]
    rw [NdArr.get?, if_pos hbin, hbs]
    simp only [ravel, Nat.zero_mul, Nat.zero_add]
    rw [← List.head?_eq_getElem?, hhd]
  simp only [rowKey, hsh, hval, hkey]

theorem get?_of_index {rs : Records} (hn : rs.NodupKeys) {i : Nat} (hi : i < rs.length) :
    rs.get? rs[i].1 = some rs[i].2 := Dict.get?_of_mem hn (List.getElem_mem hi)

/-- Arrays that hold the records of a slice become the records again. -/
theorem stacked_back {f t o c flat rs rs' A tkey} (hc : Coherent f t flat)
    (h1 : OneSlice tkey f t rs) (hf : FlatPpoOK o c rs) (hall : ReshapedAll t c flat rs rs')
    (hrs' : SiteRecords f t o c [] rs') (hst : Stacked f t o c rs' A) :
    ∃ out, arrayToSite tkey f A = .ok out ∧ out.keys = rs.keys ∧
      ∀ i (hi : i < rs.length) (hi' : i < out.length),
        (∀ k, k ∈ out[i].2.keys ↔ k ∈ f.siteFields) ∧
        ∀ k, Kept f k → out[i].2.get? k = rs[i].2.get? k := by
  have hlen := hall.length
  have hcoh := hc.reshape
  have hflat : ∀ k ∈ flat, k ∉ f.shared ∧ k ∉ descriptorFields ∧ k ≠ py! "sqn_timestamps" ∧
      IsArr f k := by
    intro k hk
    unfold CohR at hcoh
    cases hr : f.reshape with
    | none =>
      rw [hr] at hcoh
      have : flat = [] := by simpa using hcoh
      rw [this] at hk; cases hk
    | some dk =>
      obtain ⟨df, ks⟩ := dk
      rw [hr] at hcoh
      simp only [decide_eq_true_eq] at hcoh
      obtain ⟨rfl, -, -, -, -, hks⟩ := hcoh
      obtain ⟨h1, -, -, -, -, h2, h3, h4, -⟩ := hks k hk
      exact ⟨h2, h3, h4, h1⟩
  have hkeys : ∀ i (hi : i < rs'.length), rs'[i].1 = rs[i].1 := by
    intro i hi
    have e := congrArg (fun l => l[i]?) hall.keys
    simp only [Dict.keys, List.getElem?_map, List.getElem?_eq_getElem hi,
      List.getElem?_eq_getElem (show i < rs.length by omega), Option.map_some, Option.some.injEq] at e
    exact e
  have h1' : OneSlice tkey f t rs' := by
    refine ⟨?_, ?_, ?_, ?_, ?_⟩
    · have := h1.names; unfold Dict.NodupKeys at this ⊢; rw [hall.keys]; exact this
    · intro p hp
      obtain ⟨i, hi, rfl⟩ := List.getElem_of_mem hp
      have hR := hall.recs i (by omega) hi
      rw [hR.same _ fun hk => (hflat _ hk).2.2.1 rfl, hkeys i hi]
      exact h1.times _ (List.getElem_mem _)
    · intro p hp q hq k hk hku
      obtain ⟨i, hi, rfl⟩ := List.getElem_of_mem hp
      obtain ⟨j, hj, rfl⟩ := List.getElem_of_mem hq
      have hk' : k ∉ flat := fun hk' => (hflat k hk').1 hk
      rw [(hall.recs i (by omega) hi).same k hk', (hall.recs j (by omega) hj).same k hk']
      exact h1.shared _ (List.getElem_mem _) _ (List.getElem_mem _) k hk hku
    · intro p hp k hk ty hty
      obtain ⟨i, hi, rfl⟩ := List.getElem_of_mem hp
      rw [(hall.recs i (by omega) hi).same k fun hk' => (hflat k hk').2.1 hk]
      exact h1.descriptors _ (List.getElem_mem _) k hk ty hty
    · intro p hp k hk
      obtain ⟨i, hi, rfl⟩ := List.getElem_of_mem hp
      rw [(hall.recs i (by omega) hi).keys] at hk
      exact h1.only _ (List.getElem_mem _) k hk
  have hf' : FlatPpoOK o c rs' := by
    intro ho p hp
    obtain ⟨i, hi, rfl⟩ := List.getElem_of_mem hp
    have := hf ho rs[i] (List.getElem_mem _)
    have hsz := (hall.recs i (by omega) hi).size .seqs
    simp only [Q.size] at hsz
    rw [hsz, hlen]
    exact this
  obtain ⟨hu, hs, ha, hp⟩ := hc.times
  obtain ⟨ty, hty⟩ := Option.isSome_iff_exists.1 ha
  obtain ⟨ts, hts, -, -, htsh, -⟩ := hst.array _ ty hu hs hty
  obtain ⟨rows, hrows, hrl, hrP⟩ := siteRows_ok (tkey := tkey) (f := f) (A := A) (ts := ts)
    (P := fun i p => ∃ hi : i < rs'.length, p.1 = rs'[i].1 ∧ (∀ k, k ∈ p.2.keys ↔ k ∈ f.siteFields) ∧
      ∀ k, Kept f k → p.2.get? k = rs'[i].2.get? k) (l := List.range rs'.length)
    (fun i hi => by
      rw [List.mem_range] at hi
      obtain ⟨r, hr, hrk, hrg⟩ := siteRecord_ok hc hrs' h1' hst hi hf'
      exact ⟨rs'[i].1, r, rowKey_ok hc hrs' h1' hst hi hts, hr, hi, rfl, hrk, hrg⟩)
  rw [List.length_range] at hrl
  have hrowP : ∀ j (h : j < rows.length), ∃ hi : j < rs'.length, rows[j].1 = rs'[j].1 ∧
      (∀ k, k ∈ rows[j].2.keys ↔ k ∈ f.siteFields) ∧
      ∀ k, Kept f k → rows[j].2.get? k = rs'[j].2.get? k := by
    intro j hj
    have := hrP j (by rw [List.length_range]; omega) hj
    simpa using this
  have hrowk : Dict.keys rows = rs.keys := by
    rw [← hall.keys]
    apply List.ext_getElem
    · simp [Dict.keys, hrl]
    · intro j hj _
      simp only [Dict.keys, List.getElem_map]
      exact (hrowP j (by simpa [Dict.keys] using hj)).2.1
  have hof : Dict.ofList rows = rows := Dict.ofList_of_nodup (by rw [hrowk]; exact h1.names)
  -- flattening
  obtain ⟨out, hout, hol, hok, hoi⟩ := mapRecords_ok (g := flattenRec f)
    (P := fun r r' => r'.keys = r.keys ∧ (∀ k, k ∉ flat → r'.get? k = r.get? k) ∧
      ∀ k ∈ flat, ∃ v v', r.get? k = some v ∧ v.flatten = .ok v' ∧ r'.get? k = some v') (rs := rows)
    (fun p hp => by
      obtain ⟨j, hj, rfl⟩ := List.getElem_of_mem hp
      obtain ⟨hj', -, -, hg⟩ := hrowP j hj
      unfold flattenRec
      rw [hc.flatten]
      exact mapFieldsOf_ok hc.nodupF fun k hk => by
        obtain ⟨a, -, -, -, hav⟩ := (hall.recs j (by omega) hj').data k hk
        refine ⟨_, .arr { a with shape := [a.data.length] }, (hg k ?_).trans hav, rfl⟩
        intro ty l hgs
        exact absurd (Dict.mem_keys_iff.2 ⟨_, hgs⟩) fun hks => (hc.disjS k hks).1 (hflat k hk).2.2.2.1)
  refine ⟨out, ?_, by rw [hok, hrowk], ?_⟩
  · simp only [arrayToSite, hc.restr, if_true, field_ok hts, htsh, hrows, hof, bind, Except.bind, hout]
  · intro i hi hi'
    obtain ⟨hi2, -, hrk, hrg⟩ := hrowP i (by omega)
    obtain ⟨hk1, hk2, hk3⟩ := hoi i (by omega) hi'
    refine ⟨fun k => by rw [hk1]; exact hrk k, ?_⟩
    intro k hkept
    have hR := hall.recs i hi hi2
    by_cases hk : k ∈ flat
    · obtain ⟨v, v', hv, hfl, hv'⟩ := hk3 k hk
      obtain ⟨a, ha, hw, hash, hav⟩ := hR.data k hk
      rw [hrg k hkept, hav] at hv
      cases hv
      simp only [Val.flatten] at hfl
      cases hfl
      rw [hv', ha]
      have hl : a.data.length = prod ((mainShape t).map (Q.size c rs[i].2)) := by
        rw [hw, hash]; simp [prod]
      rw [← hl] at hash
      rw [← hash]
    · rw [hk2 k hk, hrg k hkept, hR.same k hk]

/-- Arrays made of the records of a slice become the records again. -/
theorem roundtrip {f t o c flat rs tkey} (hc : Coherent f t flat) (h : SiteRecords f t o c flat rs)
    (h1 : OneSlice tkey f t rs) (hf : FlatPpoOK o c rs) :
    ∃ A out, siteToArray f rs = .ok A ∧ arrayToSite tkey f A = .ok out ∧ out.keys = rs.keys ∧
      ∀ i (hi : i < rs.length) (hi' : i < out.length),
        (∀ k, k ∈ out[i].2.keys ↔ k ∈ f.siteFields) ∧
        ∀ k, Kept f k → out[i].2.get? k = rs[i].2.get? k := by
  obtain ⟨rs', A, hA, hall, hrs', hst⟩ := siteToArray_ok hc h
  obtain ⟨out, ho⟩ := stacked_back hc h1 hf hall hrs' hst
  exact ⟨A, out, hA, ho⟩

end Verif.Bor
