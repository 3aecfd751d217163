import Verif.Borealis.Lemmas.Tabled
/-!
# The groups of a site file and its maximum dimensions
-/
namespace Verif.Bor
open Verif

/-- A group of a site file with the record that a reader makes of it. -/
structure SiteGroup (f : Format) (t : FType) (o : Ppo) (c : Common) (flat : List PyStr) (g : Group) (r : Rec) : Prop where
  read : readGroup g = .ok r
  plain : PlainGroup f.siteSingleTypes f.siteArrayTypes g
  shape : SiteRec f t o c flat r
  pulses : ppoName ∈ f.unshared → ∃ a, r.get? (py! "pulses") = some (.arr a) ∧ a.shape = [c.pulses]
  ascii : ∀ k ∈ f.unshared, f.single.get? k = some .str → ∀ b, g.attrs.get? k = some (.bytes b) → AsciiBytes b

variable {f : Format} {t : FType} {o : Ppo} {c : Common} {flat : List PyStr}

theorem SiteGroup.raw {g : Group} {r : Rec} (ht : Tabled f t) (h : SiteGroup f t o c flat g r) :
    ∃ w, rawRecord f g = .ok w ∧ RawOf f.siteSingleTypes f.siteArrayTypes g w r := by
  have hb : boolCheck g.attrs (boolFields f) = .ok () := by
    apply boolCheck_ok
    intro k hk
    obtain ⟨hm, hty⟩ := ht.bools k hk
    have hr : k ∈ r.keys := by
      rcases hm with hm | hm
      · exact h.shape.shared k hm
      · have hs : f.single.get? k = some .npBool := by rw [← (ht.same k (by simp [hm])).1]; exact hty
        obtain ⟨v, hv, -⟩ := h.shape.scalar k _ hm hs
        exact Dict.mem_keys_iff.2 ⟨v, hv⟩
    have hkS : k ∈ f.siteSingleTypes.keys := Dict.mem_keys_iff.2 ⟨_, hty⟩
    have hd := h.plain.scalar k hkS
    have hn := readGroup_get h.read h.plain.nodupA (ht.plain k (by simp [hkS]))
    refine Decidable.by_contra fun hna => ?_
    have := hn.2.2 (Dict.get?_eq_none_iff.2 hna) (Dict.get?_eq_none_iff.2 hd)
    exact (Dict.get?_eq_none_iff.1 this) hr
  have hw : ∃ w, rawRecord f g = .ok w := by
    unfold rawRecord
    rw [hb]
    exact ⟨_, rfl⟩
  obtain ⟨w, hw⟩ := hw
  exact ⟨w, hw, rawOf h.plain (fun k hk => ht.plain k (by simp [hk])) (fun k hk => ht.plain k (by simp [hk]))
    h.read hw⟩

/-! ## Maximum dimensions -/

/-- The shape of a dataset of a record; a single element has none. -/
def dimShape (f : Format) (t : FType) (o : Ppo) (c : Common) (flat : List PyStr) (r : Rec) (k : PyStr) : Option (List Nat) :=
  if (f.single.get? k).isSome then none else some (storedShape flat k ((shapeOf o t k).map (Q.size c r)))

theorem flat_arr (hc : Coherent f t flat) {k : PyStr} (hk : k ∈ flat) :
    IsArr f k ∧ k ≠ py! "beam_nums" ∧ k ∉ f.shared ∧ k ∉ dimFields ∧ ((shapeTable t).get? k).getD [] = mainShape t := by
  have hcoh := hc.reshape
  unfold CohR at hcoh
  cases hr : f.reshape with
  | none =>
    rw [hr] at hcoh
    have hfl : flat = [] := by simpa using hcoh
    rw [hfl] at hk; cases hk
  | some dk =>
    obtain ⟨df, ks⟩ := dk
    rw [hr] at hcoh
    simp only [decide_eq_true_eq] at hcoh
    obtain ⟨rfl, -, -, -, -, hks⟩ := hcoh
    obtain ⟨h1, h2, -, -, h5, h6, -, -, h9⟩ := hks k hk
    exact ⟨h1, h2, h6, h5, h9⟩

theorem SiteGroup.hasDims {g : Group} {r : Rec} (hc : Coherent f t flat) (ht : Tabled f t) (h : SiteGroup f t o c flat g r)
    (ho : ppoName ∈ f.unshared → o ≠ .flat) :
    HasDims f.unshared (dimShape f t o c flat r) (seqsOf r) (beamsOf r) g := by
  obtain ⟨w, -, hw⟩ := h.raw ht
  refine ⟨?_, ?_, ?_, ?_⟩
  · intro k hk hs
    have hs' : (f.single.get? k).isSome = true := by
      unfold dimShape at hs
      split at hs
      · assumption
      · cases hs
    obtain ⟨ty, hty⟩ := Option.isSome_iff_exists.1 hs'
    have hS : f.siteSingleTypes.get? k = some ty := by rw [(ht.same k (by simp [hk])).1]; exact hty
    obtain ⟨v, hv, -⟩ := h.shape.scalar k ty hk hty
    by_cases hstr : ty = .str
    · subst hstr
      obtain ⟨b, s, hb, -⟩ := hw.text k hS v hv
      refine ⟨_, hb, fun e => ?_⟩
      rw [e, hc.seqs.1] at hty
      cases hty
    · refine ⟨_, hw.attr k ty hS hstr v hv, fun e => ?_⟩
      subst e
      obtain ⟨n, -, hn⟩ := h.shape.seqs
      rw [hn] at hv
      cases hv
      simp only [Attr.int, Val.int, seqsOf, hn]
      simp
  · intro k hk s hs
    have hs' : f.single.get? k = none := by
      unfold dimShape at hs
      split at hs
      · cases hs
      · rename_i hns
        cases hg : f.single.get? k with
        | none => rfl
        | some _ => rw [hg] at hns; exact absurd rfl hns
    have hsh : storedShape flat k ((shapeOf o t k).map (Q.size c r)) = s := by
      unfold dimShape at hs
      rw [hs'] at hs
      exact Option.some.inj hs
    have hka : k ∈ f.arrays.keys := by
      rcases ht.total k (by simp [hk]) with h1 | h1
      · exact absurd h1 (Dict.get?_eq_none_iff.1 hs')
      · exact h1
    obtain ⟨ty, hty⟩ := Dict.mem_keys_iff.1 hka
    have hD : f.siteArrayTypes.get? k = some ty := by rw [(ht.same k (by simp [hk])).2]; exact hty
    have hnt : ty ≠ .npStr := fun e => ht.texts k hk (by rw [hty, e])
    obtain ⟨a, ha, -, -, has⟩ := h.shape.array k ty hk hs' hty
    obtain ⟨hna, d, hd, hda⟩ := hw.dset k ty hD hnt a ha
    refine ⟨hna, ?_⟩
    rw [hsh] at has
    unfold dsetShape
    rw [hd]
    simp only
    by_cases hp : k = py! "pulse_phase_offset"
    · rw [if_pos hp]
      subst hp
      obtain ⟨hm, hdd⟩ := ht.ppo hk
      have hfl : py! "pulse_phase_offset" ∉ flat := fun c => (flat_arr hc c).1.2.2.2 rfl
      rw [storedShape, if_neg hfl, shapeOf, if_pos rfl] at hsh
      have hdv := h.shape.dims (py! "data_dimensions") (by simp [dimFields]) hdd
      obtain ⟨-, dd, hdd1, hdd2⟩ := hw.dset (py! "data_dimensions") .u32 (ht.dims _ (by simp [dimFields]) hdd) (by simp) _ hdv
      obtain ⟨pa, hpa, hps⟩ := h.pulses hk
      obtain ⟨-, pd, hpd1, hpd2⟩ := hw.dset (py! "pulses") .u32 ht.pulses (by simp) pa hpa
      have hel : (Val.arr dd.arr).elemInt 1 = .ok (seqsOf r : Int) := by
        have := elemInt_numbers (l := (mainShape t).map (Q.size c r)) (i := 1) (n := seqsOf r) (by
          rw [List.getElem?_map, hm]; rfl)
        rw [hdd2]
        exact this
      have hpp : (prod pd.arr.shape : Int) = c.pulses := by
        rw [hpd2, hps]; simp [prod]
      unfold ppoShape
      rw [hdd1]
      show (do
        let ns ← (Val.arr dd.arr).elemInt 1
        _) = _
      rw [hel]
      simp only [bind, Except.bind]
      rw [hpd1]
      simp only
      rw [hpp, hda, has, if_neg]
      rintro ⟨h1, h2⟩
      rw [← hsh] at h1 h2
      cases o with
      | none => exact h2 (by simp [Ppo.shape, Q.size, prod])
      | flat => exact ho hk rfl
      | perSeq =>
        apply h1
        simp [Ppo.shape, Q.size, prod]
    · rw [if_neg hp, hda, has]
  · unfold dimShape
    rw [hc.seqs.1]
    rfl
  · obtain ⟨hu, hs, ha, hp⟩ := hc.beamNums
    unfold dimShape
    rw [hs]
    have hfl : py! "beam_nums" ∉ flat := fun c => (flat_arr hc c).2.1 rfl
    show some _ = _
    rw [storedShape, if_neg hfl, shapeOf, if_neg hp, hc.shapes.1]
    rfl

/-- The maximum dimensions of a field. -/
def maxShape (f : Format) (t : FType) (o : Ppo) (c : Common) (rs : Records) (k : PyStr) : List Nat :=
  if (f.single.get? k).isSome then [] else (shapeOf o t k).map (Q.max c rs)

/-- The state of `site_get_max_dims` after some records. -/
structure LoopInv (f : Format) (t : FType) (o : Ppo) (c : Common) (flat : List PyStr) (pre : Records) (m : MaxDims) :
    Prop where
  keys : ∀ k ∈ f.unshared, k ∈ m.dims.keys
  dims : ∀ k ∈ f.unshared, k ∉ flat → pre ≠ [] ∨ (f.single.get? k).isSome = true →
    m.dims.get? k = some (maxShape f t o c pre k)
  seqs : m.seqs = (Q.max c pre .seqs : Nat)
  beams : m.beams = match pre with | [] => 0 | p :: _ => beamsOf p.2

theorem max_snoc (pre : Records) (p : PyStr × Rec) (q : Q) : Q.max c (pre ++ [p]) q = max (Q.max c pre q) (q.size c p.2) := by
  unfold Q.max
  rw [List.foldl_append]
  rfl

theorem LoopInv.step {pre : Records} {m m' : MaxDims} {n : PyStr} {r : Rec} (hc : Coherent f t flat)
    (h : LoopInv f t o c flat pre m)
    (ha : AfterFields f.unshared (dimShape f t o c flat r) (seqsOf r) (beamsOf r) (decide (pre = [])) m m') :
    LoopInv f t o c flat (pre ++ [(n, r)]) m' := by
  refine ⟨fun k hk => ha.keys k (h.keys k hk), ?_, ?_, ?_⟩
  · intro k hk hfl _
    rw [ha.dims k hk]
    cases hs : (f.single.get? k).isSome with
    | true =>
      rw [h.dims k hk hfl (.inr hs), dimShape, if_pos hs, maxShape, maxShape, if_pos hs, if_pos hs]
      rfl
    | false =>
      have hs' : ¬ (f.single.get? k).isSome = true := by rw [hs]; simp
      rw [dimShape, if_neg hs', storedShape, if_neg hfl, maxShape, if_neg hs']
      unfold newDims
      simp only
      by_cases hp : pre = []
      · subst hp
        rw [if_pos (by simp)]
        refine congrArg some (List.map_congr_left fun q _ => ?_)
        rw [max_snoc]
        exact (Nat.zero_max _).symm
      · rw [if_neg (by simpa using hp), h.dims k hk hfl (.inl hp), maxShape, if_neg hs']
        show some (List.zipWith max _ _) = some _
        congr 1
        rw [List.zipWith_map, List.zipWith_self]
        apply List.map_congr_left
        intro q _
        rw [max_snoc]
  · rw [ha.seqs, if_pos hc.seqs.2, h.seqs, max_snoc]
    show max ((Q.max c pre .seqs : Nat) : Int) (seqsOf r : Nat) = ((max (Q.max c pre .seqs) (seqsOf r) : Nat) : Int)
    omega
  · rw [ha.beams, h.beams]
    cases pre with
    | nil =>
      rw [if_pos ⟨by simp, hc.beamNums.1⟩]
      simp
    | cons p pre => simp

theorem maxDimsLoop_ok {F : H5} (hc : Coherent f t flat) (ht : Tabled f t) (ho : ppoName ∈ f.unshared → o ≠ .flat)
    {ns : List PyStr} {rs : Records} (h : FromFile F (SiteGroup f t o c flat) ns rs) :
    ∀ {pre : Records} {m : MaxDims}, LoopInv f t o c flat pre m →
      ∃ m', maxDimsLoop F f.unshared (decide (pre = [])) ns m = .ok m' ∧ LoopInv f t o c flat (pre ++ rs) m' := by
  induction h with
  | nil => exact fun {pre m} hi => ⟨m, rfl, by rw [List.append_nil]; exact hi⟩
  | @cons n g r ns rs hg hp _ ih =>
    intro pre m hi
    obtain ⟨m1, h1, a1⟩ := maxDimsFields_ok (first := decide (pre = [])) (hp.hasDims hc ht ho) hc.nodupU hi.keys
    have i1 := LoopInv.step (n := n) hc hi a1
    obtain ⟨m2, h2, i2⟩ := ih i1
    refine ⟨m2, ?_, ?_⟩
    · rw [maxDimsLoop, hg]
      simp only
      rw [h1]
      simp only [bind, Except.bind]
      have : decide (pre ++ [(n, r)] = []) = false := by simp
      rw [this] at h2
      exact h2
    · rw [List.append_assoc] at i2
      exact i2

theorem baseMaxDims_ok {F : H5} (hc : Coherent f t flat) (ht : Tabled f t) (ho : ppoName ∈ f.unshared → o ≠ .flat)
    {rs : Records} (h : FromFile F (SiteGroup f t o c flat) (sortStrs F.keys) rs) :
    ∃ m, baseMaxDims F f.unshared = .ok m ∧ LoopInv f t o c flat rs m := by
  have hget : ∀ k ∈ f.unshared, Dict.get? (f.unshared.map fun k => (k, ([] : List Nat))) k = some [] := by
    intro k hk
    refine Dict.get?_of_mem ?_ (List.mem_map.2 ⟨k, hk, rfl⟩)
    have : Dict.keys (f.unshared.map fun k => (k, ([] : List Nat))) = f.unshared := by
      unfold Dict.keys; rw [List.map_map]; exact List.map_id _
    unfold Dict.NodupKeys
    rw [this]
    exact hc.nodupU
  have hi : LoopInv f t o c flat [] ⟨f.unshared.map fun k => (k, []), 0, 0⟩ := by
    refine ⟨fun k hk => Dict.mem_keys_iff.2 ⟨_, hget k hk⟩, ?_, rfl, rfl⟩
    intro k hk _ hs
    rw [maxShape, if_pos (hs.resolve_left (by simp))]
    exact hget k hk
  obtain ⟨m, h1, h2⟩ := maxDimsLoop_ok hc ht ho h hi
  exact ⟨m, h1, h2⟩

/-! ## The dimensions of the data -/

/-- What a dimension of the main data counts. -/
def denM (t : FType) : MainDim → Option Q
  | .seqs => some .seqs
  | .beams => some .beams
  | .first i => ((mainShape t)[i]?).filter Q.common

/-- The overrides of `site_get_max_dims` belong to the shapes. -/
structure MainOK (f : Format) (t : FType) (flat : List PyStr) (md : MainDims) : Prop where
  source : md.source ∈ dimFields ∧ md.source ∈ f.arrays.keys
  count : md.count = (mainShape t).length
  nodup : md.fields.Nodup
  fields : ∀ k ∈ md.fields, IsArr f k ∧ ((shapeTable t).get? k).getD [] = mainShape t
  flat : ∀ k ∈ flat, k ∈ md.fields
  dims : mapO (denM t) md.dims = some (mainShape t)

theorem mainOK (v : Version) (t : FType) (ht : t ≠ .rawrf) : MainOK (formatOf v t) t (flatFields v t) (mainDims v t) := by
  cases t
  · cases v <;> constructor <;> decide +kernel
  · cases v <;> constructor <;> decide +kernel
  · cases v <;> constructor <;> decide +kernel
  · exact absurd rfl ht

theorem mainSizes {m : MaxDims} {rs : Records} {r : Rec} (hn : rs ≠ []) (hs : m.seqs = (Q.max c rs .seqs : Nat)) :
    ∀ {ds : List MainDim} {qs : List Q}, mapO (denM t) ds = some qs → (Q.beams ∈ qs → m.beams = Q.max c rs .beams) →
      ds.map (mainSize m ((mainShape t).map (Q.size c r))) = qs.map (Q.max c rs)
  | [], qs, h, _ => by cases h; rfl
  | d :: ds, qs, h, hb => by
    rw [mapO] at h
    cases hd : denM t d with
    | none => simp [hd] at h
    | some q =>
      cases hds : mapO (denM t) ds with
      | none => simp [hd, hds] at h
      | some qs' =>
        simp only [hd, hds, Option.some.injEq] at h
        subst h
        rw [List.map_cons, List.map_cons, mainSizes hn hs hds fun hq => hb (by simp [hq])]
        congr 1
        cases d with
        | seqs => cases hd; show m.seqs.toNat = _; rw [hs]; simp
        | beams => cases hd; exact hb (by simp)
        | first i =>
          have hd' : ((mainShape t)[i]?).filter Q.common = some q := hd
          obtain ⟨h1, h2⟩ := Option.filter_eq_some_iff.1 hd'
          show ((mainShape t).map (Q.size c r)).getD i 0 = _
          rw [List.getD_eq_getElem?_getD, List.getElem?_map, h1, max_common h2 hn r]
          rfl

theorem maxDims_ok {F : H5} {md : MainDims} (hc : Coherent f t flat) (ht : Tabled f t) (hm : MainOK f t flat md)
    (ho : ppoName ∈ f.unshared → o ≠ .flat) {n0 : PyStr} {r0 : Rec} {rs : Records}
    (h : FromFile F (SiteGroup f t o c flat) (sortStrs F.keys) ((n0, r0) :: rs))
    (hb : Q.beams ∈ mainShape t → beamsOf r0 = Q.max c ((n0, r0) :: rs) .beams) :
    ∃ m, maxDims F f.unshared md = .ok m ∧
      ∀ k ∈ f.unshared, m.dims.get? k = some (maxShape f t o c ((n0, r0) :: rs) k) := by
  obtain ⟨m, h1, hi⟩ := baseMaxDims_ok hc ht ho h
  have hfd : firstDims F md.source = .ok ((mainShape t).map (Q.size c r0)) := by
    unfold firstDims
    generalize hns : sortStrs F.keys = ns at h
    cases h with
    | @cons _ g _ ns _ hg hp _ =>
      simp only
      rw [hg]
      simp only
      obtain ⟨w, -, hw⟩ := hp.raw ht
      have hv := hp.shape.dims md.source hm.source.1 hm.source.2
      obtain ⟨-, d, hd, hda⟩ := hw.dset md.source .u32 (ht.dims _ hm.source.1 hm.source.2) (by simp) _ hv
      rw [field_iff.2 hd]
      show (Val.arr d.arr).dimsOf = _
      rw [hda]
      exact dimsOf_numbers _
  have hdims := mainSizes (c := c) (m := m) (rs := (n0, r0) :: rs) (r := r0) (by simp) hi.seqs hm.dims
    (fun hq => by rw [hi.beams]; exact hb hq)
  have hnk : Dict.keys (md.fields.map fun k => (k, (mainShape t).map (Q.max c ((n0, r0) :: rs)))) = md.fields := by
    unfold Dict.keys; rw [List.map_map]; exact List.map_id _
  have hnod : Dict.NodupKeys (md.fields.map fun k => (k, (mainShape t).map (Q.max c ((n0, r0) :: rs)))) := by
    unfold Dict.NodupKeys; rw [hnk]; exact hm.nodup
  refine ⟨{ m with dims := update m.dims (md.fields.map fun k => (k, (mainShape t).map (Q.max c ((n0, r0) :: rs)))) },
    ?_, ?_⟩
  · unfold maxDims
    rw [h1]
    show (do
      let ds ← firstDims F md.source
      _) = _
    rw [hfd]
    show (if _ then _ else _) = _
    rw [if_pos (by rw [List.length_map, hm.count]), hdims]
  · intro k hk
    show (update m.dims _).get? k = _
    rw [get?_update hnod]
    by_cases hf : k ∈ md.fields
    · obtain ⟨⟨-, hs, -, hp⟩, hsh⟩ := hm.fields k hf
      rw [Dict.get?_of_mem hnod (List.mem_map.2 ⟨k, hf, rfl⟩), maxShape, hs, shapeOf, if_neg hp, hsh]
      rfl
    · rw [Dict.get?_eq_none_iff.2 (by rw [hnk]; exact hf)]
      exact hi.dims k hk (fun c => hf (hm.flat k c)) (.inl (by simp))

end Verif.Bor
