import Verif.Borealis.Lemmas.SiteFile
/-!
# The arrays of a site file are those of its records
-/
namespace Verif.Bor
open Verif

variable {f : Format} {t : FType} {o : Ppo} {c : Common} {flat : List PyStr}

theorem AllRec.length {R} {rs rs' : Records} (h : AllRec R rs rs') : rs.length = rs'.length := by
  induction h with
  | nil => rfl
  | cons _ _ ih => simp [ih]

theorem AllRec.imp {R R' : Rec → Rec → Prop} {rs rs' : Records} (h : AllRec R rs rs') :
    (∀ n r r', (n, r') ∈ rs' → R r r' → R' r r') → AllRec R' rs rs' := by
  induction h with
  | nil => exact fun _ => .nil
  | cons hr _ ih => exact fun hi => .cons (hi _ _ _ (List.mem_cons_self ..) hr) (ih fun n r r' hm => hi n r r' (by simp [hm]))

theorem AllRec.mapRecords {R R' : Rec → Rec → Prop} {g : Rec → Except Err Rec} {ws rs : Records} (h : AllRec R ws rs) :
    (∀ w r r', R w r → g r = .ok r' → ∃ w', g w = .ok w' ∧ R' w' r') → ∀ {rs' : Records}, Bor.mapRecords g rs = .ok rs' →
    ∃ ws', Bor.mapRecords g ws = .ok ws' ∧ AllRec R' ws' rs' := by
  induction h with
  | nil => intro _ rs' h; cases h; exact ⟨[], rfl, .nil⟩
  | @cons n w r ws rs hr _ ih =>
    intro hg rs' h
    rw [Bor.mapRecords] at h
    obtain ⟨r', hr', h⟩ := bind_ok h
    obtain ⟨rs'', hrs, h⟩ := bind_ok h
    cases h
    obtain ⟨w', hw', hR⟩ := hg _ _ _ hr hr'
    obtain ⟨ws', hws, hA⟩ := ih hg hrs
    refine ⟨(n, w') :: ws', ?_, .cons hR hA⟩
    rw [Bor.mapRecords, hw', hws]
    rfl

/-- Reshaping looks only at some fields. -/
theorem mapFieldsOf_congr {g : Val → Except Err Val} : ∀ {ks : List PyStr} {w r r' : Rec},
    (∀ k ∈ ks, w.get? k = r.get? k) → mapFieldsOf g r ks = .ok r' →
    ∃ w', mapFieldsOf g w ks = .ok w' ∧ (∀ k, w.get? k = r.get? k → w'.get? k = r'.get? k) ∧
      (∀ k, k ∉ ks → w'.get? k = w.get? k) ∧ ∀ k, k ∉ ks → r'.get? k = r.get? k
  | [], w, r, r', _, h => by
    cases h
    exact ⟨w, rfl, fun _ h => h, fun _ _ => rfl, fun _ _ => rfl⟩
  | k :: ks, w, r, r', he, h => by
    rw [mapFieldsOf] at h
    obtain ⟨v, hv, h⟩ := bind_ok h
    obtain ⟨v', hv', h⟩ := bind_ok h
    have hset : ∀ k', w.get? k' = r.get? k' → (w.set k v').get? k' = (r.set k v').get? k' := by
      intro k' hk'
      by_cases e : k' = k
      · subst e; rw [Dict.get?_set_self, Dict.get?_set_self]
      · rw [Dict.get?_set_ne _ (Ne.symm e), Dict.get?_set_ne _ (Ne.symm e), hk']
    obtain ⟨w', h1, h2, h3, h4⟩ := mapFieldsOf_congr (w := w.set k v') (fun k' hk' => hset k' (he k' (by simp [hk']))) h
    refine ⟨w', ?_, fun k' hk' => h2 k' (hset k' hk'), ?_, ?_⟩
    · have : field w k = .ok v := field_iff.2 (by rw [he k (by simp)]; exact field_iff.1 hv)
      rw [mapFieldsOf, this]
      show (do
        let v' ← g v
        _) = _
      rw [hv']
      exact h1
    · intro k' hk'
      rw [h3 k' (fun c => hk' (by simp [c])), Dict.get?_set_ne _ (fun e => hk' (by simp [e.symm]))]
    · intro k' hk'
      rw [h4 k' (fun c => hk' (by simp [c])), Dict.get?_set_ne _ (fun e => hk' (by simp [e.symm]))]

theorem reshapeRec_congr {w r r' : Rec} (hd : ∀ df ks, f.reshape = some (df, ks) → w.get? df = r.get? df)
    (hk : ∀ df ks, f.reshape = some (df, ks) → ∀ k ∈ ks, w.get? k = r.get? k) (h : reshapeRec f r = .ok r') :
    ∃ w', reshapeRec f w = .ok w' ∧ (∀ k, w.get? k = r.get? k → w'.get? k = r'.get? k) ∧
      (∀ k, (∀ df ks, f.reshape = some (df, ks) → k ∉ ks) → w'.get? k = w.get? k) ∧
      ∀ k, (∀ df ks, f.reshape = some (df, ks) → k ∉ ks) → r'.get? k = r.get? k := by
  unfold reshapeRec at h ⊢
  cases hr : f.reshape with
  | none =>
    rw [hr] at h
    cases h
    exact ⟨w, rfl, fun _ h => h, fun _ _ => rfl, fun _ _ => rfl⟩
  | some dk =>
    obtain ⟨df, ks⟩ := dk
    rw [hr] at h
    obtain ⟨d, hd', h⟩ := bind_ok h
    obtain ⟨dims, hdm, h⟩ := bind_ok h
    obtain ⟨w', h1, h2, h3, h4⟩ := mapFieldsOf_congr (hk df ks hr) h
    refine ⟨w', ?_, h2, fun k hk' => h3 k (hk' df ks rfl), fun k hk' => h4 k (hk' df ks rfl)⟩
    have : field w df = .ok d := field_iff.2 (by rw [hd df ks hr]; exact field_iff.1 hd')
    show (do
      let d ← field w df
      _) = _
    rw [this]
    show (do
      let dims ← d.dimsOf
      _) = _
    rw [hdm]
    exact h1

/-! ## Filling the arrays -/

/-- A value of a dictionary is stored as the value of the record. -/
def Stores (f : Format) (k : PyStr) (w r : Rec) : Prop :=
  ∀ ty, f.typeOf k = .ok ty → ∃ v v', w.get? k = some v ∧ storable ty v = .ok v' ∧ r.get? k = some v'

/-- Slicing with or without the zeros is the same. -/
def SlicesSame (isA : Bool) (M : List Nat) (v : Val) : Prop :=
  v.isArr = isA ∧
    slicedShape (v.asArr.shape.map Int.ofNat) M = slicedShape ((v.asArr.shape.filter (· ≠ 0)).map Int.ofNat) M

theorem assign_shape {ty : Ty} {a : NdArr} {i : Nat} {ls : List Nat} {b a' : NdArr} (h : assign ty a i ls b = .ok a') :
    a'.shape = a.shape := by
  unfold assign at h
  split at h
  · cases h
  · rename_i n ds hs
    split at h
    · split at h
      · cases h
      · split at h
        · cases h; rfl
        · cases h
    · cases h

theorem fillFromFile_cons {ty : Ty} {k n : PyStr} {i : Nat} {a : NdArr} {r : Rec} {rs : Records} :
    fillFromFile ty k i a ((n, r) :: rs) = (do
      let v ← field r k
      let v ← storable ty v
      let a' ← assign ty a i v.asArr.shape v.asArr
      fillFromFile ty k (i + 1) a' rs) := by
  rw [fillFromFile]
  congr 1
  funext v
  congr 1
  funext v
  cases v <;> rfl

theorem fill_eq {ty : Ty} {k : PyStr} {isA : Bool} {N : Nat} {M : List Nat} {ws rs : Records}
    (h : AllRec (fun w r => ∃ v v', w.get? k = some v ∧ storable ty v = .ok v' ∧ r.get? k = some v' ∧
      SlicesSame isA M v' ∧ (isA = false → v'.asArr.shape = [])) ws rs) :
    ∀ {i : Nat} {a : NdArr}, a.shape = N :: M → fillFromFile ty k i a ws = fillField ty k isA i a rs := by
  induction h with
  | nil => intros; rfl
  | @cons n w r ws rs hr _ ih =>
    intro i a ha
    obtain ⟨v, v', h1, h2, h3, ⟨h4, h5⟩, h6⟩ := hr
    have hsl : sliceDims isA v' = .ok v'.asArr.shape := by
      unfold sliceDims
      cases isA with
      | true =>
        cases v' with
        | arr b => rfl
        | np _ _ => cases h4
        | py _ _ => cases h4
      | false => rw [h6 rfl]; rfl
    have hassign : assign ty a i v'.asArr.shape v'.asArr = assign ty a i (v'.asArr.shape.filter (· ≠ 0)) v'.asArr := by
      unfold assign
      rw [ha]
      simp only
      rw [h5]
    rw [fillFromFile_cons, fillField, field_iff.2 h1, field_iff.2 h3]
    show (do
      let v ← storable ty v
      _) = (do
      let ls ← sliceDims isA v'
      _)
    rw [h2, hsl]
    show (do
      let a' ← assign ty a i v'.asArr.shape v'.asArr
      _) = (do
      let a' ← assign ty a i (v'.asArr.shape.filter (· ≠ 0)) v'.asArr
      _)
    rw [hassign]
    cases hA : assign ty a i (v'.asArr.shape.filter (· ≠ 0)) v'.asArr with
    | error e => rfl
    | ok a' => exact ih (by rw [assign_shape hA]; exact ha)

/-- A dictionary of a file holds what the record holds. -/
structure Loaded (f : Format) (w r : Rec) : Prop where
  store : ∀ k ∈ f.unshared, Stores f k w r
  arr : ∀ k, IsArr f k → w.get? k = r.get? k

theorem storable_id {ty : Ty} {v : Val} (h : ty ≠ .str) (hv : ∀ n e, v ≠ .np (.other n) e) : storable ty v = .ok v := by
  unfold storable
  rw [if_neg h]
  split
  · exact absurd rfl (hv _ _)
  · rfl

theorem typeOf_ok {k : PyStr} {ty : Ty} (h : f.typeOf k = .ok ty) :
    f.single.get? k = some ty ∨ (f.single.get? k = none ∧ f.arrays.get? k = some ty) := by
  unfold Format.typeOf at h
  split at h
  · cases h; exact .inl (by assumption)
  · exact .inr ⟨by assumption, field_iff.1 h⟩

theorem cohA_of (hc : Coherent f t flat) {k : PyStr} (hk : k ∈ f.unshared) : ∃ dims, (k, dims) ∈ f.dimsArray ∧
    (∀ ty, f.single.get? k = some ty → dims = [] ∧ Fillable ty) ∧
    ∀ ty, f.single.get? k = none → f.arrays.get? k = some ty → Fillable ty ∧ ty ≠ .str ∧ ty ≠ .npBool := by
  obtain ⟨⟨k', dims⟩, hp, rfl⟩ := List.mem_map.1 hk
  have hcoh := hc.cohA _ hp
  unfold CohA at hcoh
  refine ⟨dims, hp, ?_, ?_⟩
  · intro ty hs
    simp only [hs, decide_eq_true_eq] at hcoh
    exact hcoh
  · intro ty hs ha
    simp only [hs, ha, decide_eq_true_eq] at hcoh
    exact ⟨hcoh.1, hcoh.2.1, hcoh.2.2.1⟩

theorem fillable_other {ty : Ty} (h : Fillable ty) (n : Nat) : ty ≠ .other n := by
  rcases h with rfl | rfl | rfl | rfl | rfl | rfl | rfl | rfl <;> simp

/-- The dictionary of a group, before and after reshaping. -/
theorem SiteGroup.loaded {g : Group} {w r r' : Rec} (hc : Coherent f t flat) (ht : Tabled f t)
    (h : SiteGroup f t o c flat g r) (hw : RawOf f.siteSingleTypes f.siteArrayTypes g w r)
    (hr : reshapeRec f r = .ok r') :
    ∃ w', reshapeRec f w = .ok w' ∧ Loaded f w' r' ∧ ∀ k ∈ f.shared, sharedOfRecord f g w' k = field r' k := by
  have harr : ∀ k, IsArr f k → w.get? k = r.get? k := by
    intro k hk
    obtain ⟨hu, -, ha, -⟩ := hk
    obtain ⟨ty, hty⟩ := Option.isSome_iff_exists.1 ha
    exact hw.array k ty (by rw [(ht.same k (by simp [hu])).2]; exact hty) fun e => ht.texts k hu (by rw [hty, e])
  have hcoh := hc.reshape
  unfold CohR at hcoh
  have hd : ∀ df ks, f.reshape = some (df, ks) → w.get? df = r.get? df ∧ (∀ k ∈ ks, w.get? k = r.get? k) ∧ ks = flat := by
    intro df ks he
    rw [he] at hcoh
    simp only [decide_eq_true_eq] at hcoh
    obtain ⟨rfl, hdf, hdfa, -, -, hks⟩ := hcoh
    exact ⟨hw.array df .u32 (ht.dims df hdf hdfa) (by simp), fun k hk => harr k (hks k hk).1, rfl⟩
  obtain ⟨w', h1, h2, h3, h4⟩ := reshapeRec_congr (fun df ks he => (hd df ks he).1) (fun df ks he => (hd df ks he).2.1) hr
  have hout : ∀ k, k ∉ flat → w'.get? k = w.get? k ∧ r'.get? k = r.get? k := by
    intro k hk
    have hk' : ∀ df ks, f.reshape = some (df, ks) → k ∉ ks := fun df ks he => by rw [(hd df ks he).2.2]; exact hk
    exact ⟨h3 k hk', h4 k hk'⟩
  refine ⟨w', h1, ⟨?_, fun k hk => h2 k (harr k hk)⟩, ?_⟩
  · intro k hk ty hty
    obtain ⟨dims, -, hcs, hca⟩ := cohA_of hc hk
    rcases typeOf_ok hty with hs | ⟨hs, ha⟩
    · obtain ⟨-, hfil⟩ := hcs ty hs
      have hS : f.siteSingleTypes.get? k = some ty := by rw [(ht.same k (by simp [hk])).1]; exact hs
      have hfl : k ∉ flat := fun c => by rw [(flat_arr hc c).1.2.1] at hs; cases hs
      obtain ⟨e1, e2⟩ := hout k hfl
      obtain ⟨v, hv, hok⟩ := h.shape.scalar k ty hk hs
      by_cases hstr : ty = .str
      · subst hstr
        obtain ⟨b, s, hb, hu, rfl, hwk⟩ := hw.text k hS v hv
        obtain ⟨s', hs1, hs2⟩ := decodeAscii_ok (h.ascii k hk hs b hb)
        rw [hu] at hs2
        cases hs2
        refine ⟨_, _, by rw [e1]; exact hwk, ?_, by rw [e2]; exact hv⟩
        unfold storable
        rw [if_pos rfl]
        simp only
        rw [hs1]
        rfl
      · have hwk := hw.single k ty hS hstr
        refine ⟨v, v, by rw [e1, hwk]; exact hv, ?_, by rw [e2]; exact hv⟩
        refine storable_id hstr ?_
        rintro n e rfl
        unfold ScalarOK at hok
        rw [if_neg hstr] at hok
        obtain ⟨e', he'⟩ := hok
        cases he'
        exact fillable_other hfil n rfl
    · obtain ⟨-, hns, -⟩ := hca ty hs ha
      have hD : f.siteArrayTypes.get? k = some ty := by rw [(ht.same k (by simp [hk])).2]; exact ha
      have hwk : w.get? k = r.get? k := hw.array k ty hD fun e => ht.texts k hk (by rw [ha, e])
      have hA : ∃ b, r'.get? k = some (.arr b) := by
        obtain ⟨r'', hr'', -, hsr⟩ := reshapeRec_ok hc h.shape
        rw [hr] at hr''
        cases hr''
        obtain ⟨a, ha', -⟩ := hsr.array k ty hk hs ha
        exact ⟨a, ha'⟩
      obtain ⟨b, hb⟩ := hA
      exact ⟨.arr b, .arr b, by rw [h2 k hwk]; exact hb, storable_id hns (by simp), hb⟩
  · intro k hk
    have hfl : k ∉ flat := fun c => (flat_arr hc c).2.2.1 hk
    obtain ⟨e1, e2⟩ := hout k hfl
    obtain ⟨hS, hD⟩ := ht.same k (by simp [hk])
    obtain ⟨v, hv⟩ := Dict.mem_keys_iff.1 (h.shape.shared k hk)
    have hr'k : field r' k = .ok v := field_iff.2 (by rw [e2]; exact hv)
    rw [hr'k]
    unfold sharedOfRecord
    by_cases hstr : f.single.get? k = some .str
    · obtain ⟨b, s, hb, hu, rfl, hwk⟩ := hw.text k (by rw [hS]; exact hstr) v hv
      rw [field_iff.2 (by rw [e1]; exact hwk)]
      show (if _ then _ else _) = _
      rw [if_pos hstr, hb, sharedText, decodeUtf8, hu]
      rfl
    · by_cases hts : f.arrays.get? k = some .npStr
      · obtain ⟨d, n, a, hd', hi, hsh, hva, rfl, hwk⟩ := hw.texts k (by rw [hD]; exact hts) v hv
        obtain ⟨x, hx⟩ := Dict.mem_keys_iff.1 hwk
        rw [field_iff.2 (by rw [e1]; exact hx)]
        show (if _ then _ else _) = _
        rw [if_neg hstr, if_pos hts, textDset, field_iff.2 hd']
        simp only [bind, Except.bind]
        rw [hi]
        simp only
        have : d.all = .ok d.arr := by
          unfold Dset.all
          split
          · rename_i hc'; exact absurd hc' hsh
          · rfl
        rw [this]
        simp only
        rw [hva]
      · have hwk : w.get? k = r.get? k := by
          rcases ht.total k (by simp [hk]) with h5 | h5
          · obtain ⟨ty, hty⟩ := Dict.mem_keys_iff.1 h5
            exact hw.single k ty (by rw [hS]; exact hty) fun e => hstr (by rw [hty, e])
          · obtain ⟨ty, hty⟩ := Dict.mem_keys_iff.1 h5
            exact hw.array k ty (by rw [hD]; exact hty) fun e => hts (by rw [hty, e])
        have hne : ∀ e, g.attrs.get? k ≠ some (.empty e) := by
          intro e he
          rcases ht.total k (by simp [hk]) with h5 | h5
          · obtain ⟨ty, hty⟩ := Dict.mem_keys_iff.1 h5
            obtain ⟨v', hv'⟩ := h.plain.value k ty (by rw [hS]; exact hty) (fun e => hstr (by rw [hty, e])) _ he
            cases hv'
          · obtain ⟨ty, hty⟩ := Dict.mem_keys_iff.1 h5
            exact h.plain.array k (Dict.mem_keys_iff.2 ⟨ty, by rw [hD]; exact hty⟩) (Dict.mem_keys_iff.2 ⟨_, he⟩)
        rw [field_iff.2 (by rw [e1, hwk]; exact hv)]
        show (if _ then _ else _) = _
        rw [if_neg hstr, if_neg hts]
        split
        · rename_i he; exact absurd he (hne _)
        · rfl

theorem forFields_congr {α : Type} {g g' : PyStr → α → Except Err Val} : ∀ {l : List (PyStr × α)},
    (∀ p ∈ l, g p.1 p.2 = g' p.1 p.2) → forFields g l = forFields g' l
  | [], _ => rfl
  | (k, x) :: l, h => by
    rw [forFields, forFields, h (k, x) (List.mem_cons_self ..), forFields_congr fun p hp => h p (List.mem_cons_of_mem _ hp)]

theorem lensOf_congr {k : PyStr} {ws rs : Records} (h : AllRec (fun w r => w.get? k = r.get? k) ws rs) :
    lensOf k ws = lensOf k rs := by
  induction h with
  | nil => rfl
  | cons hr _ ih =>
    rw [lensOf, lensOf, ih]
    unfold field
    rw [hr]

/-- The dimensions of an array field. -/
theorem evalDims_eq {rs : Records} (hc : Coherent f t flat) (h : SiteRecords f t o c [] rs) {k : PyStr} {dims : List DimA}
    {ty : Ty} (hp : (k, dims) ∈ f.dimsArray) (hs : f.single.get? k = none) (ha : f.arrays.get? k = some ty) :
    evalDims rs dims = .ok (((shapeOf o t k).map (Q.max c rs)).map Int.ofNat) := by
  have hu : k ∈ f.unshared := List.mem_map.2 ⟨_, hp, rfl⟩
  have hcoh := hc.cohA _ hp
  unfold CohA at hcoh
  simp only [hs, ha, decide_eq_true_eq] at hcoh
  obtain ⟨-, -, -, hdim⟩ := hcoh
  by_cases hk : k = py! "pulse_phase_offset"
  · subst hk
    rw [if_pos rfl] at hdim
    subst hdim
    simp [evalDims, evalDimA, findMaxPpo_ok h hu hs ha, bind, Except.bind, shapeOf]
  · rw [if_neg hk] at hdim
    rw [evalDims_ok hc h hdim]
    simp [shapeOf, hk]

theorem slices_same {rs : Records} (h : SiteRecords f t o c [] rs) {p : PyStr × Rec} (hp : p ∈ rs) (k : PyStr) :
    slicedShape (((shapeOf o t k).map (Q.size c p.2)).map Int.ofNat) ((shapeOf o t k).map (Q.max c rs)) =
      slicedShape ((((shapeOf o t k).map (Q.size c p.2)).filter (· ≠ 0)).map Int.ofNat) ((shapeOf o t k).map (Q.max c rs)) := by
  have key : (∀ d ∈ (shapeOf o t k).map (Q.size c p.2), d ≠ 0) →
      ((shapeOf o t k).map (Q.size c p.2)).filter (· ≠ 0) = (shapeOf o t k).map (Q.size c p.2) := by
    intro hd
    rw [List.filter_eq_self]
    intro d hd'
    simpa using hd d hd'
  rcases shapeOf_pos o t k with hb | hn | hpos
  · rcases h.blanked with h0 | h1
    · have e1 : Q.size c p.2 .blanked = 0 := h0 p hp
      have e2 : Q.max c rs .blanked = 0 := max_const h.nonempty h0
      rw [hb]
      simp only [List.map_cons, List.map_nil, e1, e2]
      rfl
    · rw [key]
      rw [hb]
      intro d hd
      rw [List.map_cons, List.map_nil, List.mem_singleton] at hd
      subst hd
      exact h1 p hp
  · have e2 : Q.max c rs .none = 0 := max_const h.nonempty fun _ _ => rfl
    rw [hn]
    simp only [List.map_cons, List.map_nil, e2]
    rfl
  · rw [key]
    intro d hd
    obtain ⟨q, hq, rfl⟩ := List.mem_map.1 hd
    have h1 := hpos q hq
    have hr := h.recs p hp
    have hpc := h.pos
    unfold Common.Pos at hpc
    cases q with
    | seqs =>
      obtain ⟨n, hn, hv⟩ := hr.seqs
      simp [Q.size, seqsOf, hv]; omega
    | beams => have := hr.beams; simp only [Q.size]; omega
    | blanked => exact absurd rfl h1.1
    | none => exact absurd rfl h1.2
    | _ => simp only [Q.size]; omega

theorem build_eq {ws rs : Records} {m : MaxDims} {n0 : PyStr} {first : Rec} (hc : Coherent f t flat) (ht : Tabled f t)
    (h : SiteRecords f t o c [] rs)
    (hA : AllRec (Loaded f) ws rs) (hfirst : (n0, first) ∈ rs)
    (hm : ∀ k ∈ f.unshared, m.dims.get? k = some (maxShape f t o c rs k)) {k : PyStr} {dims : List DimA}
    (hp : (k, dims) ∈ f.dimsArray) : buildFromFile f m ws k = buildField f rs first k dims := by
  have hu : k ∈ f.unshared := List.mem_map.2 ⟨_, hp, rfl⟩
  have hlen := hA.length
  cases hs : f.single.get? k with
  | some ty =>
    obtain ⟨dims', hp', hcs, -⟩ := cohA_of hc hu
    have hdd : dims = dims' := by
      have h1 := Dict.get?_of_mem hc.nodupU hp
      have h2 := Dict.get?_of_mem hc.nodupU hp'
      rw [h1] at h2
      exact Option.some.inj h2
    obtain ⟨hd, hfil⟩ := hcs ty hs
    rw [← hdd] at hd
    subst hd
    have hty : f.typeOf k = .ok ty := by unfold Format.typeOf; rw [hs]
    obtain ⟨e, he⟩ := fillOf_ok hfil
    have hscal : ∀ p ∈ rs, ∃ v, p.2.get? k = some v ∧ v.isArr = false ∧ v.asArr.shape = [] := by
      intro p hp
      obtain ⟨v, hv, hok⟩ := (h.recs p hp).scalar k ty hu hs
      refine ⟨v, hv, ?_⟩
      unfold ScalarOK at hok
      split at hok
      · obtain ⟨s, rfl, -⟩ := hok; exact ⟨rfl, rfl⟩
      · obtain ⟨e, rfl⟩ := hok; exact ⟨rfl, rfl⟩
    obtain ⟨v0, hv0, hva, -⟩ := hscal _ hfirst
    have hshape : maxShape f t o c rs k = [] := by unfold maxShape; rw [hs]; rfl
    have hfill := fill_eq (ty := ty) (k := k) (isA := false) (N := rs.length) (M := [])
      (hA.imp fun n w r hm hl => by
        obtain ⟨v, v', h1, h2, h3⟩ := hl.store k hu ty hty
        obtain ⟨v'', hv'', h4, h5⟩ := hscal _ hm
        rw [h3] at hv''
        cases hv''
        exact ⟨v, v', h1, h2, h3, ⟨h4, by rw [h5]; rfl⟩, fun _ => h5⟩)
      (i := 0) (a := .ofFn (arrayTy ty) (rs.length :: []) fun _ => e) rfl
    unfold buildFromFile buildField
    rw [field_iff.2 (hm k hu), hshape, hty]
    simp only [evalDims, toShape, he, field_ok hv0, hva, bind, Except.bind, hlen, hfill]
  | none =>
    have hka : k ∈ f.arrays.keys := by
      rcases ht.total k (by simp [hu]) with h1 | h1
      · exact absurd h1 (Dict.get?_eq_none_iff.1 hs)
      · exact h1
    obtain ⟨ty, hat⟩ := Dict.mem_keys_iff.1 hka
    obtain ⟨-, -, -, hca⟩ := cohA_of hc hu
    obtain ⟨hfil, hns, hnb⟩ := hca ty hs hat
    have hty : f.typeOf k = .ok ty := by unfold Format.typeOf; rw [hs]; exact field_iff.2 hat
    have he := fillOf_padding hfil hns hnb
    have hev := evalDims_eq hc h hp hs hat
    have harr : ∀ p ∈ rs, ∃ b, p.2.get? k = some (.arr b) ∧ b.shape = (shapeOf o t k).map (Q.size c p.2) := by
      intro p hp
      obtain ⟨b, hb, -, -, hbs⟩ := (h.recs p hp).array k ty hu hs hat
      exact ⟨b, hb, by simpa [storedShape] using hbs⟩
    obtain ⟨b0, hb0, -⟩ := harr _ hfirst
    have hshape : maxShape f t o c rs k = (shapeOf o t k).map (Q.max c rs) := by unfold maxShape; rw [hs]; rfl
    have hfill := fill_eq (ty := ty) (k := k) (isA := true) (N := rs.length) (M := (shapeOf o t k).map (Q.max c rs))
      (hA.imp fun n w r hm hl => by
        obtain ⟨v, v', h1, h2, h3⟩ := hl.store k hu ty hty
        obtain ⟨b, hb, h4⟩ := harr _ hm
        rw [h3] at hb
        cases hb
        refine ⟨v, _, h1, h2, h3, ⟨rfl, ?_⟩, fun e => by cases e⟩
        show slicedShape (b.shape.map Int.ofNat) _ = slicedShape ((b.shape.filter _).map Int.ofNat) _
        rw [h4]
        exact slices_same h hm k)
      (i := 0) (a := .ofFn (arrayTy ty) (rs.length :: (shapeOf o t k).map (Q.max c rs)) fun _ => padding ty) rfl
    unfold buildFromFile buildField
    rw [field_iff.2 (hm k hu), hshape, hty, hev]
    simp only [toShape_ofNat, he, field_ok hb0, Val.isArr, bind, Except.bind, hlen, hfill]

theorem generated_eq {ws rs : Records} (hc : Coherent f t flat) (ht : Tabled f t) (hA : AllRec (Loaded f) ws rs)
    {p : PyStr × GenA} (hp : p ∈ f.genArray) : generatedOf f ws p.1 p.2 = evalGenA rs p.2 := by
  obtain ⟨k, g⟩ := p
  cases g with
  | const ty l => rfl
  | lens fl =>
    have hcoh := hc.cohGA _ hp
    unfold CohGA at hcoh
    simp only [decide_eq_true_eq] at hcoh
    have hty := ht.lens _ hp
    unfold lensTyped at hty
    simp only [decide_eq_true_eq] at hty
    rw [generatedOf, field_iff.2 hty, lensOf_congr (hA.imp fun _ _ _ _ hl => hl.arr fl hcoh.1)]
    rfl

/-! ## All arrays -/

theorem rawRecords_ok {F : H5} (ht : Tabled f t) {ns : List PyStr} {rs : Records}
    (h : FromFile F (SiteGroup f t o c flat) ns rs) :
    ∃ ws, rawRecords f F ns = .ok ws ∧
      AllRec (fun w r => ∃ g, SiteGroup f t o c flat g r ∧ RawOf f.siteSingleTypes f.siteArrayTypes g w r) ws rs := by
  induction h with
  | nil => exact ⟨[], rfl, .nil⟩
  | @cons n g r ns rs hg hp _ ih =>
    obtain ⟨ws, h1, h2⟩ := ih
    obtain ⟨w, hw, hR⟩ := hp.raw ht
    refine ⟨(n, w) :: ws, ?_, .cons ⟨g, hp, hR⟩ h2⟩
    rw [rawRecords, hg]
    simp only
    rw [hw, h1]
    rfl

theorem max_reshaped {rs rs' : Records} (h : ReshapedAll t c flat rs rs') : Q.max c rs = Q.max c rs' := by
  have : ∀ {rs rs' : Records}, rs'.length = rs.length →
      (∀ i (h1 : i < rs.length) (h2 : i < rs'.length) q, Q.size c rs'[i].2 q = Q.size c rs[i].2 q) → ∀ q m,
      rs.foldl (fun m p => Nat.max m (Q.size c p.2 q)) m = rs'.foldl (fun m p => Nat.max m (Q.size c p.2 q)) m := by
    intro rs
    induction rs with
    | nil =>
      intro rs' hl _ q m
      cases rs' with
      | nil => rfl
      | cons p rs' => simp at hl
    | cons p rs ih =>
      intro rs' hl hi q m
      cases rs' with
      | nil => simp at hl
      | cons p' rs' =>
        have h0 : Q.size c p'.2 q = Q.size c p.2 q := hi 0 (by simp) (by simp) q
        simp only [List.foldl_cons]
        rw [h0]
        exact ih (by simpa using hl) (fun i h1 h2 q => hi (i + 1) (by simpa using h1) (by simpa using h2) q) q _
  funext q
  exact this h.length (fun i h1 h2 q => (h.recs i h1 h2).size q) q 0

theorem arraysOfFile_eq {F : H5} {md : MainDims} (hc : Coherent f t flat) (ht : Tabled f t) (hm : MainOK f t flat md)
    (ho : ppoName ∈ f.unshared → o ≠ .flat) (hroot : ∀ k ∈ F.root.attrs.keys, k ∈ defaultAttrs)
    {n0 : PyStr} {r0 : Rec} {rs : Records} (hrs : SiteRecords f t o c flat ((n0, r0) :: rs))
    (h : FromFile F (SiteGroup f t o c flat) (sortStrs F.keys) ((n0, r0) :: rs))
    (hb : Q.beams ∈ mainShape t → beamsOf r0 = Q.max c ((n0, r0) :: rs) .beams) :
    arraysOfFile f md F = siteToArray f ((n0, r0) :: rs) := by
  obtain ⟨m, h1, hmd⟩ := maxDims_ok hc ht hm ho h hb
  have hnames : recordNames F = sortStrs F.keys := by
    unfold recordNames
    rw [List.filter_eq_nil_iff.2 (fun k hk => by simpa using hroot k hk), List.append_nil]
  obtain ⟨rs', hmap, hall, hrs'⟩ := reshape_ok hc hrs
  have hmd' : ∀ k ∈ f.unshared, m.dims.get? k = some (maxShape f t o c rs' k) := by
    intro k hk
    rw [hmd k hk]
    unfold maxShape
    rw [max_reshaped hall]
  unfold arraysOfFile siteToArray
  rw [h1, if_pos hc.restr, hmap, hnames]
  generalize sortStrs F.keys = ns at h
  cases h with
  | @cons _ g _ ns _ hg hp htail =>
    obtain ⟨ws, hws, hAs⟩ := rawRecords_ok ht htail
    obtain ⟨w0, hw0, hR0⟩ := hp.raw ht
    rw [mapRecords] at hmap
    obtain ⟨r0', hr0', hmap⟩ := bind_ok hmap
    obtain ⟨rs1, hrs1, hmap⟩ := bind_ok hmap
    cases hmap
    obtain ⟨w0', hw0', hl0, hsh0⟩ := hp.loaded hc ht hR0 hr0'
    obtain ⟨ws', hws', hAll⟩ := hAs.mapRecords (R' := Loaded f) (fun w r r' hr hr' => by
      obtain ⟨g, hg, hR⟩ := hr
      obtain ⟨w', h1, h2, -⟩ := hg.loaded hc ht hR hr'
      exact ⟨w', h1, h2⟩) hrs1
    have hAA : AllRec (Loaded f) ((n0, w0') :: ws') ((n0, r0') :: rs1) := .cons hl0 hAll
    have hraw : rawRecords f F (n0 :: ns) = .ok ((n0, w0) :: ws) := by
      rw [rawRecords, hg]
      simp only
      rw [hw0, hws]
      rfl
    have hmapw : mapRecords (reshapeRec f) ((n0, w0) :: ws) = .ok ((n0, w0') :: ws') := by
      rw [mapRecords, hw0', hws']
      rfl
    have hs : forFields (fun k (_ : Unit) => sharedOfRecord f g w0' k) (f.shared.map fun k => (k, ())) =
        forFields (fun k (_ : Unit) => field r0' k) (f.shared.map fun k => (k, ())) :=
      forFields_congr fun p hp => by
        obtain ⟨k, hk, rfl⟩ := List.mem_map.1 hp
        exact hsh0 k hk
    have hg' : forFields (generatedOf f ((n0, w0') :: ws')) f.genArray =
        forFields (fun _ g => evalGenA ((n0, r0') :: rs1) g) f.genArray :=
      forFields_congr fun p hp => generated_eq hc ht hAA hp
    have hu : forFields (fun k (_ : List DimA) => buildFromFile f m ((n0, w0') :: ws') k) f.dimsArray =
        forFields (fun k dims => buildField f ((n0, r0') :: rs1) r0' k dims) f.dimsArray :=
      forFields_congr fun p hp => build_eq hc ht hrs' hAA (List.mem_cons_self ..) hmd' hp
    simp only [bind, Except.bind, hraw, hmapw, hg]
    unfold stackRecords firstRec
    simp only [bind, Except.bind]
    rw [hs, hg', hu]

end Verif.Bor
