import Verif.Borealis.Lemmas.SiteFileArrays
/-!
# Records that differ in the phase offsets give arrays that differ in them
-/
namespace Verif.Bor
open Verif

variable {f : Format} {t : FType} {o o' : Ppo} {c : Common} {flat : List PyStr}

theorem SameButPpo.refl (r : Rec) : SameButPpo r r := ⟨rfl, fun _ _ => rfl⟩

theorem SameButPpo.symm {r r' : Rec} (h : SameButPpo r r') : SameButPpo r' r :=
  ⟨h.1.symm, fun k hk => (h.2 k hk).symm⟩

theorem SameButPpo.field {r r' : Rec} (h : SameButPpo r r') {k : PyStr} (hk : k ≠ ppoName) :
    Bor.field r k = Bor.field r' k := by
  unfold Bor.field
  rw [h.2 k hk]

theorem keys_set (d d' : Rec) (k : PyStr) (v v' : Val) (h : d.keys = d'.keys) : (d.set k v).keys = (d'.set k v').keys := by
  by_cases hk : k ∈ d.keys
  · rw [Dict.keys_set_of_mem hk, Dict.keys_set_of_mem (h ▸ hk), h]
  · rw [Dict.set_of_not_mem hk, Dict.set_of_not_mem (h ▸ hk)]
    unfold Dict.keys at h ⊢
    rw [List.map_append, List.map_append, h]
    rfl

theorem SameButPpo.set {d d' : Rec} (h : SameButPpo d d') {k : PyStr} {v v' : Val} (hv : k ≠ ppoName → v = v') :
    SameButPpo (d.set k v) (d'.set k v') := by
  refine ⟨keys_set _ _ _ _ _ h.1, fun k' hk' => ?_⟩
  by_cases e : k = k'
  · subst e
    rw [Dict.get?_set_self, Dict.get?_set_self, hv hk']
  · rw [Dict.get?_set_ne _ e, Dict.get?_set_ne _ e, h.2 k' hk']

/-- Two lists of entries with the same names, and the same values except phase offsets. -/
inductive EntriesBut : Rec → Rec → Prop
  | nil : EntriesBut [] []
  | cons {k v v' d d'} : (k ≠ ppoName → v = v') → EntriesBut d d' → EntriesBut ((k, v) :: d) ((k, v') :: d')

theorem EntriesBut.update {e e' : Rec} (h : EntriesBut e e') : ∀ {d d' : Rec}, SameButPpo d d' →
    SameButPpo (Bor.update d e) (Bor.update d' e') := by
  unfold Bor.update
  induction h with
  | nil => exact fun h => h
  | cons hv _ ih => exact fun h => ih (h.set hv)

theorem forFields_but {α : Type} {g g' : PyStr → α → Except Err Val} : ∀ {l : List (PyStr × α)} {r r' : Rec},
    (∀ p ∈ l, p.1 ≠ ppoName → g p.1 p.2 = g' p.1 p.2) → forFields g l = .ok r → forFields g' l = .ok r' → EntriesBut r r'
  | [], r, r', _, h, h' => by cases h; cases h'; exact .nil
  | (k, x) :: l, r, r', hg, h, h' => by
    rw [forFields] at h h'
    obtain ⟨v, hv, h⟩ := bind_ok h
    obtain ⟨s, hs, h⟩ := bind_ok h
    obtain ⟨v', hv', h'⟩ := bind_ok h'
    obtain ⟨s', hs', h'⟩ := bind_ok h'
    cases h
    cases h'
    refine .cons (fun hk => ?_) (forFields_but (fun p hp => hg p (List.mem_cons_of_mem _ hp)) hs hs')
    have := hg (k, x) (List.mem_cons_self ..) hk
    rw [hv, hv'] at this
    exact Except.ok.inj this

theorem size_but {r r' : Rec} (h : SameButPpo r r') (q : Q) : Q.size c r q = Q.size c r' q := by
  cases q <;> try rfl
  · show seqsOf r = seqsOf r'
    unfold seqsOf
    rw [h.2 _ (by decide)]
  · show lenOf _ r = lenOf _ r'
    unfold lenOf
    rw [h.2 _ (by decide)]
  · show lenOf _ r = lenOf _ r'
    unfold lenOf
    rw [h.2 _ (by decide)]

theorem max_but {rs rs' : Records} (h : AllRec SameButPpo rs rs') : Q.max c rs = Q.max c rs' := by
  have : ∀ q m, rs.foldl (fun m p => Nat.max m (Q.size c p.2 q)) m = rs'.foldl (fun m p => Nat.max m (Q.size c p.2 q)) m := by
    induction h with
    | nil => exact fun _ _ => rfl
    | cons hr _ ih =>
      intro q m
      simp only [List.foldl_cons]
      rw [size_but hr, ih]
  funext q
  exact this q 0

theorem fillField_congr {ty : Ty} {k : PyStr} {isA : Bool} {rs rs' : Records}
    (h : AllRec (fun r r' => r.get? k = r'.get? k) rs rs') :
    ∀ {i : Nat} {a : NdArr}, fillField ty k isA i a rs = fillField ty k isA i a rs' := by
  induction h with
  | nil => intros; rfl
  | @cons n r r' rs rs' hr _ ih =>
    intro i a
    rw [fillField, fillField, Bor.field, Bor.field, hr]
    congr 1
    funext v
    congr 1
    funext ls
    congr 1
    funext a'
    exact ih

theorem build_but {rs rs' : Records} {n0 n1 : PyStr} {r0 r1 : Rec} (hc : Coherent f t flat) (ht : Tabled f t)
    (h : SiteRecords f t o c [] rs) (h' : SiteRecords f t o' c [] rs') (hA : AllRec SameButPpo rs rs')
    (hf : rs.head? = some (n0, r0)) (hf' : rs'.head? = some (n1, r1)) {k : PyStr} {dims : List DimA}
    (hp : (k, dims) ∈ f.dimsArray) (hk : k ≠ ppoName) : buildField f rs r0 k dims = buildField f rs' r1 k dims := by
  have hu : k ∈ f.unshared := List.mem_map.2 ⟨_, hp, rfl⟩
  have hdims : evalDims rs dims = evalDims rs' dims := by
    cases hs : f.single.get? k with
    | some ty =>
      obtain ⟨dims', hp', hcs, -⟩ := cohA_of hc hu
      have hdd : dims = dims' := by
        have h1 := Dict.get?_of_mem hc.nodupU hp
        have h2 := Dict.get?_of_mem hc.nodupU hp'
        rw [h1] at h2
        exact Option.some.inj h2
      rw [hdd, (hcs ty hs).1]
      rfl
    | none =>
      have hka : k ∈ f.arrays.keys := by
        rcases ht.total k (by simp [hu]) with h1 | h1
        · exact absurd h1 (Dict.get?_eq_none_iff.1 hs)
        · exact h1
      obtain ⟨ty, hat⟩ := Dict.mem_keys_iff.1 hka
      rw [evalDims_eq hc h hp hs hat, evalDims_eq hc h' hp hs hat, max_but hA, shapeOf, shapeOf, if_neg hk, if_neg hk]
  have hfirst : Bor.field r0 k = Bor.field r1 k := by
    cases hA with
    | nil => cases hf
    | cons hr _ => cases hf; cases hf'; exact hr.field hk
  unfold buildField
  rw [hdims, hfirst, hA.length]
  congr 1; funext ds
  congr 1; funext shape
  congr 1; funext ty
  congr 1; funext e
  congr 1; funext v
  rw [fillField_congr (hA.imp fun _ _ _ _ hr => hr.2 k hk)]

theorem stack_but {rs rs' : Records} {A A' : Rec} (hc : Coherent f t flat) (ht : Tabled f t)
    (h : SiteRecords f t o c [] rs) (h' : SiteRecords f t o' c [] rs') (hA : AllRec SameButPpo rs rs')
    (hst : stackRecords f rs = .ok A) (hst' : stackRecords f rs' = .ok A') : SameButPpo A A' := by
  unfold stackRecords at hst hst'
  obtain ⟨r0, hr0, hst⟩ := bind_ok hst
  obtain ⟨sh, hsh, hst⟩ := bind_ok hst
  obtain ⟨sp, hsp, hst⟩ := bind_ok hst
  obtain ⟨un, hun, hst⟩ := bind_ok hst
  cases hst
  obtain ⟨r1, hr1, hst'⟩ := bind_ok hst'
  obtain ⟨sh', hsh', hst'⟩ := bind_ok hst'
  obtain ⟨sp', hsp', hst'⟩ := bind_ok hst'
  obtain ⟨un', hun', hst'⟩ := bind_ok hst'
  cases hst'
  have hhead : SameButPpo r0 r1 ∧ (∃ n, rs.head? = some (n, r0)) ∧ ∃ n, rs'.head? = some (n, r1) := by
    cases hA with
    | nil => cases hr0
    | cons hr _ => cases hr0; cases hr1; exact ⟨hr, ⟨_, rfl⟩, _, rfl⟩
  obtain ⟨hr, ⟨n0, hn0⟩, n1, hn1⟩ := hhead
  refine (forFields_but ?_ hun hun').update ((forFields_but ?_ hsp hsp').update
    ((forFields_but ?_ hsh hsh').update (SameButPpo.refl [])))
  · exact fun p hp hk => build_but hc ht h h' hA hn0 hn1 hp hk
  · intro p hp _
    obtain ⟨k, g⟩ := p
    cases g with
    | const ty l => rfl
    | lens fl =>
      have hcoh := hc.cohGA _ hp
      unfold CohGA at hcoh
      simp only [decide_eq_true_eq] at hcoh
      simp only [evalGenA]
      rw [lensOf_congr (hA.imp fun _ _ _ _ hl => hl.2 fl hcoh.1.2.2.2)]
  · exact fun p _ hk => hr.field hk

/-- Records and the same with other phase offsets. -/
theorem siteToArray_but {rs rs' : Records} {A A' : Rec} (hc : Coherent f t flat) (ht : Tabled f t)
    (h : SiteRecords f t o c flat rs) (h' : SiteRecords f t o' c flat rs') (hA : AllRec SameButPpo rs rs')
    (hst : siteToArray f rs = .ok A) (hst' : siteToArray f rs' = .ok A') : SameButPpo A A' := by
  obtain ⟨s, hm, -, hs⟩ := reshape_ok hc h
  obtain ⟨s', hm', -, hs'⟩ := reshape_ok hc h'
  unfold siteToArray at hst hst'
  rw [if_pos hc.restr, hm] at hst
  rw [if_pos hc.restr, hm'] at hst'
  refine stack_but hc ht hs hs' ?_ hst hst'
  have hA2 : AllRec (fun r r' => SameButPpo r r' ∧ SiteRec f t o c flat r ∧ SiteRec f t o' c flat r') rs rs' := by
    have h1 := h.recs
    have h2 := h'.recs
    clear h h' hst hst' hm hm' hs hs'
    induction hA with
    | nil => exact .nil
    | cons hr _ ih =>
      exact .cons ⟨hr, h1 _ (List.mem_cons_self ..), h2 _ (List.mem_cons_self ..)⟩
        (ih (fun p hp => h1 p (List.mem_cons_of_mem _ hp)) fun p hp => h2 p (List.mem_cons_of_mem _ hp))
  obtain ⟨s1, hs1, hR⟩ := hA2.mapRecords (R' := SameButPpo) (g := reshapeRec f) (fun w r r' hw hr => by
    obtain ⟨hb, hw1, hr1⟩ := hw
    obtain ⟨w', e1, k1, -⟩ := reshapeRec_ok hc hw1
    obtain ⟨r'', e2, k2, -⟩ := reshapeRec_ok hc hr1
    rw [hr] at e2
    cases e2
    refine ⟨w', e1, by rw [k1.keys, k2.keys, hb.1], ?_⟩
    have hcoh := hc.reshape
    unfold CohR at hcoh
    have hne : ∀ df ks, f.reshape = some (df, ks) → df ≠ ppoName ∧ ∀ k ∈ ks, k ≠ ppoName := by
      intro df ks he
      rw [he] at hcoh
      simp only [decide_eq_true_eq] at hcoh
      obtain ⟨rfl, hdf, -, -, -, hks⟩ := hcoh
      refine ⟨?_, fun k hk => (hks k hk).1.2.2.2⟩
      rintro rfl
      revert hdf
      decide
    obtain ⟨w'', e3, e4, -⟩ := reshapeRec_congr (w := w) (fun df ks he => hb.2 _ (hne df ks he).1)
      (fun df ks he k hk => hb.2 _ ((hne df ks he).2 k hk)) hr
    rw [e1] at e3
    cases e3
    exact fun k hk => e4 k (hb.2 k hk)) hm'
  rw [hm] at hs1
  cases hs1
  exact hR

/-! ## What the readers of site files do to the phase offsets -/

/-- What the fix leaves of a record. -/
theorem ppoSiteFix1_but {r r' : Rec} (h : ppoSiteFix1 r = .ok r') : SameButPpo r r' ∧
    ∀ v, r.get? ppoName = some v → ∃ s p ps, v.shape? = .ok s ∧ r.get? (py! "pulses") = some p ∧ p.shape? = .ok ps ∧
      r'.get? ppoName = some (if s = ps then v else zerosF32 ps) := by
  unfold ppoSiteFix1 at h
  cases hg : Dict.get? r (py! "pulse_phase_offset") with
  | none =>
    rw [hg] at h
    cases h
    exact ⟨.refl _, fun v hv => by cases hv⟩
  | some v =>
    rw [hg] at h
    obtain ⟨s, hs, h⟩ := bind_ok h
    obtain ⟨p, hp, h⟩ := bind_ok h
    obtain ⟨ps, hps, h⟩ := bind_ok h
    by_cases e : s = ps
    · rw [if_neg (by simpa using e)] at h
      cases h
      refine ⟨.refl _, fun v' hv' => ?_⟩
      cases hv'
      exact ⟨s, p, ps, hs, field_iff.1 hp, hps, by rw [if_pos e]; exact hg⟩
    · rw [if_pos e] at h
      cases h
      refine ⟨⟨(Dict.keys_set_of_mem (Dict.mem_keys_iff.2 ⟨_, hg⟩) _).symm, fun k hk => ?_⟩, fun v' hv' => ?_⟩
      · rw [Dict.get?_set_ne _ (Ne.symm hk)]
      · cases hv'
        exact ⟨s, p, ps, hs, field_iff.1 hp, hps, by rw [if_neg e]; exact Dict.get?_set_self _ _ _⟩

theorem ppoSiteFix_all : ∀ {rs rs' : Records}, ppoSiteFix rs = .ok rs' →
    AllRec (fun r r' => ppoSiteFix1 r = .ok r') rs rs'
  | [], rs', h => by cases h; exact .nil
  | (n, r) :: rs, rs', h => by
    rw [ppoSiteFix] at h
    obtain ⟨r', hr', h⟩ := bind_ok h
    obtain ⟨rs'', hrs, h⟩ := bind_ok h
    cases h
    exact .cons hr' (ppoSiteFix_all hrs)

/-- The phase offsets after the fix. -/
def fixedPpo (f : Format) (o : Ppo) : Ppo := if ppoName ∈ f.unshared then .flat else o

theorem siteRec_but {r r' : Rec} (h : SiteRec f t o c flat r) (hb : SameButPpo r r')
    (hp : ppoName ∈ f.unshared → ∀ ty, f.single.get? ppoName = none → f.arrays.get? ppoName = some ty →
      ∃ a, r'.get? ppoName = some (.arr a) ∧ a.ty = ty ∧ a.WF ∧
        a.shape = storedShape flat ppoName (o'.shape.map (Q.size c r')))
    (hs : f.single.get? ppoName = none) : SiteRec f t o' c flat r' := by
  have hsz : Q.size c r' = Q.size c r := funext fun q => (size_but hb q).symm
  refine ⟨?_, ?_, ?_, ?_, ?_, ?_⟩
  · rw [← hb.2 _ (by decide)]; exact h.seqs
  · have := size_but (c := c) hb .beams
    simp only [Q.size] at this
    rw [← this]; exact h.beams
  · intro k ty hk hty
    have hne : k ≠ ppoName := by rintro rfl; rw [hs] at hty; cases hty
    rw [← hb.2 k hne]
    exact h.scalar k ty hk hty
  · intro k ty hk hsk hty
    by_cases e : k = ppoName
    · subst e
      obtain ⟨a, h1, h2, h3, h4⟩ := hp hk ty hsk hty
      exact ⟨a, h1, h2, h3, by rw [h4, shapeOf, if_pos rfl]⟩
    · obtain ⟨a, h1, h2, h3, h4⟩ := h.array k ty hk hsk hty
      rw [shapeOf, if_neg e] at h4
      exact ⟨a, by rw [← hb.2 k e]; exact h1, h2, h3, by rw [h4, shapeOf, if_neg e, hsz]⟩
  · intro k hk hka
    have hne : k ≠ ppoName := by rintro rfl; revert hk; decide
    rw [← hb.2 k hne, hsz]
    exact h.dims k hk hka
  · intro k hk
    rw [← hb.1]
    exact h.shared k hk

/-- The types of the phase offsets. -/
structure PpoTyped (f : Format) : Prop where
  single : f.single.get? ppoName = none
  arrays : ∀ ty, f.arrays.get? ppoName = some ty → ty = .f32
  arrayTypes : ∀ ty, f.arrayArrayTypes.get? ppoName = some ty → ty = .f32
  arraySingle : ppoName ∉ f.arraySingleTypes.keys
  absent : ppoName ∉ f.shared → ppoName ∉ f.unshared → ppoName ∉ f.arrayFields
  notGen : ppoName ∉ f.arraySpecific
  present : ppoName ∈ f.unshared → f.arrays.get? ppoName = some .f32

theorem ppoTyped (v : Version) (t : FType) : PpoTyped (formatOf v t) := by
  have h : ∀ {f : Format}, (f.single.get? ppoName = none ∧ (∀ ty ∈ f.arrays.get? ppoName, ty = .f32) ∧
      (∀ ty ∈ f.arrayArrayTypes.get? ppoName, ty = .f32) ∧ ppoName ∉ f.arraySingleTypes.keys ∧
      (ppoName ∉ f.shared → ppoName ∉ f.unshared → ppoName ∉ f.arrayFields) ∧ ppoName ∉ f.arraySpecific ∧
      (ppoName ∈ f.unshared → f.arrays.get? ppoName = some .f32)) → PpoTyped f :=
    fun ⟨a, b, c, d, e, g, i⟩ => ⟨a, b, c, d, e, g, i⟩
  apply h
  cases v <;> cases t <;> decide +kernel

theorem fixed_rec {r r' : Rec} (ht : PpoTyped f) (hc : Coherent f t flat) (hpos : c.Pos) (h : SiteRec f t o c flat r)
    (hpu : ppoName ∈ f.unshared → ∃ a, r.get? (py! "pulses") = some (.arr a) ∧ a.shape = [c.pulses])
    (ho : ppoName ∈ f.unshared → o ≠ .flat) (hf : ppoSiteFix1 r = .ok r') :
    SameButPpo r r' ∧ SiteRec f t (fixedPpo f o) c flat r' := by
  obtain ⟨hb, hx⟩ := ppoSiteFix1_but hf
  refine ⟨hb, ?_⟩
  by_cases hu : ppoName ∈ f.unshared
  · unfold fixedPpo
    rw [if_pos hu]
    refine siteRec_but h hb (fun _ ty hs hty => ?_) ht.single
    have e := ht.arrays ty hty
    subst e
    obtain ⟨a, ha, -, -, has⟩ := h.array ppoName .f32 hu hs hty
    obtain ⟨s, p, ps, h1, h2, h3, h4⟩ := hx _ ha
    obtain ⟨pa, hpa, hps⟩ := hpu hu
    rw [hpa] at h2
    cases h2
    have h3' : ps = [c.pulses] := by rw [← hps]; exact (Except.ok.inj h3).symm
    have h1' : s = a.shape := (Except.ok.inj h1).symm
    have hfl : ppoName ∉ flat := fun c => (flat_arr hc c).1.2.2.2 rfl
    rw [storedShape, if_neg hfl, shapeOf, if_pos rfl] at has
    have hne : s ≠ ps := by
      rw [h1', h3', has]
      unfold Common.Pos at hpos
      cases o with
      | flat => exact absurd rfl (ho hu)
      | perSeq => simp [Ppo.shape]
      | none =>
        intro e
        simp only [Ppo.shape, List.map_cons, List.map_nil, Q.size, List.cons.injEq, and_true] at e
        omega
    rw [if_neg hne] at h4
    refine ⟨_, h4, rfl, ?_, ?_⟩
    · unfold NdArr.WF
      simp
    · rw [storedShape, if_neg hfl]
      exact h3'
  · unfold fixedPpo
    rw [if_neg hu]
    exact siteRec_but h hb (fun c => absurd c hu) ht.single

end Verif.Bor
