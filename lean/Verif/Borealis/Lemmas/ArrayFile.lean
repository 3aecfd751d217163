import Verif.Borealis.Lemmas.ArrayTabled
/-!
# The records of an array file
-/
namespace Verif.Bor
open Verif

variable {f : Format} {g : Group} {A : Rec}

theorem slicedShape_some : ∀ {ls : List Int} {ds : List Nat}, (∃ s, slicedShape ls ds = some s) ↔ ls.length ≤ ds.length
  | [], ds => by simp [slicedShape]
  | _ :: _, [] => by simp [slicedShape]
  | l :: ls, d :: ds => by
    have := @slicedShape_some ls ds
    simp only [List.length_cons, Nat.add_le_add_iff_right]
    rw [← this]
    constructor
    · rintro ⟨s, hs⟩
      obtain ⟨x, hx, -⟩ := Option.map_eq_some_iff.1 hs
      exact ⟨x, hx⟩
    · rintro ⟨s, hs⟩
      exact ⟨_, by rw [slicedShape, hs]; rfl⟩

/-! ## Records with other phase offsets -/

/-- Equal values, or phase offsets of the same type. -/
def NearVal (k : PyStr) (v v' : Val) : Prop :=
  v' = v ∨ k = ppoName ∧ ∃ a a', v = .arr a ∧ v' = .arr a' ∧ a'.ty = a.ty

/-- Two dictionaries with the same fields in the same order, and phase offsets of the same type. -/
def NearRec (r r' : Rec) : Prop :=
  r.keys = r'.keys ∧ ∀ k v, r.get? k = some v → ∃ v', r'.get? k = some v' ∧ NearVal k v v'

theorem NearRec.refl (r : Rec) : NearRec r r := ⟨rfl, fun _ v h => ⟨v, h, .inl rfl⟩⟩

theorem NearRec.but {r r' : Rec} (h : NearRec r r') : SameButPpo r r' := by
  refine ⟨h.1, fun k hk => ?_⟩
  cases hg : r.get? k with
  | some v =>
    obtain ⟨v', h1, rfl | ⟨e, -⟩⟩ := h.2 k v hg
    · exact h1.symm
    · exact absurd e hk
  | none =>
    have := Dict.get?_eq_none_iff.1 hg
    rw [h.1] at this
    exact (Dict.get?_eq_none_iff.2 this).symm

theorem NearRec.set {r r' : Rec} (h : NearRec r r') {k : PyStr} {v v' : Val} (hv : NearVal k v v') :
    NearRec (r.set k v) (r'.set k v') := by
  refine ⟨keys_set _ _ _ _ _ h.1, fun k' w hw => ?_⟩
  by_cases e : k = k'
  · subst e
    rw [Dict.get?_set_self] at hw ⊢
    cases hw
    exact ⟨v', rfl, hv⟩
  · rw [Dict.get?_set_ne _ e] at hw ⊢
    exact h.2 k' w hw

/-- Two lists of entries. -/
inductive EntriesNear : Rec → Rec → Prop
  | nil : EntriesNear [] []
  | cons {k v v' d d'} : NearVal k v v' → EntriesNear d d' → EntriesNear ((k, v) :: d) ((k, v') :: d')

theorem EntriesNear.refl : ∀ d : Rec, EntriesNear d d
  | [] => .nil
  | _ :: d => .cons (.inl rfl) (refl d)

theorem EntriesNear.update {e e' : Rec} (h : EntriesNear e e') : ∀ {d d' : Rec}, NearRec d d' →
    NearRec (Bor.update d e) (Bor.update d' e') := by
  unfold Bor.update
  induction h with
  | nil => exact fun h => h
  | cons hv _ ih => exact fun h => ih (h.set hv)

theorem forFields_near {α : Type} {g g' : PyStr → α → Except Err Val} : ∀ {l : List (PyStr × α)} {r : Rec},
    (∀ p ∈ l, ∀ v, g p.1 p.2 = .ok v → ∃ v', g' p.1 p.2 = .ok v' ∧ NearVal p.1 v v') → forFields g l = .ok r →
    ∃ r', forFields g' l = .ok r' ∧ EntriesNear r r'
  | [], r, _, h => by cases h; exact ⟨[], rfl, .nil⟩
  | (k, x) :: l, r, hg, h => by
    rw [forFields] at h
    obtain ⟨v, hv, h⟩ := bind_ok h
    obtain ⟨s, hs, h⟩ := bind_ok h
    cases h
    obtain ⟨v', hv', hn⟩ := hg (k, x) (List.mem_cons_self ..) v hv
    obtain ⟨s', hs', he⟩ := forFields_near (fun p hp => hg p (List.mem_cons_of_mem _ hp)) hs
    refine ⟨(k, v') :: s', ?_, .cons hn he⟩
    rw [forFields]
    show (do let y ← g' k x; _) = _
    rw [show g' k x = .ok v' from hv']
    show (do let y ← forFields g' l; _) = _
    rw [hs']
    rfl

theorem mapFields_near {h : Val → Except Err Val} : ∀ {ks : List PyStr} {r r' s : Rec}, ppoName ∉ ks → NearRec r r' →
    mapFieldsOf h r ks = .ok s → ∃ s', mapFieldsOf h r' ks = .ok s' ∧ NearRec s s'
  | [], r, r', s, _, hn, hs => by cases hs; exact ⟨r', rfl, hn⟩
  | k :: ks, r, r', s, hp, hn, hs => by
    rw [mapFieldsOf] at hs
    obtain ⟨v, hv, hs⟩ := bind_ok hs
    obtain ⟨w, hw, hs⟩ := bind_ok hs
    have hk : k ≠ ppoName := fun e => hp (by simp [e])
    have hv' : field r' k = .ok v := by
      rw [← hn.but.field hk]
      exact hv
    obtain ⟨s', h1, h2⟩ := mapFields_near (fun c => hp (by simp [c])) (hn.set (k := k) (v := w) (.inl rfl)) hs
    refine ⟨s', ?_, h2⟩
    rw [mapFieldsOf, hv']
    show (do let y ← h v; _) = _
    rw [hw]
    exact h1

/-! ## Fields -/

/-- A dataset of an array file, and the field of a reader. -/
theorem plain_dset {S D : TyTable} (hp : PlainGroup S D g) (hr : readGroup g = .ok A) {k : PyStr} (hk : k ∈ D.keys)
    (hd : k ∉ defaultAttrs) {w : Val} (hw : A.get? k = some w) :
    ∃ d, g.dsets.get? k = some d ∧ d.arr.shape ≠ [] ∧
      ((D.get? k ≠ some .npStr ∧ w = .arr d.arr) ∨
        (D.get? k = some .npStr ∧ ∃ n a, d.itemsize = some n ∧ viewText n d.arr = .ok a ∧ w = .arr a)) := by
  have ha : g.attrs.get? k = none := Dict.get?_eq_none_iff.2 (hp.array k hk)
  obtain ⟨-, h2, h3⟩ := readGroup_get hr hp.nodupA hd
  cases hg : g.dsets.get? k with
  | none =>
    rw [h3 ha hg] at hw
    cases hw
  | some d =>
    obtain ⟨v, hv, hv'⟩ := h2 ha d hg
    rw [hw] at hv'
    cases hv'
    have ht := hp.texts k d hk hg
    unfold readDset at hv
    obtain ⟨a, ha', hv⟩ := bind_ok hv
    obtain ⟨rfl, hs⟩ := Dset.all_ok ha'
    refine ⟨d, rfl, hs, ?_⟩
    cases hi : d.itemsize with
    | none =>
      rw [hi] at hv ht
      cases hv
      exact .inl ⟨fun c => by simpa using ht.2 c, rfl⟩
    | some n =>
      rw [hi] at hv ht
      obtain ⟨b, hb, hv⟩ := bind_ok hv
      cases hv
      exact .inr ⟨ht.1 rfl, n, b, rfl, hb, rfl⟩

theorem Dset.all_eq {d : Dset} (h : d.arr.shape ≠ []) : d.all = .ok d.arr := by
  unfold Dset.all
  split
  · rename_i e
    exact absurd e h
  · rfl

/-- An attribute of an array file, and the field of a reader. -/
theorem plain_attr {S D : TyTable} (hp : PlainGroup S D g) (hr : readGroup g = .ok A) {k : PyStr} (hk : k ∈ S.keys)
    (hd : k ∉ defaultAttrs) {w : Val} (hw : A.get? k = some w) :
    ∃ a, g.attrs.get? k = some a ∧ loadAttr a = .ok w := by
  have hds : g.dsets.get? k = none := Dict.get?_eq_none_iff.2 (hp.scalar k hk)
  obtain ⟨h1, -, h3⟩ := readGroup_get hr hp.nodupA hd
  cases hg : g.attrs.get? k with
  | none =>
    rw [h3 hg hds] at hw
    cases hw
  | some a =>
    obtain ⟨v, hv, hv'⟩ := h1 a hg
    rw [hw] at hv'
    cases hv'
    refine ⟨a, rfl, ?_⟩
    obtain ⟨ty, hty⟩ := Dict.mem_keys_iff.1 hk
    by_cases hs : ty = .str
    · subst hs
      obtain ⟨b, rfl⟩ := hp.text k hty a hg
      exact hv
    · obtain ⟨v, rfl⟩ := hp.value k ty hty hs a hg
      exact hv

variable (ht : ArrayTabled f) (hp : PlainGroup f.arraySingleTypes (datasetTypes f) g) (hr : readGroup g = .ok A)
include ht hp hr

theorem plainS {k : PyStr} (hk : k ∈ f.arraySingleTypes.keys) {w : Val} (hw : A.get? k = some w) :
    ∃ a, g.attrs.get? k = some a ∧ loadAttr a = .ok w :=
  plain_attr hp hr hk (ht.plain k (List.mem_append_left _ hk)) hw

theorem plainD {k : PyStr} (hk : k ∈ (datasetTypes f).keys) {w : Val} (hw : A.get? k = some w) :
    ∃ d, g.dsets.get? k = some d ∧ d.arr.shape ≠ [] ∧
      (((datasetTypes f).get? k ≠ some .npStr ∧ w = .arr d.arr) ∨
        ((datasetTypes f).get? k = some .npStr ∧ ∃ n a, d.itemsize = some n ∧ viewText n d.arr = .ok a ∧ w = .arr a)) :=
  plain_dset hp hr hk (ht.plain k (List.mem_append_right _ hk)) hw

theorem numericD {k : PyStr} (hk : isNumeric f k = true) {w : Val} (hw : A.get? k = some w) :
    ∃ d, g.dsets.get? k = some d ∧ d.arr.shape ≠ [] ∧ w = .arr d.arr := by
  unfold isNumeric at hk
  simp only [Bool.and_eq_true, List.contains_eq_mem, decide_eq_true_eq, bne_iff_ne] at hk
  obtain ⟨d, h1, h2, ⟨-, h3⟩ | ⟨h3, -⟩⟩ := plainD ht hp hr hk.1 hw
  · exact ⟨d, h1, h2, h3⟩
  · exact absurd h3 hk.2

theorem sharedOfFile_eq {k : PyStr} (hk : k ∈ f.shared) (hA : k ∈ A.keys) : sharedOfFile f g k = field A k := by
  obtain ⟨w, hw⟩ := Dict.mem_keys_iff.1 hA
  rw [field_ok hw]
  unfold sharedOfFile
  by_cases hs : k ∈ f.siteSingleTypes.keys
  · rw [if_pos hs]
    obtain ⟨a, h1, h2⟩ := plainS ht hp hr (ht.sharedSingle k hk hs) hw
    rw [field_ok h1]
    exact h2
  · rw [if_neg hs]
    obtain ⟨h1, h2⟩ := ht.sharedArray k hk hs
    obtain ⟨d, hd, hsh, ⟨h3, rfl⟩ | ⟨h3, n, a, hn, ha, rfl⟩⟩ := plainD ht hp hr h1 hw
    · rw [if_neg fun c => h3 (h2.1 c), field_ok hd]
      show (do .ok (.arr (← d.all)) : Except Err Val) = _
      rw [Dset.all_eq hsh]
      rfl
    · rw [if_pos (h2.2 h3)]
      unfold textDset
      rw [field_ok hd]
      simp only [bind, Except.bind, hn, Dset.all_eq hsh, ha]

theorem singlesOfFile_eq {k : PyStr} (hk : k ∈ f.unshared) (hs : k ∈ f.single.keys) (hA : k ∈ A.keys) :
    singlesOfFile f g k = field A k := by
  obtain ⟨w, hw⟩ := Dict.mem_keys_iff.1 hA
  rw [field_ok hw]
  unfold singlesOfFile
  obtain ⟨h1, h2⟩ := ht.single k hk hs
  obtain ⟨d, hd, hsh, ⟨h3, rfl⟩ | ⟨h3, n, a, hn, ha, rfl⟩⟩ := plainD ht hp hr h1 hw
  · rw [if_neg fun c => h3 (h2.1 c), field_ok hd]
    show (do .ok (.arr (← d.all)) : Except Err Val) = _
    rw [Dset.all_eq hsh]
    rfl
  · rw [if_pos (h2.2 h3)]
    unfold textDset
    rw [field_ok hd]
    simp only [bind, Except.bind, hn, Dset.all_eq hsh, ha]

/-! ## Dimensions -/

theorem rootDsets_field {k : PyStr} (hk : isNumeric f k = true) (hA : k ∈ A.keys) :
    field (rootDsets g) k = field A k := by
  obtain ⟨w, hw⟩ := Dict.mem_keys_iff.1 hA
  obtain ⟨d, h1, -, rfl⟩ := numericD ht hp hr hk hw
  rw [field_ok hw]
  apply field_ok
  unfold rootDsets
  rw [get?_mapValues fun d : Dset => Val.arr d.arr, h1]
  rfl

variable (hA : ∀ k ∈ f.arrayFields, k ∈ A.keys)
include hA

theorem goodDim_eq {d : DimS} (hd : goodDim f d = true) (i : Nat) : evalDimS (rootDsets g) i d = evalDimS A i d := by
  unfold goodDim at hd
  rw [Bool.and_eq_true, List.all_eq_true] at hd
  have h : ∀ k ∈ d.fields, field (rootDsets g) k = field A k := by
    intro k hk
    have := hd.1 k hk
    simp only [Bool.and_eq_true, List.contains_eq_mem, decide_eq_true_eq] at this
    exact rootDsets_field ht hp hr this.1 (hA k this.2)
  cases d with
  | elem k => rw [evalDimS, evalDimS, h k (by simp [DimS.fields])]
  | shape k j => rw [evalDimS, evalDimS, h k (by simp [DimS.fields])]
  | lenElem k => rfl
  | ppo => rw [evalDimS, evalDimS, h ppoName (by simp [DimS.fields]), h (py! "num_sequences") (by simp [DimS.fields])]

theorem goodDims_eq (i : Nat) : ∀ {l : List DimS}, (∀ d ∈ l, goodDim f d = true) →
    evalSiteDims (rootDsets g) i l = evalSiteDims A i l
  | [], _ => rfl
  | d :: l, h => by
    rw [evalSiteDims, evalSiteDims, goodDim_eq ht hp hr hA (h d (by simp)),
      goodDims_eq i fun d hd => h d (by simp [hd])]

theorem evalGenS_eq (i : Nat) {p : PyStr × GenS} (h : p ∈ f.genSite) :
    evalGenS (rootDsets g) i p.2 = evalGenS A i p.2 := by
  have := ht.gen p h
  revert this
  cases p.2 with
  | const t l => exact fun _ => rfl
  | dims l =>
    intro this
    rw [evalGenS, evalGenS, goodDims_eq ht hp hr hA i (l := l) this]

omit hA hr hp ht in
theorem elemInt_mem {v : Val} {i : Nat} {n : Int} (h : v.elemInt i = .ok n) : ∃ a, v = .arr a ∧ .int n ∈ a.data := by
  unfold Val.elemInt at h
  split at h
  · rename_i a
    split at h
    · split at h
      · rename_i j hj
        cases h
        refine ⟨a, rfl, ?_⟩
        unfold NdArr.get? at hj
        split at hj
        · exact List.mem_of_getElem? hj
        · cases hj
      · cases h
      · cases h
    · cases h
  · cases h

variable (hn : ∀ k ∈ countFields, ∀ a, A.get? k = some (.arr a) → ∀ n, .int n ∈ a.data → 0 ≤ n)
include hn

omit hA hp hr ht in
/-- Dimensions that are not those of phase offsets are not negative. -/
theorem dims_nonneg {i : Nat} : ∀ {l : List DimS} {ls : List Int}, (∀ d ∈ l, goodDim f d = true) → DimS.ppo ∉ l →
    evalSiteDims A i l = .ok ls → ∀ n ∈ ls, 0 ≤ n
  | [], ls, _, _, h => by cases h; simp
  | d :: l, ls, hg, hp, h => by
    rw [evalSiteDims] at h
    obtain ⟨x, hx, h⟩ := bind_ok h
    obtain ⟨xs, hxs, h⟩ := bind_ok h
    cases h
    have ih := dims_nonneg (fun d hd => hg d (by simp [hd])) (fun c => hp (by simp [c])) hxs
    intro n hm
    rcases List.mem_append.1 hm with hm | hm
    · have hd := hg d (by simp)
      cases d with
      | elem k =>
        obtain ⟨v, hv, hx⟩ := bind_ok hx
        obtain ⟨m, hm', hx⟩ := bind_ok hx
        cases hx
        obtain ⟨a, rfl, ha⟩ := elemInt_mem hm'
        simp only [List.mem_singleton] at hm
        subst hm
        unfold goodDim at hd
        simp only [Bool.and_eq_true, List.contains_eq_mem, decide_eq_true_eq] at hd
        exact hn k hd.2 a (field_iff.1 hv) _ ha
      | shape k j =>
        obtain ⟨v, hv, hx⟩ := bind_ok hx
        obtain ⟨m, hm', hx⟩ := bind_ok hx
        cases hx
        simp only [List.mem_singleton] at hm
        subst hm
        exact Int.natCast_nonneg _
      | lenElem k => cases hx
      | ppo => exact absurd (by simp) hp
    · exact ih n hm

/-- The fields that are not phase offsets. -/
theorem siteFieldOfFile_eq (i : Nat) {p : PyStr × List DimS} (h : p ∈ f.dimsSite) (hu : p.1 ∈ f.unshared)
    (hf : p.1 ∈ A.keys) (hpp : p.1 ≠ ppoName) :
    siteFieldOfFile f g i p.1 p.2 = siteField f A i p.1 p.2 := by
  unfold siteFieldOfFile siteField
  cases hs : f.single.get? p.1 with
  | some t =>
    simp only
    rw [singlesOfFile_eq ht hp hr hu (Dict.mem_keys_iff.2 ⟨_, hs⟩) hf]
  | none =>
    simp only
    obtain ⟨h1, h2⟩ := ht.array p.1 hu (Dict.get?_eq_none_iff.1 hs)
    obtain ⟨ty, hty⟩ := Dict.mem_keys_iff.1 h1
    obtain ⟨w, hw⟩ := Dict.mem_keys_iff.1 hf
    obtain ⟨d, hd, -, rfl⟩ := numericD ht hp hr h2 hw
    have hdim := ht.dims p h
    rw [goodDims_eq ht hp hr hA i hdim, field_ok hty, field_ok hw, field_ok hd]
    simp only [bind, Except.bind]
    cases he : evalSiteDims A i p.2 with
    | error e => rfl
    | ok ls =>
      have hnn := dims_nonneg hn hdim (ht.ppo p h hpp) he
      have : ls.filter (· ≠ -1) = ls := by
        rw [List.filter_eq_self]
        intro n hm
        have := hnn n hm
        simp only [decide_eq_true_eq]
        omega
      simp only [this]

omit hn in
/-- The phase offsets of each record. -/
theorem ppoOfFile (i : Nat) (hs : f.single.get? ppoName = none) (hu : ppoName ∈ f.unshared) (hf : ppoName ∈ A.keys)
    (hg : goodDim f .ppo = true) {v : Val} (hv : siteField f A i ppoName [.ppo] = .ok v) :
    ∃ a a', v = .arr a ∧ siteFieldOfFile f g i ppoName [.ppo] = .ok (.arr a') ∧ a'.ty = a.ty := by
  unfold siteField at hv
  unfold siteFieldOfFile
  rw [hs] at hv ⊢
  simp only at hv ⊢
  obtain ⟨-, h2⟩ := ht.array ppoName hu (Dict.get?_eq_none_iff.1 hs)
  obtain ⟨w, hw⟩ := Dict.mem_keys_iff.1 hf
  obtain ⟨d, hd, -, rfl⟩ := numericD ht hp hr h2 hw
  obtain ⟨_, -, hv⟩ := bind_ok hv
  obtain ⟨ls, hls, hv⟩ := bind_ok hv
  obtain ⟨x, hx, hv⟩ := bind_ok hv
  rw [field_ok hw] at hx
  cases hx
  obtain ⟨a, ha, hv⟩ := bind_ok hv
  cases hv
  rw [goodDims_eq ht hp hr hA i (l := [.ppo]) (by simpa using hg), hls, field_ok hd]
  simp only [bind, Except.bind]
  unfold getRow at ha ⊢
  cases hsh : d.arr.shape with
  | nil => rw [hsh] at ha; cases ha
  | cons n ds =>
    rw [hsh] at ha
    simp only at ha ⊢
    split at ha
    · rename_i hi
      split at ha
      · cases ha
      · rename_i s hsl
        cases ha
        rw [if_pos hi]
        have : ∃ s', slicedShape (ls.filter (· ≠ -1)) ds = some s' := by
          refine slicedShape_some.2 (Nat.le_trans (List.length_filter_le ..) (slicedShape_some.1 ⟨s, hsl⟩))
        obtain ⟨s', hs'⟩ := this
        rw [hs']
        exact ⟨_, _, rfl, rfl, rfl⟩
    · cases ha

/-! ## Records -/

/-- A record of the file, if the phase offsets are the same. -/
theorem recordOfFile_eq (i : Nat) (hU : f.dimsSite.keys ⊆ f.unshared)
    (hpp : ∀ p ∈ f.dimsSite, p.1 = ppoName → siteFieldOfFile f g i p.1 p.2 = siteField f A i p.1 p.2) :
    recordOfFile f g i = siteRecord f A i := by
  unfold recordOfFile siteRecord
  have h1 : forFields (fun k (_ : Unit) => sharedOfFile f g k) (f.shared.map fun k => (k, ())) =
      forFields (fun k (_ : Unit) => field A k) (f.shared.map fun k => (k, ())) := by
    apply forFields_congr
    intro p hm
    obtain ⟨k, hk, rfl⟩ := List.mem_map.1 hm
    exact sharedOfFile_eq ht hp hr hk (hA k (by simp [Format.arrayFields, hk]))
  have h2 : forFields (fun _ g' => evalGenS (rootDsets g) i g') f.genSite = forFields (fun _ g' => evalGenS A i g') f.genSite :=
    forFields_congr fun p hm => evalGenS_eq ht hp hr hA i hm
  have h3 : forFields (fun k dims => siteFieldOfFile f g i k dims) f.dimsSite =
      forFields (fun k dims => siteField f A i k dims) f.dimsSite := by
    apply forFields_congr
    intro p hm
    by_cases e : p.1 = ppoName
    · exact hpp p hm e
    · have hu := hU (List.mem_map.2 ⟨p, hm, rfl⟩)
      exact siteFieldOfFile_eq ht hp hr hA hn i hm hu (hA _ (by simp [Format.arrayFields, hu])) e
  rw [h1, h2, h3]

/-- A record of the file. -/
theorem recordOfFile_near (i : Nat) (hU : f.dimsSite.keys ⊆ f.unshared) (hN : f.dimsSite.NodupKeys)
    (hs : f.single.get? ppoName = none) {r : Rec} (h : siteRecord f A i = .ok r) :
    ∃ r', recordOfFile f g i = .ok r' ∧ NearRec r r' := by
  unfold siteRecord at h
  obtain ⟨e1, h1, h⟩ := bind_ok h
  obtain ⟨e2, h2, h⟩ := bind_ok h
  obtain ⟨e3, h3, h⟩ := bind_ok h
  cases h
  have k1 : forFields (fun k (_ : Unit) => sharedOfFile f g k) (f.shared.map fun k => (k, ())) = .ok e1 := by
    rw [← h1]
    apply forFields_congr
    intro p hm
    obtain ⟨k, hk, rfl⟩ := List.mem_map.1 hm
    exact sharedOfFile_eq ht hp hr hk (hA k (by simp [Format.arrayFields, hk]))
  have k2 : forFields (fun _ g' => evalGenS (rootDsets g) i g') f.genSite = .ok e2 := by
    rw [← h2]
    exact forFields_congr fun p hm => evalGenS_eq ht hp hr hA i hm
  obtain ⟨e3', k3, k4⟩ := forFields_near (g' := fun k dims => siteFieldOfFile f g i k dims) (by
    intro p hm v hv
    have hu := hU (List.mem_map.2 ⟨p, hm, rfl⟩)
    have hf : p.1 ∈ A.keys := hA _ (by simp [Format.arrayFields, hu])
    by_cases e : p.1 = ppoName
    · obtain ⟨k, l⟩ := p
      subst e
      have hl := Dict.get?_of_mem hN hm
      rcases ht.ppoDims with c | c
      · rw [c] at hl
        cases hl
      · rw [c] at hl
        cases hl
        obtain ⟨a, a', rfl, h2, h3⟩ := ppoOfFile ht hp hr hA i hs hu hf (ht.dims _ hm _ (by simp)) hv
        exact ⟨_, h2, .inr ⟨rfl, a, a', rfl, rfl, h3⟩⟩
    · exact ⟨v, by rw [← hv]; exact siteFieldOfFile_eq ht hp hr hA hn i hm hu hf e, .inl rfl⟩) h3
  refine ⟨Bor.update (Bor.update (Bor.update [] e1) e2) e3', ?_, k4.update (.refl _)⟩
  unfold recordOfFile
  rw [k1, k2, k3]
  rfl

end Verif.Bor
