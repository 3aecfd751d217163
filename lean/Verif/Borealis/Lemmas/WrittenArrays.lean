import Verif.Borealis.Lemmas.WrittenFiles
import Verif.Borealis.Props.FileRestructureSite
/-!
# Array files of records of a slice
-/
namespace Verif.Bor
open Verif

variable {h : H5Cfg} {comp : Option PyStr} {v : Version} {t : FType} {o : Ppo} {c : Common}
  {tkey : Elt → Except Err PyStr}

/-- How the tables of arrays follow from the lists of fields. -/
structure ArrayTables (f : Format) : Prop where
  single : ∀ p ∈ f.arraySingleTypes, p.1 ∈ f.shared ∧ p.1 ∉ f.unshared ∧ p ∈ f.siteSingleTypes
  shared : ∀ p ∈ f.arrayArrayTypes, p.1 ∉ f.unshared → p.1 ∈ f.shared → p ∈ f.siteArrayTypes ∧ p.2 ≠ .str
  scalar : ∀ k ∈ f.unshared, ∀ ty ∈ f.single.get? k, f.arrayArrayTypes.get? k = some ty ∧ (ty ≠ .str → ty ≠ .npStr)
  array : ∀ k ∈ f.unshared, f.single.get? k = none →
    ∃ ty, f.arrays.get? k = some ty ∧ f.arrayArrayTypes.get? k = some ty ∧ ty ≠ .npStr ∧ ty ≠ .str
  lens : ∀ p ∈ f.genArray, ∀ k', p.2 = .lens k' → f.arrayArrayTypes.get? p.1 = some .u32
  consts : ∀ p ∈ f.genArray, ∀ ty l, p.2 = .const ty l → p.1 ∈ descriptorFields ∧ (ty = .npStr → ∀ s ∈ l, NoNulEnd s) ∧
    ∃ ty', f.arrayArrayTypes.get? p.1 = some ty' ∧ (ty = ty' ∨ ty = .npStr)
  known : ∀ k, k ∈ f.arraySingleTypes.keys ++ f.arrayArrayTypes.keys → k ∈ f.arrayFields
  listed : ∀ k ∈ f.arrayFields, k ∈ f.arraySingleTypes.keys ++ f.arrayArrayTypes.keys
  sharedS : ∀ k ∈ f.shared, k ∉ f.unshared → k ∈ f.siteSingleTypes.keys → k ∈ f.arraySingleTypes.keys
  counts : ∀ k ∈ countFields, k ∉ f.shared ∧ (k ∈ f.unshared → k = py! "num_sequences")

/-- `ArrayTables` for a decision procedure. -/
def arrayTablesB (f : Format) : Bool :=
  decide (∀ p ∈ f.arraySingleTypes, p.1 ∈ f.shared ∧ p.1 ∉ f.unshared ∧ p ∈ f.siteSingleTypes) &&
  decide (∀ p ∈ f.arrayArrayTypes, p.1 ∉ f.unshared → p.1 ∈ f.shared → p ∈ f.siteArrayTypes ∧ p.2 ≠ .str) &&
  decide (∀ k ∈ f.unshared, ∀ ty ∈ f.single.get? k, f.arrayArrayTypes.get? k = some ty ∧ (ty ≠ .str → ty ≠ .npStr)) &&
  (f.unshared.all fun k => match f.single.get? k, f.arrays.get? k with
    | none, some ty => decide (f.arrayArrayTypes.get? k = some ty ∧ ty ≠ .npStr ∧ ty ≠ .str)
    | none, none => false
    | some _, _ => true) &&
  (f.genArray.all fun p => match p.2, f.arrayArrayTypes.get? p.1 with
    | .lens _, some ty => decide (ty = .u32)
    | .const ty l, some ty' => decide (p.1 ∈ descriptorFields ∧ (ty = .npStr → ∀ s ∈ l, s.getLast? ≠ some '\x00') ∧
        (ty = ty' ∨ ty = .npStr))
    | _, none => false) &&
  decide (∀ k ∈ f.arraySingleTypes.keys ++ f.arrayArrayTypes.keys, k ∈ f.arrayFields) &&
  decide (∀ k ∈ f.arrayFields, k ∈ f.arraySingleTypes.keys ++ f.arrayArrayTypes.keys) &&
  decide (∀ k ∈ f.shared, k ∉ f.unshared → k ∈ f.siteSingleTypes.keys → k ∈ f.arraySingleTypes.keys) &&
  decide (∀ k ∈ countFields, k ∉ f.shared ∧ (k ∈ f.unshared → k = py! "num_sequences"))

theorem arrayTablesB_sound {f : Format} (hb : arrayTablesB f = true) : ArrayTables f := by
  unfold arrayTablesB at hb
  simp only [Bool.and_eq_true, decide_eq_true_eq] at hb
  obtain ⟨⟨⟨⟨⟨⟨⟨⟨h1, h2⟩, h3⟩, h4⟩, h5⟩, h6⟩, h7⟩, h8⟩, h9⟩ := hb
  have h4 := List.all_eq_true.1 h4
  have h5 := List.all_eq_true.1 h5
  refine ⟨h1, h2, h3, ?_, ?_, ?_, h6, h7, h8, h9⟩
  · intro k hk hs
    have := h4 k hk
    rw [hs] at this
    cases ha : f.arrays.get? k with
    | none => rw [ha] at this; cases this
    | some ty =>
      rw [ha] at this
      exact ⟨ty, rfl, of_decide_eq_true this⟩
  · intro p hp k' hl
    have := h5 p hp
    rw [hl] at this
    cases ha : f.arrayArrayTypes.get? p.1 with
    | none => rw [ha] at this; cases this
    | some ty =>
      rw [ha] at this
      rw [of_decide_eq_true this]
  · intro p hp ty l hl
    have := h5 p hp
    rw [hl] at this
    cases ha : f.arrayArrayTypes.get? p.1 with
    | none => rw [ha] at this; cases this
    | some ty' =>
      rw [ha] at this
      obtain ⟨x, y, z⟩ := of_decide_eq_true this
      exact ⟨x, y, ty', rfl, z⟩

theorem arrayTables (v : Version) (t : FType) (ht : t ≠ .rawrf) : ArrayTables (formatOf v t) := by
  refine arrayTablesB_sound ?_
  cases v <;> cases t <;> first | exact absurd rfl ht | decide +kernel

/-- An array that restructuring makes of a field that is not shared. -/
structure StackedField (f : Format) (N : Nat) (k : PyStr) (a : NdArr) : Prop where
  kept : KeptArray a
  records : k ∈ f.unshared → ∃ ds, a.shape = N :: ds
  own : k ∈ f.unshared ∨ k ∉ f.shared
  ty : ∃ ty, f.arrayArrayTypes.get? k = some ty ∧ (a.ty = arrayTy ty ∨ k ∈ descriptorFields) ∧
    (a.ty = ty ∨ a.ty = .npStr)
  counts : k ∈ countFields → ∀ n, .int n ∈ a.data → 0 ≤ n

theorem scalar_data {rs : Records} {k : PyStr} {ty : Ty} {a : NdArr} (hs : ScalarStack rs k ty a) {e : Elt}
    (he : e ∈ a.data) : ∃ p ∈ rs, ∃ w, p.2.get? k = some w ∧ e = scalarElt w := by
  obtain ⟨-, hw, hsh, hel⟩ := hs
  obtain ⟨j, hj, rfl⟩ := List.getElem_of_mem he
  have hl : a.data.length = rs.length := by
    rw [hw, hsh]
    simp [prod]
  have hj' : j < rs.length := by omega
  obtain ⟨w, h1, h2⟩ := hel j hj'
  refine ⟨rs[j], List.getElem_mem _, w, h1, ?_⟩
  rw [← h2]
  have hb : inBounds a.shape [j] = true := by rw [hsh]; simp [inBounds, hj']
  have := NdArr.get?_eq_some_get hw hb
  unfold NdArr.get? at this
  rw [if_pos hb, hsh] at this
  simp only [ravel, prod, Nat.mul_one, Nat.add_zero] at this
  rw [List.getElem?_eq_getElem hj] at this
  exact Option.some.inj this

theorem constElt_npStr {e : Elt} {l : List PyStr} (he : e ∈ l.map (constElt .npStr)) : ∃ s ∈ l, e = .str s := by
  obtain ⟨s, hs, rfl⟩ := List.mem_map.1 he
  exact ⟨s, hs, by simp [constElt]⟩

/-- What the fields of the arrays are. -/
theorem stacked_field {f : Format} {flat : List PyStr} {rs' : Records} {A : Rec} (hc : Coherent f t flat)
    (hT : ArrayTables f) (hrs : SiteRecords f t o c [] rs') (hst : Stacked f t o c rs' A) {k : PyStr} {w : Val}
    (hw : Holds A k w) :
    (k ∈ f.shared ∧ k ∉ f.unshared ∧ ∀ p, rs'[0]? = some p → Holds p.2 k w) ∨
      ∃ a, w = .arr a ∧ StackedField f rs'.length k a := by
  have hk := (hst.keys k).1 (Dict.mem_keys_iff.2 ⟨w, hw⟩)
  by_cases hu : k ∈ f.unshared
  · right
    cases hs : f.single.get? k with
    | some ty =>
      obtain ⟨a, ha, hsk⟩ := hst.scalar k ty hu hs
      rw [Holds, ha] at hw
      cases hw
      obtain ⟨ht1, ht2⟩ := hT.scalar k hu ty hs
      obtain ⟨hty, hwf, hsh, -⟩ := id hsk
      refine ⟨a, rfl, ⟨hwf, by rw [hsh]; simp, ?_⟩, fun _ => ⟨[], hsh⟩, .inl hu, ⟨ty, ht1, .inl hty, ?_⟩, ?_⟩
      · intro hn e he
        have hstr : ty = .str := Classical.byContradiction fun hne => by
          rw [hty] at hn
          unfold arrayTy at hn
          rw [if_neg hne] at hn
          exact ht2 hne hn
        obtain ⟨p, hp, w, hw, rfl⟩ := scalar_data hsk he
        obtain ⟨w', hw', hok⟩ := (hrs.recs p hp).scalar k ty hu hs
        rw [hw] at hw'
        cases hw'
        unfold ScalarOK at hok
        rw [if_pos hstr] at hok
        obtain ⟨s, rfl, -, hnul⟩ := hok
        exact ⟨s, rfl, hnul⟩
      · rw [hty]
        unfold arrayTy
        split
        · exact .inr rfl
        · exact .inl rfl
      · intro hcount n hn
        obtain ⟨p, hp, w, hw, he⟩ := scalar_data hsk hn
        have hkn := (hT.counts k hcount).2 hu
        subst hkn
        obtain ⟨m, -, hm⟩ := (hrs.recs p hp).seqs
        rw [hw] at hm
        cases hm
        cases he
        exact Int.natCast_nonneg m
    | none =>
      obtain ⟨ty, h1, h2, h3, h4⟩ := hT.array k hu hs
      obtain ⟨a, ha, hty, hwf, hsh, -⟩ := hst.array k ty hu hs h1
      rw [Holds, ha] at hw
      cases hw
      refine ⟨a, rfl, ⟨hwf, by rw [hsh]; simp, fun hn => absurd (hty ▸ hn) h3⟩, fun _ => ⟨_, hsh⟩, .inl hu,
        ⟨ty, h2, .inl ?_, .inl hty⟩, ?_⟩
      · rw [hty]; unfold arrayTy; rw [if_neg h4]
      · intro hcount
        rw [(hT.counts k hcount).2 hu, hc.seqs.1] at hs
        cases hs
  · by_cases hsd : k ∈ f.shared
    · left
      refine ⟨hsd, hu, fun p hp => ?_⟩
      rw [Holds, ← hst.shared p hp k hsd hu]
      exact hw
    · right
      have hg : k ∈ f.genArray.keys := by
        unfold Format.arrayFields at hk
        simp only [List.mem_append, hu, hsd, false_or] at hk
        exact hk
      obtain ⟨g, hg⟩ := Dict.mem_keys_iff.1 hg
      cases g with
      | lens k' =>
        have ha := hst.lens k k' hg
        rw [Holds, ha] at hw
        cases hw
        refine ⟨_, rfl, ⟨by simp [prod], by simp, fun hn => by cases hn⟩, fun c => absurd c hu, .inr hsd,
          ⟨.u32, hT.lens _ (Dict.mem_of_get? hg) k' rfl, .inl rfl, .inl rfl⟩, ?_⟩
        intro _ n hn
        obtain ⟨m, -, hm⟩ := List.mem_map.1 hn
        cases hm
        exact Int.natCast_nonneg m
      | const ty l =>
        have ha := hst.consts k ty l hg
        rw [Holds, ha] at hw
        cases hw
        obtain ⟨h1, h2, ty', h3, h4⟩ := hT.consts _ (Dict.mem_of_get? hg) ty l rfl
        refine ⟨_, rfl, ⟨by simp [prod], by simp, ?_⟩, fun c => absurd c hu, .inr hsd, ⟨ty', h3, ?_, h4⟩, ?_⟩
        · intro hn e he
          have hn : ty = .npStr := hn
          subst hn
          obtain ⟨s, hs, rfl⟩ := constElt_npStr he
          exact ⟨s, rfl, h2 rfl s hs⟩
        · exact .inr h1
        · intro _ n hn
          obtain ⟨s, -, hs⟩ := List.mem_map.1 hn
          unfold constElt at hs
          split at hs <;> cases hs

/-- The arrays of records of a slice. -/
structure SliceArrays (v : Version) (t : FType) (A : Rec) : Prop where
  dict : A.NodupKeys
  check : checkArrays (formatOf v t).arraySingleTypes (formatOf v t).arrayArrayTypes (formatOf v t).unshared A = .ok ()
  kept : KeptRec (formatOf v t).arrayArrayTypes A
  ascii : AsciiRec A
  texts : ∀ k e, ¬ Holds A k (.np .str e)
  pair : PpoNoPair A
  counts : ∀ k ∈ countFields, ∀ a, A.get? k = some (.arr a) → ∀ n, .int n ∈ a.data → 0 ≤ n
  types : ∀ k ty, (k, ty) ∈ (formatOf v t).arrayArrayTypes → ∀ w, Holds A k w →
    ∃ a, w = .arr a ∧ (a.ty = arrayTy ty ∨ k ∈ descriptorFields)

theorem SliceRecords.sliceArrays {F : H5} {rs : Records} {A : Rec} (hs : SliceRecords tkey v t o c rs) (ht : t ≠ .rawrf)
    (hp : PlainSite v t o c F rs) (hA : siteToArray (formatOf v t) rs = .ok A) : SliceArrays v t A := by
  have hc := coherent v t ht
  have hT := arrayTables v t ht
  obtain ⟨good, hu⟩ := C34_array_tables v t ht
  obtain ⟨rs', A', hA', hall, hrs', hst⟩ := siteToArray_ok hc hs.slice
  rw [hA] at hA'
  cases hA'
  have hl : 0 < rs'.length := List.length_pos_iff.2 hrs'.nonempty
  have hl0 : 0 < rs.length := by rw [← hall.length]; exact hl
  have hm0 : rs[0] ∈ rs := List.getElem_mem hl0
  have field : ∀ k w, Holds A k w →
      (k ∈ (formatOf v t).shared ∧ k ∉ (formatOf v t).unshared ∧ Holds rs[0].2 k w) ∨
        ∃ a, w = .arr a ∧ StackedField (formatOf v t) rs'.length k a := by
    intro k w hw
    rcases stacked_field hc hT hrs' hst hw with ⟨h1, h2, h3⟩ | h1
    · refine .inl ⟨h1, h2, ?_⟩
      have h4 := h3 rs'[0] (List.getElem?_eq_getElem hl)
      have hfl : k ∉ flatFields v t := fun c => (flat_arr hc c).2.2.1 h1
      rw [Holds, (hall.recs 0 hl0 hl).same _ hfl] at h4
      exact h4
    · exact .inr h1
  have nS : (formatOf v t).arraySingleTypes.NodupKeys := (List.nodup_append.1 good.nodup).1
  have nD : (formatOf v t).arrayArrayTypes.NodupKeys := (List.nodup_append.1 good.nodup).2.1
  have types : ∀ k ty, (k, ty) ∈ (formatOf v t).arrayArrayTypes → ∀ w, Holds A k w →
      ∃ a, w = .arr a ∧ (a.ty = arrayTy ty ∨ k ∈ descriptorFields) ∧ (a.ty = ty ∨ a.ty = .npStr) := by
    intro k ty hm w hw
    rcases field k w hw with ⟨h1, h2, h3⟩ | ⟨a, rfl, hk⟩
    · obtain ⟨hm', hne⟩ := hT.shared _ hm h2 h1
      have : IsArray ty w :=
        Classical.byContradiction fun hno => (hs.types _ hm0).typed k ty (.inr ⟨hm', w, h3, hno⟩)
      cases w with
      | arr a =>
        have e : a.ty = ty := this
        exact ⟨a, rfl, .inl (by rw [e, arrayTy, if_neg hne]), .inl e⟩
      | py _ _ => exact this.elim
      | np _ _ => exact this.elim
    · obtain ⟨ty', h1, h2, h3⟩ := hk.ty
      rw [Dict.get?_of_mem nD hm] at h1
      cases h1
      exact ⟨a, rfl, h2, h3⟩
  refine ⟨siteToArray_nodup hA, ?_, ?_, ?_, ?_, ?_, ?_, fun k ty hm w hw => ?_⟩
  · refine (checkArrays_ok_iff good hu A).2 ⟨⟨?_, ?_, ?_⟩, rs'.length, ?_⟩
    · intro k hmiss
      refine hmiss.2 (Dict.mem_keys_iff.1 ((hst.keys k).2 (hT.known k ?_)))
      exact List.mem_append.2 (hmiss.1.imp listed_iff.1 listed_iff.1)
    · intro k hx
      refine hx.2 ?_
      have := hT.listed k ((hst.keys k).1 (Dict.mem_keys_iff.2 hx.1))
      exact (List.mem_append.1 this).imp listed_iff.2 listed_iff.2
    · rintro k ty (⟨hm, w, hw, hno⟩ | ⟨hm, w, hw, hno⟩)
      · obtain ⟨h1, h2, h3⟩ := hT.single _ hm
        rcases field k w hw with ⟨-, -, h4⟩ | ⟨a, rfl, hk⟩
        · exact hno (conforms_scalar (hs.types _ hm0) h3 h4)
        · exact hk.own.elim h2 fun c => c h1
      · obtain ⟨a, rfl, -, h3⟩ := types k ty hm w hw
        exact hno (h3.imp id .inl)
    · intro k hk
      have hkA : k ∈ A.keys := (hst.keys k).2 (by simp [Format.arrayFields, hk])
      obtain ⟨w, hw⟩ := Dict.mem_keys_iff.1 hkA
      refine ⟨w, hw, ?_⟩
      rcases field k w hw with ⟨-, h2, -⟩ | ⟨a, rfl, hf⟩
      · exact absurd hk h2
      · exact hf.records hk
  · intro k w hw
    refine ⟨?_, ?_⟩
    · rcases field k w hw with ⟨-, -, h3⟩ | ⟨a, rfl, hf⟩
      · exact (hs.kept _ hm0 k w h3).1
      · exact hf.kept
    · rintro ⟨ty, hm⟩
      obtain ⟨a, h1, -⟩ := types k ty hm w hw
      exact ⟨a, h1⟩
  · intro k ty e hw
    rcases field k _ hw with ⟨-, -, h3⟩ | ⟨a, h1, -⟩
    · exact hs.ascii _ hm0 k ty e h3
    · cases h1
  · intro k e hw
    rcases field k _ hw with ⟨-, -, h3⟩ | ⟨a, h1, -⟩
    · exact hs.texts _ hm0 k e h3
    · cases h1
  · intro w hw
    obtain ⟨a, rfl, -, h2⟩ := siteToArray_ppo hp ht hA (fun hu p hp a ha => ⟨(hs.kept p hp _ _ ha).1, hs.pair hu p hp a ha⟩) w hw
    exact ⟨a.shape, rfl, h2⟩
  · intro k hk a ha n hn
    rcases field k _ ha with ⟨h1, -, -⟩ | ⟨a', h1, hf⟩
    · exact absurd h1 (hT.counts k hk).1
    · cases h1
      exact hf.counts hk n hn
  · obtain ⟨a, h1, h2, -⟩ := types k ty hm w hw
    exact ⟨a, h1, h2⟩

/-! ## Array files -/

theorem datasetTypes_get {f : Format} {k : PyStr} (hn : f.arrayArrayTypes.NodupKeys) (hk : k ∈ (datasetTypes f).keys) :
    k ∉ descriptorFields ∧ ∃ ty, (k, ty) ∈ f.arrayArrayTypes ∧ (datasetTypes f).get? k = some (arrayTy ty) := by
  obtain ⟨⟨k', x⟩, hm, rfl⟩ := List.mem_map.1 hk
  have hm0 := hm
  unfold datasetTypes at hm
  obtain ⟨⟨k', ty⟩, hm', he⟩ := List.mem_map.1 hm
  cases he
  obtain ⟨h1, h2⟩ := List.mem_filter.1 hm'
  refine ⟨by simpa using h2, ty, h1, Dict.get?_of_mem ?_ hm0⟩
  have : (datasetTypes f).keys.Sublist f.arrayArrayTypes.keys := by
    unfold datasetTypes Dict.keys
    rw [List.map_map]
    exact List.Sublist.map Prod.fst List.filter_sublist
  exact this.nodup hn

/-- The file that arrays of a slice are written to. -/
theorem SliceArrays.file (hf : h.Fits) {A : Rec} {fs fs' : FSys} {p : PyStr} (hs : SliceArrays v t A) (ht : t ≠ .rawrf)
    (hver : OfVersion v A) (hnew : fs.at p = none) (hw : arrayWrite h fs p (.arrays A) t.name comp = (.ok (), fs')) :
    ∃ G A2 rd, fs' = fs.put p (.h5 G) ∧ PlainArrays v t G A2 ∧ SameFields A A2 ∧ arrayRead fs' p t.name = .ok rd ∧
      rd.version = v ∧ rd.content = A2 := by
  obtain ⟨good, hu⟩ := C34_array_tables v t ht
  obtain ⟨rd, hrd, hr2, hr3, hr4⟩ := C56_array_partial h hf fs fs' p A comp v t hnew hver hs.dict hs.kept hs.pair hw
  obtain ⟨fmt, r', hc, hw⟩ := arrayWrite_ok hw
  rw [arrayWriteCheck_of ht hver hs.check] at hc
  cases hc
  obtain ⟨f, f', ho, hw, rfl⟩ := writing_ok hw
  have hf0 : f = .new := by
    unfold FSys.openA at ho
    rw [hnew] at ho
    cases ho; rfl
  subst hf0
  unfold writeArrays at hw
  cases hwf : writeFields h comp (formatOf v t).arraySingleTypes (Dict.keys H5.new.groups) H5.new.root A with
  | mk res g =>
  rw [hwf] at hw
  cases hw
  have conf := ((checkArrays_ok_iff good hu A).1 hs.check).1
  obtain ⟨A2, hr1, hsame, -⟩ := group_back hf (plain_array v t ht) hs.dict hs.kept
    (fun k ty v hm hv => conforms_scalar conf hm hv) (fun k hk ha => conforms_dset conf hk ha) hwf
  have hread : readArrays { H5.new with root := g } = .ok A2 := hr1
  have hplain : PlainArrays v t { H5.new with root := g } A2 := by
    refine ⟨?_, hread, ?_, ?_⟩
    · refine plainGroup_written hs.dict hwf (plain_array v t ht) (fun k ty v hm hv => conforms_scalar conf hm hv) hs.ascii
        hs.texts (fun k hk hk' => ?_) fun k hk w hw => ?_
      · obtain ⟨-, ty, hm, -⟩ := datasetTypes_get (List.nodup_append.1 good.nodup).2.1 hk
        exact (List.nodup_append.1 good.nodup).2.2 k hk' k (List.mem_map.2 ⟨_, hm, rfl⟩) rfl
      · obtain ⟨h1, ty, hm, h2⟩ := datasetTypes_get (List.nodup_append.1 good.nodup).2.1 hk
        obtain ⟨a, rfl, h3⟩ := hs.types k ty hm w hw
        refine ⟨a, rfl, ?_⟩
        rw [h2, h3.resolve_right h1]
        simp
    · intro a ha
      obtain ⟨s, h1, h2⟩ := hs.pair _ ((hsame _ _).2 ha)
      cases h1
      exact h2
    · intro k hk a ha
      exact hs.counts k hk a ((hsame _ _).2 ha)
  refine ⟨_, A2, rd, rfl, hplain, hsame, hrd, hr3, ?_⟩
  have := arrayRead_fix hrd (at_put ..) hread
  rw [ppoArrayFix_id (ppoNoPair_same hsame hs.pair)] at this
  exact (Except.ok.inj this).symm

end Verif.Bor
