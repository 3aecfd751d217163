import Verif.Borealis.Lemmas.Files
/-!
# Writers followed by readers
-/
namespace Verif.Bor
open Verif

/-! ## The version in the data -/

theorem asStructure_ok {α : Type} {l : List Err} {x : Except Err α} {a : α} :
    asStructure l x = .ok a ↔ x = .ok a := by
  unfold asStructure
  cases x with
  | ok b => rfl
  | error e =>
    simp only
    split <;> simp

theorem splitText_ok {v : Val} {s : PyStr} (h : splitText v = .ok s) :
    v = .py .str (.str s) ∨ v = .np .npStr (.str s) := by
  unfold splitText at h
  split at h
  · cases h; exact .inl rfl
  · cases h; exact .inr rfl
  · cases h
  · cases h

/-- The first of the sorted names of the records. -/
theorem sortStrs_first {ns : List PyStr} {n : PyStr} {l : List PyStr} (h : sortStrs ns = n :: l) :
    n ∈ ns ∧ ∀ m ∈ ns, ¬ m < n := by
  have hp := sortStrs_perm ns
  have hs := sortStrs_sorted ns
  rw [h] at hp hs
  refine ⟨hp.mem_iff.1 (by simp), fun m hm => ?_⟩
  rcases List.mem_cons.1 (hp.mem_iff.2 hm) with rfl | hm
  · exact List.lt_irrefl _
  · exact (List.pairwise_cons.1 hs).1 m hm

theorem str_antisymm {s t : PyStr} (h1 : ¬ s < t) (h2 : ¬ t < s) : s = t :=
  List.le_antisymm (List.not_lt.1 h2) (List.not_lt.1 h1)

theorem sortStrs_first_of {ns : List PyStr} {n : PyStr} (hm : n ∈ ns) (h : ∀ m ∈ ns, ¬ m < n) :
    ∃ l, sortStrs ns = n :: l := by
  cases hs : sortStrs ns with
  | nil =>
    have := (sortStrs_perm ns).mem_iff.2 hm
    rw [hs] at this
    cases this
  | cons m l =>
    obtain ⟨h1, h2⟩ := sortStrs_first hs
    rw [str_antisymm (h2 n hm) (h m h1)]
    exact ⟨l, rfl⟩

theorem siteDataHash_ok {rs : Records} {s : PyStr} (h : siteDataHash (.records rs) = .ok s) :
    ∃ n l r v, sortStrs rs.keys = n :: l ∧ rs.get? n = some r ∧
      Dict.get? r (py! "borealis_git_hash") = some v ∧ splitText v = .ok s := by
  unfold siteDataHash at h
  rw [asStructure_ok] at h
  simp only at h
  split at h
  · cases h
  · rename_i n l hs
    obtain ⟨r, hr, h⟩ := bind_ok h
    obtain ⟨v, hv, h⟩ := bind_ok h
    exact ⟨n, l, r, v, hs, field_iff.1 hr, field_iff.1 hv, h⟩

theorem versionOf_of {v : Version} {s : PyStr} (h : VersionTail s) :
    lookupVersion (versionOf (v.name ++ s)) = some v := (C36_version _ v).2 ⟨s, rfl, h⟩

theorem siteDataHash_of {rs : Records} {v : Version} (h : FirstOfVersion v rs) :
    ∃ s, siteDataHash (.records rs) = .ok s ∧ selectVersion s = .ok v := by
  obtain ⟨n, r, hr, hf, s, hs, ht⟩ := h
  obtain ⟨l, hl⟩ := sortStrs_first_of (Dict.mem_keys_iff.2 ⟨_, hr⟩) hf
  refine ⟨v.name ++ s, ?_, selectVersion_iff.2 (versionOf_of ht)⟩
  unfold siteDataHash
  rw [asStructure_ok]
  simp only [hl]
  rw [field_iff.2 hr]
  show (field r (py! "borealis_git_hash") >>= splitText) = _
  rw [field_iff.2 hs]
  rfl

theorem arrayDataHash_of {r : Rec} {v : Version} (h : OfVersion v r) :
    ∃ s, arrayDataHash (.arrays r) = .ok s ∧ selectVersion s = .ok v := by
  obtain ⟨s, hs, ht⟩ := h
  refine ⟨v.name ++ s, ?_, selectVersion_iff.2 (versionOf_of ht)⟩
  unfold arrayDataHash
  rw [asStructure_ok]
  simp only
  rw [field_iff.2 hs]
  rfl

/-! ## rawrf -/

theorem checkRecord_empty (r : Rec) : checkRecord [] [] r = .error .structure := rfl

theorem checkArrays_empty (u : List PyStr) (r : Rec) : checkArrays [] [] u r = .error .structure := rfl

theorem rawrf_tables (v : Version) :
    (formatOf v .rawrf).broken = true ∨
    (formatOf v .rawrf).siteSingleTypes = [] ∧ (formatOf v .rawrf).siteArrayTypes = [] ∧
    (formatOf v .rawrf).arraySingleTypes = [] ∧ (formatOf v .rawrf).arrayArrayTypes = [] := by
  cases v <;> decide +kernel

/-! ## The checks of the writers -/

theorem siteWriteCheck_ok {rs rs' : Records} {ft : PyStr} {fmt : Format}
    (h : siteWriteCheck (.records rs) ft = .ok (fmt, rs')) :
    ∃ t v, t ≠ .rawrf ∧ ft = t.name ∧ fmt = formatOf v t ∧ rs' = rs ∧
      (∃ s, siteDataHash (.records rs) = .ok s ∧ selectVersion s = .ok v) ∧
      ∀ n r, (n, r) ∈ rs → checkRecord fmt.siteSingleTypes fmt.siteArrayTypes r = .ok () := by
  unfold siteWriteCheck at h
  cases hp : parseFType ft with
  | none => rw [hp] at h; cases h
  | some t =>
    rw [hp] at h
    obtain ⟨s, hs, h⟩ := bind_ok h
    obtain ⟨v, hv, h⟩ := bind_ok h
    obtain ⟨_, ht, h⟩ := bind_ok h
    obtain ⟨_, hc, h⟩ := bind_ok h
    cases h
    rw [checkRecords_ok_iff] at hc
    refine ⟨t, v, ?_, parseFType_iff.1 hp, rfl, rfl, ⟨s, hs, hv⟩, hc⟩
    rintro rfl
    obtain ⟨n, l, r, _, _, hr, _⟩ := siteDataHash_ok hs
    have h1 := hc n r (Dict.mem_of_get? hr)
    rcases rawrf_tables v with hb | ⟨h2, h3, _⟩
    · unfold tables at ht; rw [hb] at ht; cases ht
    · rw [h2, h3, checkRecord_empty] at h1; cases h1

theorem siteWriteCheck_of {rs : Records} {t : FType} {v : Version} (ht : t ≠ .rawrf) (hv : FirstOfVersion v rs)
    (hc : ∀ n r, (n, r) ∈ rs →
      checkRecord (formatOf v t).siteSingleTypes (formatOf v t).siteArrayTypes r = .ok ()) :
    siteWriteCheck (.records rs) t.name = .ok (formatOf v t, rs) := by
  obtain ⟨s, hs, hsv⟩ := siteDataHash_of hv
  unfold siteWriteCheck
  rw [parseFType_iff.2 rfl]
  simp only
  rw [hs]
  show (selectVersion s >>= fun v => _) = _
  rw [hsv]
  show (tables (formatOf v t) >>= fun _ => _) = _
  rw [tables_ok ht]
  show (checkRecords _ _ rs >>= fun _ => _) = _
  rw [checkRecords_ok_iff.2 hc]
  rfl

theorem arrayWriteCheck_ok {r r' : Rec} {ft : PyStr} {fmt : Format}
    (h : arrayWriteCheck (.arrays r) ft = .ok (fmt, r')) :
    ∃ t v, t ≠ .rawrf ∧ ft = t.name ∧ fmt = formatOf v t ∧ r' = r ∧
      (∃ s, arrayDataHash (.arrays r) = .ok s ∧ selectVersion s = .ok v) ∧
      checkArrays fmt.arraySingleTypes fmt.arrayArrayTypes fmt.unshared r = .ok () := by
  unfold arrayWriteCheck at h
  cases hp : parseFType ft with
  | none => rw [hp] at h; cases h
  | some t =>
    rw [hp] at h
    obtain ⟨s, hs, h⟩ := bind_ok h
    obtain ⟨v, hv, h⟩ := bind_ok h
    obtain ⟨_, ht, h⟩ := bind_ok h
    obtain ⟨_, hc, h⟩ := bind_ok h
    cases h
    refine ⟨t, v, ?_, parseFType_iff.1 hp, rfl, rfl, ⟨s, hs, hv⟩, hc⟩
    rintro rfl
    rcases rawrf_tables v with hb | ⟨_, _, h2, h3⟩
    · unfold tables at ht; rw [hb] at ht; cases ht
    · rw [h2, h3, checkArrays_empty] at hc; cases hc

theorem arrayWriteCheck_of {r : Rec} {t : FType} {v : Version} (ht : t ≠ .rawrf) (hv : OfVersion v r)
    (hc : checkArrays (formatOf v t).arraySingleTypes (formatOf v t).arrayArrayTypes (formatOf v t).unshared r =
      .ok ()) :
    arrayWriteCheck (.arrays r) t.name = .ok (formatOf v t, r) := by
  obtain ⟨s, hs, hsv⟩ := arrayDataHash_of hv
  unfold arrayWriteCheck
  rw [parseFType_iff.2 rfl]
  simp only
  rw [hs]
  show (selectVersion s >>= fun v => _) = _
  rw [hsv]
  show (tables (formatOf v t) >>= fun _ => _) = _
  rw [tables_ok ht]
  show (checkArrays _ _ _ r >>= fun _ => _) = _
  rw [hc]
  rfl

/-! ## Files -/

theorem at_put (fs : FSys) (p : PyStr) (c : File) : (fs.put p c).at p = some c := by
  simp [FSys.at, FSys.put]

theorem openR_put (fs : FSys) (p : PyStr) (f : H5) : (fs.put p (.h5 f)).openR p = .ok f := by
  unfold FSys.openR
  rw [at_put]

theorem writing_ok {fs fs' : FSys} {p : PyStr} {w : H5 → Except Err Unit × H5}
    (h : writing fs p w = (.ok (), fs')) :
    ∃ f f', fs.openA p = .ok f ∧ w f = (.ok (), f') ∧ fs' = fs.put p (.h5 f') := by
  unfold writing at h
  cases ho : fs.openA p with
  | error e => rw [ho] at h; cases h
  | ok f =>
    rw [ho] at h
    simp only at h
    cases hw : w f with
    | mk res f' =>
      rw [hw] at h
      cases h
      exact ⟨f, f', rfl, hw, rfl⟩

theorem siteWrite_ok {h : H5Cfg} {fs fs' : FSys} {p ft : PyStr} {d : Data} {comp : Option PyStr}
    (hw : siteWrite h fs p d ft comp = (.ok (), fs')) :
    ∃ fmt rs, siteWriteCheck d ft = .ok (fmt, rs) ∧
      writing fs p (fun f => writeRecords h comp fmt f rs) = (.ok (), fs') := by
  unfold siteWrite at hw
  split at hw
  · cases hw
  · rename_i fmt rs hc
    exact ⟨fmt, rs, hc, hw⟩

theorem arrayWrite_ok {h : H5Cfg} {fs fs' : FSys} {p ft : PyStr} {d : Data} {comp : Option PyStr}
    (hw : arrayWrite h fs p d ft comp = (.ok (), fs')) :
    ∃ fmt r, arrayWriteCheck d ft = .ok (fmt, r) ∧
      writing fs p (fun f => writeArrays h comp fmt f r) = (.ok (), fs') := by
  unfold arrayWrite at hw
  split at hw
  · cases hw
  · rename_i fmt r hc
    exact ⟨fmt, r, hc, hw⟩

/-- The text of the version comes back from the attributes. -/
theorem hashOf_back {h : H5Cfg} {comp : Option PyStr} {attrs : TyTable} {taken : List PyStr} {g g' : Group}
    {r : Rec} {s : PyStr} (hn : r.NodupKeys) (ha : py! "borealis_git_hash" ∈ attrs.keys)
    (hv : Holds r (py! "borealis_git_hash") (.py .str (.str s))) (hk : NoNulEnd s)
    (hw : writeFields h comp attrs taken g r = (.ok (), g')) : hashOf g'.attrs = .ok s := by
  obtain ⟨a, hs, hg⟩ := (writeFields_written hn hw).attr _ _ (Dict.mem_of_get? hv) ha
  unfold storeAttr at hs
  simp only at hs
  obtain ⟨b, hb, hs⟩ := bind_ok hs
  cases hs
  unfold hashOf
  rw [field_iff.2 hg]
  exact text_back hb hk

theorem conforms_scalar {ok : PyStr → Ty → Val → Prop} {attrs dsets : TyTable} {r : Rec}
    (hc : Conforms ok attrs dsets r) {k : PyStr} {t : Ty} {v : Val} (hm : (k, t) ∈ attrs) (hv : Holds r k v) :
    IsScalar t v := Classical.byContradiction fun hs => hc.typed k t (.inl ⟨hm, v, hv, hs⟩)

theorem conforms_dset {ok : PyStr → Ty → Val → Prop} {attrs dsets : TyTable} {r : Rec}
    (hc : Conforms ok attrs dsets r) {k : PyStr} (hk : k ∈ r.keys) (ha : k ∉ attrs.keys) : Listed dsets k := by
  refine Classical.byContradiction fun hd => hc.known k ⟨Dict.mem_keys_iff.1 hk, ?_⟩
  rintro (h | h)
  · exact ha (listed_iff.1 h)
  · exact hd h

theorem hash_text {v : Val} {s : PyStr} (ht : IsScalar .str v) (h : splitText v = .ok s) : v = .py .str (.str s) := by
  rcases splitText_ok h with rfl | rfl
  · rfl
  · cases ht

/-- Records that were written to a new file are read. -/
theorem site_back {h : H5Cfg} (hf : h.Fits) {fs fs' : FSys} {p ft : PyStr} {rs : Records} {comp : Option PyStr}
    (hnew : fs.at p = none) (hn : ∀ n r, rs.get? n = some r → r.NodupKeys)
    (hk : ∀ v t, ft = t.name → FirstOfVersion v rs →
      ∀ n r, rs.get? n = some r → KeptRec (formatOf v t).siteArrayTypes r ∧ PpoLikePulses r)
    (hw0 : siteWrite h fs p (.records rs) ft comp = (.ok (), fs')) :
    ∃ rd, siteRead fs' p ft = .ok rd ∧ ft = rd.ftype.name ∧ FirstOfVersion rd.version rs ∧
      SortedNames rs.keys rd.names ∧ rd.content.keys = rd.names ∧ SameRecords rs rd.content := by
  obtain ⟨fmt, rs', hc, hw⟩ := siteWrite_ok hw0
  obtain ⟨t, v, ht, rfl, rfl, rfl, ⟨s, hs, hsv⟩, hc⟩ := siteWriteCheck_ok hc
  obtain ⟨f, f', ho, hw, rfl⟩ := writing_ok hw
  have hf0 : f = .new := by
    unfold FSys.openA at ho
    rw [hnew] at ho
    cases ho; rfl
  subst hf0
  have w := writeRecords_written hw
  obtain ⟨gs, hgs, hgk, hgw⟩ := w.groups
  have hgs : f'.groups = gs := by rw [hgs]; rfl
  have hnd : Dict.NodupKeys gs := by unfold Dict.NodupKeys; rw [hgk]; exact w.nodup
  have hkeys : f'.keys = rs'.keys := by
    unfold H5.keys
    rw [hgs, hgk, w.root]
    exact List.append_nil _
  have good := C34_site_tables v t ht
  have conf : ∀ n r, rs'.get? n = some r →
      Conforms (fun _ => IsNumpy) (formatOf v t).siteSingleTypes (formatOf v t).siteArrayTypes r :=
    fun n r hr => (checkRecord_ok_iff good r).1 (hc n r (Dict.mem_of_get? hr))
  have grp : ∀ n r, rs'.get? n = some r → ∃ g, f'.groups.get? n = some g ∧
      writeFields h comp (formatOf v t).siteSingleTypes [] .new r = (.ok (), g) := by
    intro n r hr
    obtain ⟨g, h1, h2⟩ := hgw n r (Dict.mem_of_get? hr)
    exact ⟨g, by rw [hgs]; exact Dict.get?_of_mem hnd h1, h2⟩
  -- the first record
  obtain ⟨n0, l0, r0, v0, hn0, hr0, hv0, hsp⟩ := siteDataHash_ok hs
  have hv0' : v0 = .py .str (.str s) := hash_text (conforms_scalar (conf n0 r0 hr0) (hash_listed v t ht).1 hv0) hsp
  subst hv0'
  have hfirst : FirstOfVersion v rs' := by
    obtain ⟨tail, h1, h2⟩ := (C36_version s v).1 (selectVersion_iff.1 hsv)
    exact ⟨n0, r0, hr0, (sortStrs_first hn0).2, tail, h1 ▸ hv0, h2⟩
  have kept := hk v t rfl hfirst
  have hhash : siteHash f' = .ok s := by
    unfold siteHash
    rw [asStructure_ok, hkeys, hn0]
    obtain ⟨g0, h1, h2⟩ := grp n0 r0 hr0
    simp only [h1]
    exact hashOf_back (hn n0 r0 hr0) (listed_iff.1 ⟨_, (hash_listed v t ht).1⟩) hv0
      ((kept n0 r0 hr0).1 _ _ hv0 |>.1 s rfl) h2
  -- the records
  obtain ⟨rs2, h1, h2, h3⟩ := readNames_back (f := f') (ns := sortStrs rs'.keys)
    (P := fun n r' => ∃ r, rs'.get? n = some r ∧ SameFields r r') (by
      intro n hm
      obtain ⟨r, hr⟩ := Dict.mem_keys_iff.1 ((sortStrs_perm _).mem_iff.1 hm)
      obtain ⟨g, hg1, hg2⟩ := grp n r hr
      obtain ⟨r', hr1, hr2, _⟩ := group_back hf (plain_site v t ht) (hn n r hr) (kept n r hr).1
        (fun k ty v hm hv => conforms_scalar (conf n r hr) hm hv)
        (fun k hk ha => conforms_dset (conf n r hr) hk ha) hg2
      exact ⟨g, r', hg1, hr1, r, hr, hr2⟩)
  have hread : readRecords f' = .ok rs2 := by unfold readRecords; rw [hkeys]; exact h1
  have hppo : ppoSiteFix rs2 = .ok rs2 := ppoSiteFix_id fun n r hm => by
    obtain ⟨r', hr, hsame⟩ := h3 n r hm
    exact ppoLikePulses_same hsame (kept n r' hr).2
  have hchk : checkRecords (formatOf v t).siteSingleTypes (formatOf v t).siteArrayTypes rs2 = .ok () :=
    checkRecords_ok_iff.2 fun n r hm => by
      obtain ⟨r', hr, hsame⟩ := h3 n r hm
      exact (checkRecord_ok_iff good r).2 (conforms_same hsame (conf n r' hr))
  refine ⟨⟨t, v, sortStrs f'.keys, rs2⟩, ?_, rfl, hfirst, ?_, ?_, ?_, ?_⟩
  · unfold siteRead
    rw [parseFType_iff.2 rfl]
    simp only
    rw [openR_put]
    show (siteHash f' >>= fun s => _) = _
    rw [hhash]
    show (selectVersion s >>= fun v => _) = _
    rw [hsv]
    show (tables (formatOf v t) >>= fun _ => _) = _
    rw [tables_ok ht]
    show (readRecords f' >>= fun _ => _) = _
    rw [hread]
    show (ppoSiteFix rs2 >>= fun _ => _) = _
    rw [hppo]
    show (checkRecords _ _ rs2 >>= fun _ => _) = _
    rw [hchk]
    rfl
  · rw [hkeys]; exact sortStrs_names _
  · rw [hkeys]; exact h2
  · intro n
    show n ∈ rs'.keys ↔ n ∈ rs2.keys
    rw [h2]
    exact (sortStrs_perm _).mem_iff.symm
  · intro n r r' hr hr'
    obtain ⟨r'', hr2, hsame⟩ := h3 n r' (Dict.mem_of_get? hr')
    rw [hr] at hr2
    cases hr2
    exact hsame

/-- Arrays that were written to a new file are read. -/
theorem array_back {h : H5Cfg} (hf : h.Fits) {fs fs' : FSys} {p ft : PyStr} {r : Rec} {comp : Option PyStr}
    (hnew : fs.at p = none) (hn : r.NodupKeys)
    (hk : ∀ v t, ft = t.name → OfVersion v r → KeptRec (formatOf v t).arrayArrayTypes r) (hp : PpoNoPair r)
    (hw0 : arrayWrite h fs p (.arrays r) ft comp = (.ok (), fs')) :
    ∃ rd, arrayRead fs' p ft = .ok rd ∧ ft = rd.ftype.name ∧ OfVersion rd.version r ∧
      SameFields r rd.content := by
  obtain ⟨fmt, r', hc, hw⟩ := arrayWrite_ok hw0
  obtain ⟨t, v, ht, rfl, rfl, rfl, ⟨s, hs, hsv⟩, hc⟩ := arrayWriteCheck_ok hc
  obtain ⟨f, f', ho, hw, rfl⟩ := writing_ok hw
  have hf0 : f = .new := by
    unfold FSys.openA at ho
    rw [hnew] at ho
    cases ho; rfl
  subst hf0
  unfold writeArrays at hw
  cases hwf : writeFields h comp (formatOf v t).arraySingleTypes (Dict.keys H5.new.groups) H5.new.root r' with
  | mk res g =>
  rw [hwf] at hw
  cases hw
  obtain ⟨good, hu⟩ := C34_array_tables v t ht
  have hconf := (checkArrays_ok_iff good hu r').1 hc
  have conf := hconf.1
  unfold arrayDataHash at hs
  rw [asStructure_ok] at hs
  simp only at hs
  obtain ⟨v0, hv0, hsp⟩ := bind_ok hs
  have hv0 := field_iff.1 hv0
  have hv0' : v0 = .py .str (.str s) := hash_text (conforms_scalar conf (hash_listed v t ht).2 hv0) hsp
  subst hv0'
  have hof : OfVersion v r' := by
    obtain ⟨tail, h1, h2⟩ := (C36_version s v).1 (selectVersion_iff.1 hsv)
    exact ⟨tail, h1 ▸ hv0, h2⟩
  have kept := hk v t rfl hof
  have hhash : hashOf g.attrs = .ok s :=
    hashOf_back hn (listed_iff.1 ⟨_, (hash_listed v t ht).2⟩) hv0 ((kept _ _ hv0).1 s rfl) hwf
  obtain ⟨r2, hr1, hsame, _⟩ := group_back hf (plain_array v t ht) hn kept
    (fun k ty v hm hv => conforms_scalar conf hm hv) (fun k hk ha => conforms_dset conf hk ha) hwf
  refine ⟨⟨t, v, [], r2⟩, ?_, rfl, hof, hsame⟩
  unfold arrayRead
  rw [parseFType_iff.2 rfl]
  simp only
  rw [openR_put]
  show (asStructure [.keyError] (hashOf g.attrs) >>= fun s => _) = _
  rw [asStructure_ok.2 hhash]
  show (selectVersion s >>= fun v => _) = _
  rw [hsv]
  show (tables (formatOf v t) >>= fun _ => _) = _
  rw [tables_ok ht]
  show (readGroup g >>= fun _ => _) = _
  rw [hr1]
  show (ppoArrayFix r2 >>= fun _ => _) = _
  rw [ppoArrayFix_id (ppoNoPair_same hsame hp)]
  show (checkArrays _ _ _ r2 >>= fun _ => _) = _
  have : checkArrays (formatOf v t).arraySingleTypes (formatOf v t).arrayArrayTypes (formatOf v t).unshared r2 =
      .ok () := by
    refine (checkArrays_ok_iff good hu r2).2 ⟨conforms_same hsame conf, ?_⟩
    obtain ⟨n, hn⟩ := hconf.2
    refine ⟨n, fun k hk => ?_⟩
    obtain ⟨v, h1, h2⟩ := hn k hk
    exact ⟨v, (hsame k v).1 h1, h2⟩
  rw [this]
  rfl

end Verif.Bor
