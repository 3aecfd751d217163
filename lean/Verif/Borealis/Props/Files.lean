import Verif.Borealis.Lemmas.FileWrites
import Verif.Borealis.SampleFiles
/-!
# C56, C58: what the writers write and the readers read
-/
namespace Verif.Bor
open Verif

/-! ## C56 -/

theorem ofVersion_unique {v w : Version} {r : Rec} (h1 : OfVersion v r) (h2 : OfVersion w r) : v = w := by
  obtain ⟨s, hs, hs'⟩ := h1
  obtain ⟨u, hu, hu'⟩ := h2
  unfold Holds at hs hu
  rw [hs] at hu
  have he : v.name ++ s = w.name ++ u := by injection hu with h; injection h with _ h; injection h
  have h3 := (C36_version _ v).2 ⟨s, rfl, hs'⟩
  rw [he, (C36_version _ w).2 ⟨u, rfl, hu'⟩] at h3
  cases h3; rfl

theorem firstOfVersion_unique {v w : Version} {rs : Records} (h1 : FirstOfVersion v rs) (h2 : FirstOfVersion w rs) :
    v = w := by
  obtain ⟨n, r, hr, hf, hv⟩ := h1
  obtain ⟨m, r', hr', hf', hw⟩ := h2
  have : n = m := str_antisymm (hf' n (Dict.mem_keys_iff.2 ⟨_, hr⟩)) (hf m (Dict.mem_keys_iff.2 ⟨_, hr'⟩))
  subst this
  rw [hr] at hr'
  cases hr'
  exact ofVersion_unique hv hw

theorem ftype_name_inj {t u : FType} (h : t.name = u.name) : t = u := by
  have := parseFType_iff.2 h
  rw [parseFType_iff.2 rfl] at this
  cases this; rfl

/-- **C56** Records that the writer of site files writes to a new file are what the reader returns: the
same names, in order, and under each the same fields with the same values.  Missing: texts that end in
NUL, scalars in place of arrays, arrays without dimensions, and pulse phase offsets of another shape than
the pulses, for which it is false (`C56_nul_violation`, `C56_scalar_violation`, `C56_ppo_violation`). -/
theorem C56_site_partial (h : H5Cfg) (hf : h.Fits) (fs fs' : FSys) (p : PyStr) (rs : Records)
    (comp : Option PyStr) (v : Version) (t : FType) (hnew : fs.at p = none) (hv : FirstOfVersion v rs)
    (hr : ∀ n r, rs.get? n = some r →
      r.NodupKeys ∧ KeptRec (formatOf v t).siteArrayTypes r ∧ PpoLikePulses r)
    (hw : siteWrite h fs p (.records rs) t.name comp = (.ok (), fs')) :
    ∃ rd, siteRead fs' p t.name = .ok rd ∧ rd.ftype = t ∧ rd.version = v ∧
      SortedNames rs.keys rd.names ∧ rd.content.keys = rd.names ∧ SameRecords rs rd.content := by
  obtain ⟨rd, h1, h2, h3, h4⟩ := site_back hf hnew (fun n r hn => (hr n r hn).1)
    (fun w u hu hw n r hn => by
      cases firstOfVersion_unique hv hw
      cases ftype_name_inj hu
      exact (hr n r hn).2) hw
  exact ⟨rd, h1, (ftype_name_inj h2).symm, firstOfVersion_unique h3 hv, h4⟩

/-- **C56** Records of a format are written to a new file when the texts are ASCII, the names are plain
and the compression is one of h5py's. -/
theorem C56_site_written_partial (h : H5Cfg) (fs : FSys) (p : PyStr) (rs : Records) (comp : Option PyStr)
    (v : Version) (t : FType) (hnew : fs.at p = none) (ht : t ≠ .rawrf)
    (hc : ∀ c, comp = some c → h.hasFilter c = true) (hv : FirstOfVersion v rs) (hn : rs.NodupKeys)
    (hnames : ∀ n ∈ rs.keys, PlainName n)
    (hr : ∀ n r, rs.get? n = some r → r.NodupKeys ∧ KeptRec (formatOf v t).siteArrayTypes r ∧ AsciiRec r ∧
      ConformsRecord (formatOf v t).siteSingleTypes (formatOf v t).siteArrayTypes r) :
    (siteWrite h fs p (.records rs) t.name comp).1 = .ok () := by
  refine site_written (f := .new) (by unfold FSys.openA; rw [hnew]) ht hc hv hn (fun n r hm => ?_)
    fun n hm => ⟨hnames n hm, by simp [H5.keys, H5.new, Group.new]⟩
  obtain ⟨h1, h2, h3, h4⟩ := hr n r hm
  exact ⟨h1, h2, h3, (checkRecord_ok_iff (C34_site_tables v t ht) r).1
    (C34_record_accepts _ _ (C34_site_tables v t ht) r h4)⟩

/-- **C56** Arrays that the writer of array files writes to a new file are what the reader returns.
Missing: as for site files, with pulse phase offsets that are a pair instead (`C56_pair_violation`). -/
theorem C56_array_partial (h : H5Cfg) (hf : h.Fits) (fs fs' : FSys) (p : PyStr) (r : Rec)
    (comp : Option PyStr) (v : Version) (t : FType) (hnew : fs.at p = none) (hv : OfVersion v r)
    (hn : r.NodupKeys) (hk : KeptRec (formatOf v t).arrayArrayTypes r) (hp : PpoNoPair r)
    (hw : arrayWrite h fs p (.arrays r) t.name comp = (.ok (), fs')) :
    ∃ rd, arrayRead fs' p t.name = .ok rd ∧ rd.ftype = t ∧ rd.version = v ∧ SameFields r rd.content := by
  obtain ⟨rd, h1, h2, h3, h4⟩ := array_back hf hnew hn
    (fun w u hu hw => by
      cases ofVersion_unique hv hw
      cases ftype_name_inj hu
      exact hk) hp hw
  exact ⟨rd, h1, (ftype_name_inj h2).symm, ofVersion_unique h3 hv, h4⟩

/-- **C56** Arrays of a format are written to a new file when the texts are ASCII and the compression is
one of h5py's. -/
theorem C56_array_written_partial (h : H5Cfg) (fs : FSys) (p : PyStr) (r : Rec) (comp : Option PyStr)
    (v : Version) (t : FType) (hnew : fs.at p = none) (ht : t ≠ .rawrf)
    (hc : ∀ c, comp = some c → h.hasFilter c = true) (hv : OfVersion v r) (hn : r.NodupKeys)
    (hk : KeptRec (formatOf v t).arrayArrayTypes r) (ha : AsciiRec r)
    (hr : ConformsArrays (formatOf v t).arraySingleTypes (formatOf v t).arrayArrayTypes
      (formatOf v t).unshared r) :
    (arrayWrite h fs p (.arrays r) t.name comp).1 = .ok () := by
  obtain ⟨good, hu⟩ := C34_array_tables v t ht
  exact array_written hnew ht hc hv hn hk ha (C34_arrays_accepts _ _ _ good hu r hr)

/-! ### A sample -/

/-- Whether a file keeps the value. -/
def keptB : Val → Bool
  | .py _ (.str s) => s.getLast? != some '\x00'
  | .py _ _ => true
  | .np _ _ => true
  | .arr a => a.data.length == prod a.shape && a.shape != [] &&
    (a.ty != .npStr || a.data.all fun e => match e with
      | .str s => s.getLast? != some '\x00'
      | _ => false)

theorem keptB_sound {v : Val} (h : keptB v = true) : KeptVal v := by
  cases v with
  | py t e =>
    intro s hs
    subst hs
    simpa [keptB, NoNulEnd] using h
  | np t e => trivial
  | arr a =>
    simp only [keptB, Bool.and_eq_true, beq_iff_eq, bne_iff_ne, ne_eq, Bool.or_eq_true, List.all_eq_true] at h
    refine ⟨h.1.1, h.1.2, fun ht e he => ?_⟩
    rcases h.2 with h2 | h2
    · exact absurd ht h2
    · have := h2 e he
      cases e with
      | str s => exact ⟨s, rfl, by simpa [NoNulEnd] using this⟩
      | _ => cases this

theorem keptRec_of {dsets : TyTable} {r : Rec}
    (h : ∀ p ∈ r, keptB p.2 = true ∧ (p.1 ∈ dsets.keys → p.2.isArr = true)) : KeptRec dsets r := by
  intro k v hv
  obtain ⟨h1, h2⟩ := h (k, v) (Dict.mem_of_get? hv)
  refine ⟨keptB_sound h1, fun hl => ?_⟩
  have := h2 (listed_iff.1 hl)
  cases v with
  | arr a => exact ⟨a, rfl⟩
  | _ => cases this

theorem sampleFile_first : FirstOfVersion .v07 (sampleFileRecords .v07 .bfiq) :=
  ⟨py! "1600000000", sampleFileRecord .v07 .bfiq, by decide +kernel, by decide +kernel,
    py! ".1-2-gabc", by unfold Holds; decide +kernel, .inr ⟨_, .inl rfl⟩⟩

theorem sampleFile_kept : ∀ n r, (sampleFileRecords .v07 .bfiq).get? n = some r →
    r.NodupKeys ∧ KeptRec (formatOf .v07 .bfiq).siteArrayTypes r ∧ PpoLikePulses r := by
  have h0 : Dict.NodupKeys (sampleFileRecord .v07 .bfiq) ∧
      KeptRec (formatOf .v07 .bfiq).siteArrayTypes (sampleFileRecord .v07 .bfiq) ∧
      PpoLikePulses (sampleFileRecord .v07 .bfiq) := by
    refine ⟨by unfold Dict.NodupKeys; decide +kernel, keptRec_of (by decide +kernel), fun v hv => ?_⟩
    have h1 : Dict.get? (sampleFileRecord .v07 .bfiq) (py! "pulse_phase_offset") = some (sampleArray .f32) := by
      decide +kernel
    unfold Holds at hv
    rw [h1] at hv
    cases hv
    exact ⟨sampleArray .u32, [2], by unfold Holds; decide +kernel, rfl, rfl⟩
  intro n r hr
  have := Dict.mem_of_get? hr
  simp only [sampleFileRecords, List.mem_cons, Prod.mk.injEq, List.not_mem_nil, or_false] at this
  rcases this with ⟨_, rfl⟩ | ⟨_, rfl⟩ <;> exact h0

/-- Two records, the later one first. -/
example : ∃ rd, siteRead (siteWrite sampleH5 noFiles (py! "f") (.records (sampleFileRecords .v07 .bfiq))
      (py! "bfiq") (some (py! "gzip"))).2 (py! "f") (py! "bfiq") = .ok rd ∧
    rd.names = [py! "1600000000", py! "1600000003"] ∧ SameRecords (sampleFileRecords .v07 .bfiq) rd.content := by
  have hok : (siteWrite sampleH5 noFiles (py! "f") (.records (sampleFileRecords .v07 .bfiq)) (py! "bfiq")
      (some (py! "gzip"))).1 = .ok () := by decide +kernel
  obtain ⟨rd, h1, _, _, h2, _, h3⟩ := C56_site_partial sampleH5 sampleH5_fits noFiles _ (py! "f")
    (sampleFileRecords .v07 .bfiq) (some (py! "gzip")) .v07 .bfiq rfl sampleFile_first sampleFile_kept
    (Prod.ext hok rfl)
  refine ⟨rd, h1, ?_, h3⟩
  have hp : rd.names.Perm [py! "1600000003", py! "1600000000"] := h2.perm
  have hs := h2.sorted
  obtain ⟨names, hn⟩ : ∃ names, names = rd.names := ⟨_, rfl⟩
  rw [← hn] at hp hs ⊢
  have hl : names.length = 2 := hp.length_eq
  match names, hl with
  | [a, b], _ =>
    have ha : a ∈ [py! "1600000003", py! "1600000000"] := hp.mem_iff.1 (by simp)
    have hb : b ∈ [py! "1600000003", py! "1600000000"] := hp.mem_iff.1 (by simp)
    have hnd : [a, b].Nodup := hp.nodup_iff.2 (by decide)
    have hab : ¬ b < a := by simpa using hs
    have hne : a ≠ b := by simpa using hnd
    simp only [List.mem_cons, List.not_mem_nil, or_false] at ha hb
    rcases ha with rfl | rfl <;> rcases hb with rfl | rfl
    · exact absurd rfl hne
    · exact absurd (by decide) hab
    · rfl
    · exact absurd rfl hne

example : (siteWrite sampleH5 noFiles (py! "f") (.records (sampleFileRecords .v07 .bfiq)) (py! "bfiq")
      siteCompression).1 = .ok () := by decide +kernel

theorem sampleArrays_kept : OfVersion .v06 (sampleFileArrays .v06 .rawacf) ∧
    Dict.NodupKeys (sampleFileArrays .v06 .rawacf) ∧
    KeptRec (formatOf .v06 .rawacf).arrayArrayTypes (sampleFileArrays .v06 .rawacf) ∧
    PpoNoPair (sampleFileArrays .v06 .rawacf) := by
  refine ⟨⟨py! ".1-2-gabc", by unfold Holds; decide +kernel, .inr ⟨_, .inl rfl⟩⟩,
    by unfold Dict.NodupKeys; decide +kernel, keptRec_of (by decide +kernel), fun v hv => ?_⟩
  have h0 : ∀ p ∈ sampleFileArrays .v06 .rawacf, p.1 = py! "pulse_phase_offset" → p.2.shape? = .ok [2, 1] := by
    decide +kernel
  exact ⟨[2, 1], h0 _ (Dict.mem_of_get? hv) rfl, by decide⟩

example : ∃ rd, arrayRead (arrayWrite sampleH5 noFiles (py! "f") (.arrays (sampleFileArrays .v06 .rawacf))
      (py! "rawacf") (some (py! "lzf"))).2 (py! "f") (py! "rawacf") = .ok rd ∧
    SameFields (sampleFileArrays .v06 .rawacf) rd.content := by
  have hok : (arrayWrite sampleH5 noFiles (py! "f") (.arrays (sampleFileArrays .v06 .rawacf)) (py! "rawacf")
      (some (py! "lzf"))).1 = .ok () := by decide +kernel
  obtain ⟨h1, h2, h3, h4⟩ := sampleArrays_kept
  obtain ⟨rd, h5, _, _, h6⟩ := C56_array_partial sampleH5 sampleH5_fits noFiles _ (py! "f")
    (sampleFileArrays .v06 .rawacf) (some (py! "lzf")) .v06 .rawacf rfl h1 h2 h3 h4 (Prod.ext hok rfl)
  exact ⟨rd, h5, h6⟩

/-! ### Violations -/

/-- Write records to a new file and read it: a field of a record. -/
def siteTrip (rs : Records) (ft n k : PyStr) : Except Err Unit × Except Err (Option Val) :=
  let w := siteWrite sampleH5 noFiles (py! "f") (.records rs) ft none
  (w.1, (siteRead w.2 (py! "f") ft).map fun rd => (rd.content.get? n).bind fun r => r.get? k)

/-- Write arrays to a new file and read it: a field. -/
def arrayTrip (r : Rec) (ft k : PyStr) : Except Err Unit × Except Err (Option Val) :=
  let w := arrayWrite sampleH5 noFiles (py! "f") (.arrays r) ft none
  (w.1, (arrayRead w.2 (py! "f") ft).map fun rd => rd.content.get? k)

/-- One record with a field replaced. -/
def oneRecord (v : Version) (t : FType) (k : PyStr) (x : Val) : Records :=
  [(py! "1", (sampleFileRecord v t).set k x)]

/-- **C56** violated: the NULs at the end of a text are lost, in single-element fields and in arrays, in
both structures. -/
theorem C56_nul_violation :
    siteTrip (oneRecord .v06 .rawacf (py! "experiment_name") (.py .str (.str ['a', '\x00']))) (py! "rawacf") (py! "1")
      (py! "experiment_name") = (.ok (), .ok (some (.py .str (.str ['a'])))) ∧
    siteTrip (oneRecord .v06 .rawacf (py! "correlation_descriptors") (.arr ⟨.npStr, [1], [.str ['a', '\x00']]⟩))
      (py! "rawacf") (py! "1") (py! "correlation_descriptors") =
      (.ok (), .ok (some (.arr ⟨.npStr, [1], [.str ['a']]⟩))) ∧
    arrayTrip ((sampleFileArrays .v06 .rawacf).set (py! "experiment_name") (.py .str (.str ['a', '\x00'])))
      (py! "rawacf") (py! "experiment_name") = (.ok (), .ok (some (.py .str (.str ['a'])))) := by
  refine ⟨?_, ?_, ?_⟩ <;> decide +kernel

/-- **C56** violated: the writer accepts a NumPy scalar for an array field; the file cannot be read. -/
theorem C56_scalar_violation :
    siteTrip (oneRecord .v06 .rawacf (py! "main_acfs") (.np .c64 (.cpx 0 0))) (py! "rawacf") (py! "1")
      (py! "main_acfs") = (.ok (), .error .valueError) := by decide +kernel

/-- **C56** violated: pulse phase offsets of another shape than the pulses are replaced by zeros. -/
theorem C56_ppo_violation :
    siteTrip (oneRecord .v06 .bfiq (py! "pulse_phase_offset") (.arr ⟨.f32, [4], [.flt 1, .flt 2, .flt 3, .flt 4]⟩))
      (py! "bfiq") (py! "1") (py! "pulse_phase_offset") =
      (.ok (), .ok (some (.arr ⟨.f32, [2], [.flt 0, .flt 0]⟩))) := by decide +kernel

/-- **C56** violated: pulse phase offsets of two records without further dimensions are replaced by an
array without elements. -/
theorem C56_pair_violation :
    arrayTrip ((sampleFileArrays .v06 .bfiq).set (py! "pulse_phase_offset") (.arr ⟨.f32, [2], [.flt 1, .flt 2]⟩))
      (py! "bfiq") (py! "pulse_phase_offset") = (.ok (), .ok (some (.arr ⟨.f32, [2, 0], []⟩))) := by decide +kernel

theorem siteWriteCheck_arrays (r : Rec) (ft : PyStr) (x : Format × Records) :
    siteWriteCheck (.arrays r) ft ≠ .ok x := by
  intro h
  unfold siteWriteCheck at h
  split at h
  · cases h
  · obtain ⟨s, hs, h⟩ := bind_ok h
    unfold siteDataHash at hs
    rw [asStructure_ok] at hs
    simp only at hs
    split at hs
    · cases hs
    · obtain ⟨v, _, hs⟩ := bind_ok hs
      cases hs

theorem arrayWriteCheck_records (rs : Records) (ft : PyStr) (x : Format × Rec) :
    arrayWriteCheck (.records rs) ft ≠ .ok x := by
  intro h
  unfold arrayWriteCheck at h
  split at h
  · cases h
  · obtain ⟨s, hs, h⟩ := bind_ok h
    unfold arrayDataHash at hs
    rw [asStructure_ok] at hs
    simp only at hs
    obtain ⟨v, _, hs⟩ := bind_ok hs
    cases hs

theorem siteWrite_refused {h : H5Cfg} {fs : FSys} {p ft : PyStr} {d : Data} {comp : Option PyStr}
    (hc : ∀ x, siteWriteCheck d ft ≠ .ok x) : ∃ e, siteWrite h fs p d ft comp = (.error e, fs) := by
  unfold siteWrite
  split
  · rename_i e _; exact ⟨e, rfl⟩
  · rename_i fmt rs hx; exact absurd hx (hc _)

theorem arrayWrite_refused {h : H5Cfg} {fs : FSys} {p ft : PyStr} {d : Data} {comp : Option PyStr}
    (hc : ∀ x, arrayWriteCheck d ft ≠ .ok x) : ∃ e, arrayWrite h fs p d ft comp = (.error e, fs) := by
  unfold arrayWrite
  split
  · rename_i e _; exact ⟨e, rfl⟩
  · rename_i fmt rs hx; exact absurd hx (hc _)

/-! ## C58 -/

/-- Every format has a field that is a dataset of array files. -/
theorem some_dset (v : Version) (t : FType) (h : t ≠ .rawrf) :
    ∃ k, k ∈ (formatOf v t).arrayArrayTypes.keys ∧ k ∉ (formatOf v t).arraySingleTypes.keys :=
  ⟨py! "sqn_timestamps", by cases v <;> cases t <;> first | exact absurd rfl h | decide +kernel⟩

theorem arrayWrite_filter {h : H5Cfg} {c : PyStr} (hz : h.hasFilter c = false) (fs fs' : FSys) (p ft : PyStr)
    (d : Data) : arrayWrite h fs p d ft (some c) ≠ (.ok (), fs') := by
  intro hw0
  obtain ⟨fmt, r', hc, hw⟩ := arrayWrite_ok hw0
  cases d with
  | records rs => exact arrayWriteCheck_records rs ft _ hc
  | arrays r =>
    obtain ⟨t, v, ht, rfl, rfl, rfl, _, hc⟩ := arrayWriteCheck_ok hc
    obtain ⟨f, f', _, hw, _⟩ := writing_ok hw
    obtain ⟨good, hu⟩ := C34_array_tables v t ht
    have conf := ((checkArrays_ok_iff good hu r').1 hc).1
    obtain ⟨k, hk, hk'⟩ := some_dset v t ht
    have hkr : ∃ x, Holds r' k x := Classical.byContradiction fun hn =>
      conf.complete k ⟨.inr (listed_iff.2 hk), hn⟩
    obtain ⟨x, hx⟩ := hkr
    have hres : (writeFields h (some c) (formatOf v t).arraySingleTypes f.groups.keys f.root r').1 = .ok () := by
      unfold writeArrays at hw
      cases hwf : writeFields h (some c) (formatOf v t).arraySingleTypes f.groups.keys f.root r' with
      | mk res g => rw [hwf] at hw; cases hw; rfl
    have bad : ∀ (g : Group) (r : Rec), (k, x) ∈ r →
        (writeFields h (some c) (formatOf v t).arraySingleTypes f.groups.keys g r).1 ≠ .ok () := by
      have nostore : ∀ d, storeDset h (some c) x ≠ .ok d := by
        intro d hd
        have hcc : ∀ s u, compressionCheck h (some c) s ≠ .ok u := by
          intro s u hu
          unfold compressionCheck at hu
          simp only [hz] at hu
          split at hu <;> cases hu
        unfold storeDset at hd
        split at hd
        · cases hd
        · cases hd
        · cases hd
        · obtain ⟨u, hu, _⟩ := bind_ok hd
          exact hcc _ _ hu
        · split at hd
          · cases hd
          · obtain ⟨b, _, hd⟩ := bind_ok hd
            obtain ⟨u, hu, _⟩ := bind_ok hd
            exact hcc _ _ hu
          · obtain ⟨u, hu, _⟩ := bind_ok hd
            exact hcc _ _ hu
      intro g r
      induction r generalizing g with
      | nil => intro hm; cases hm
      | cons q r ih =>
        obtain ⟨k', x'⟩ := q
        intro hm hok
        rw [writeFields] at hok
        by_cases ha : k' ∈ (formatOf v t).arraySingleTypes.keys
        · rw [if_pos ha] at hok
          cases hs : storeAttr x' with
          | error e => rw [hs] at hok; cases hok
          | ok a =>
            rw [hs] at hok
            rcases List.mem_cons.1 hm with he | hm
            · cases he; exact hk' ha
            · exact ih _ hm hok
        · rw [if_neg ha] at hok
          cases hs : storeDset h (some c) x' with
          | error e => rw [hs] at hok; cases hok
          | ok d =>
            rw [hs] at hok
            rcases List.mem_cons.1 hm with he | hm
            · cases he; exact nostore d hs
            · simp only at hok
              split at hok
              · cases hok
              · exact ih _ hm hok
    exact bad _ _ (Dict.mem_of_get? hx) hres

/-- **C58** violated: the default compression of the writer of array files is the name `zlib`; with an
h5py that has no filter of that name, no arrays are written with the default arguments, neither by the
writer nor through `BorealisWrite`. -/
theorem C58_array_violation (h : H5Cfg) (hz : h.hasFilter (py! "zlib") = false) (fs fs' : FSys) (p ft : PyStr)
    (r : Rec) :
    arrayWrite h fs p (.arrays r) ft arrayCompression ≠ (.ok (), fs') ∧
    ∀ st s, borealisWrite h fs p (.arrays r) ft st none ≠ (.ok s, fs') := by
  have ha : ∀ fs', arrayWrite h fs p (.arrays r) ft (some (py! "zlib")) ≠ (.ok (), fs') :=
    fun fs' => arrayWrite_filter hz fs fs' p ft _
  have hsite : ∀ fs, ∃ e, siteWrite h fs p (.arrays r) ft none = (.error e, fs) :=
    fun fs => siteWrite_refused (siteWriteCheck_arrays r ft)
  refine ⟨ha fs', fun st s hb => ?_⟩
  unfold borealisWrite at hb
  split at hb
  · unfold returnWriter at hb
    split at hb
    · rename_i fs1 h1; exact ha fs1 h1
    · rename_i e fs1 h1
      split at hb
      · obtain ⟨e', he'⟩ := hsite fs1
        rw [show (Option.getD none siteCompression) = (none : Option PyStr) from rfl, he'] at hb
        cases hb
      · cases hb
  · split at hb
    · obtain ⟨e', he'⟩ := hsite fs
      rw [show (Option.getD none siteCompression) = (none : Option PyStr) from rfl, he'] at hb
      cases hb
    · split at hb
      · split at hb
        · rename_i fs1 h1; exact ha fs1 h1
        · cases hb
      · cases hb

/-- **C58** Records of a format are written to a new file with the default arguments, by the writer of
site files and through `BorealisWrite`.  Missing: texts that are not ASCII (`C57_partial_violation`), a
record named `borealis_git_hash`, and arrays (`C58_array_violation`). -/
theorem C58_site_partial (h : H5Cfg) (fs : FSys) (p : PyStr) (rs : Records) (v : Version) (t : FType)
    (hnew : fs.at p = none) (ht : t ≠ .rawrf) (hv : FirstOfVersion v rs) (hn : rs.NodupKeys)
    (hnames : ∀ n ∈ rs.keys, PlainName n ∧ n ≠ py! "borealis_git_hash")
    (hr : ∀ n r, rs.get? n = some r → r.NodupKeys ∧ KeptRec (formatOf v t).siteArrayTypes r ∧ AsciiRec r ∧
      ConformsRecord (formatOf v t).siteSingleTypes (formatOf v t).siteArrayTypes r) :
    (siteWrite h fs p (.records rs) t.name siteCompression).1 = .ok () ∧
    ∀ st, st = none ∨ st = some (py! "site") →
      borealisWrite h fs p (.records rs) t.name st none =
        (.ok .site, (siteWrite h fs p (.records rs) t.name siteCompression).2) := by
  have h1 : (siteWrite h fs p (.records rs) t.name siteCompression).1 = .ok () :=
    C56_site_written_partial h fs p rs none v t hnew ht nofun hv hn (fun n hm => (hnames n hm).1) hr
  refine ⟨h1, fun st hst => ?_⟩
  have h2 : siteWrite h fs p (.records rs) t.name siteCompression =
      (.ok (), (siteWrite h fs p (.records rs) t.name siteCompression).2) := by
    rw [← h1]
  have h3 : arrayWrite h fs p (.records rs) t.name arrayCompression = (.error .structure, fs) := by
    have : field rs (py! "borealis_git_hash") = .error .keyError := by
      unfold field
      rw [Dict.get?_eq_none_iff.2 fun c => (hnames _ c).2 rfl]
    unfold arrayWrite arrayWriteCheck arrayDataHash
    rw [parseFType_iff.2 rfl]
    simp only
    rw [this]
    rfl
  rcases hst with rfl | rfl
  · unfold borealisWrite returnWriter
    simp only [Option.getD_none, h3, fallsBack, if_true]
    rw [h2]
  · unfold borealisWrite
    simp only [if_true, Option.getD_none]
    rw [h2]

example : sampleH5.hasFilter (py! "zlib") = false := by decide

/-- Arrays that pass the checks. -/
example : (arrayWrite sampleH5 noFiles (py! "f") (.arrays (sampleFileArrays .v06 .rawacf)) (py! "rawacf") none).1 =
      .ok () ∧
    (arrayWrite sampleH5 noFiles (py! "f") (.arrays (sampleFileArrays .v06 .rawacf)) (py! "rawacf")
      arrayCompression).1 = .error .valueError := by
  constructor <;> decide +kernel

end Verif.Bor
