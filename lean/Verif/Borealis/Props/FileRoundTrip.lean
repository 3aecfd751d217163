import Verif.Borealis.Lemmas.WrittenArrays
import Verif.Borealis.Lemmas.ConvertSamples
import Verif.Borealis.Props.FileDisagree
/-!
# C38: files come back from the array structure
-/
namespace Verif.Bor
open Verif

variable {h : H5Cfg} {v : Version} {t : FType} {o : Ppo} {c : Common} {tkey : Elt → Except Err PyStr}

theorem at_put_ne {fs : FSys} {p q : PyStr} (x : File) (hne : fs.node q ≠ fs.node p) : (fs.put p x).at q = fs.at q := by
  unfold FSys.at FSys.put
  simp [hne]

theorem node_put (fs : FSys) (p : PyStr) (x : File) : (fs.put p x).node = fs.node := rfl

theorem Stacked.same {f : Format} {rs : Records} {A A2 : Rec} (hs : SameFields A A2) (hst : Stacked f t o c rs A) :
    Stacked f t o c rs A2 := by
  have hg := sameFields_get hs
  refine ⟨?_, ?_, ?_, ?_, ?_, ?_⟩
  · intro k ty; rw [← hg]; exact hst.scalar k ty
  · intro k ty; rw [← hg]; exact hst.array k ty
  · intro p hp k; rw [← hg]; exact hst.shared p hp k
  · intro k k'; rw [← hg]; exact hst.lens k k'
  · intro k ty l; rw [← hg]; exact hst.consts k ty l
  · intro k; rw [← sameFields_keys hs]; exact hst.keys k

theorem SameFields.symm {r r' : Rec} (hs : SameFields r r') : SameFields r' r := fun k v => (hs k v).symm

theorem SameFields.trans {r r' r'' : Rec} (h1 : SameFields r r') (h2 : SameFields r' r'') : SameFields r r'' :=
  fun k v => (h1 k v).trans (h2 k v)

theorem sameFields_set {r r' : Rec} (hs : SameFields r r') (k : PyStr) (x : Val) : SameFields (r.set k x) (r'.set k x) := by
  intro k' w
  unfold Holds
  by_cases he : k = k'
  · subst he
    rw [Dict.get?_set_self, Dict.get?_set_self]
  · rw [Dict.get?_set_ne _ he, Dict.get?_set_ne _ he]
    exact hs k' w

/-- The fix of the site readers on records with the same fields. -/
theorem ppoSiteFix1_same {r r1 r' : Rec} (hs : SameFields r r1) (hx : ppoSiteFix1 r = .ok r') :
    ∃ r1', ppoSiteFix1 r1 = .ok r1' ∧ SameFields r' r1' := by
  unfold ppoSiteFix1 at hx ⊢
  have hg := sameFields_get hs
  rw [← hg]
  cases hp : r.get? (py! "pulse_phase_offset") with
  | none =>
    rw [hp] at hx
    cases hx
    exact ⟨r1, rfl, hs⟩
  | some w =>
    rw [hp] at hx
    simp only at hx ⊢
    obtain ⟨s, h1, hx⟩ := bind_ok hx
    obtain ⟨p, h2, hx⟩ := bind_ok hx
    obtain ⟨ps, h3, hx⟩ := bind_ok hx
    have h2' : field r1 (py! "pulses") = .ok p := by
      rw [field_iff] at h2 ⊢
      rw [← hg]
      exact h2
    simp only [h1, h2', h3, bind, Except.bind]
    by_cases hne : s ≠ ps
    · rw [if_pos hne] at hx ⊢
      cases hx
      exact ⟨_, rfl, sameFields_set hs _ _⟩
    · rw [if_neg hne] at hx ⊢
      cases hx
      exact ⟨r1, rfl, hs⟩

/-- The phase offsets that are cut from the arrays of a slice. -/
theorem stacked_cut {f : Format} {flat : List PyStr} {rs : Records} {A : Rec} (hc : Coherent f t flat) (hp : PpoTyped f)
    (hrs : SiteRecords f t o c [] rs) (ho : o ≠ .flat) (hst : Stacked f t o c rs A) (hu : ppoName ∈ f.unshared) {i : Nat}
    (hi : i < rs.length) : OffsetsCut A i := by
  intro a w n ha hw hn
  obtain ⟨a', ha', -, -, hsh, -⟩ := hst.array ppoName .f32 hu hp.single (hp.present hu)
  rw [ha] at ha'
  cases ha'
  obtain ⟨w', hw', hn'⟩ := stacked_seqs hc hrs hst hi
  rw [hw] at hw'
  cases hw'
  rw [hn] at hn'
  cases hn'
  rw [shapeOf, if_pos rfl] at hsh
  cases o with
  | none =>
    right
    refine ⟨rs.length, ?_⟩
    rw [hsh]
    simp only [Ppo.shape, List.map_cons, List.map_nil, List.cons.injEq, and_true, true_and]
    unfold Q.max
    have : ∀ (l : Records), l.foldl (fun m p => Nat.max m (Q.size c p.2 .none)) 0 = 0 := by
      intro l
      induction l with
      | nil => rfl
      | cons p l ih =>
        rw [List.foldl_cons]
        exact ih
    exact this rs
  | flat => exact absurd rfl ho
  | perSeq =>
    left
    have hm : rs[i] ∈ rs := List.getElem_mem hi
    have h1 : seqsOf rs[i].2 ≤ Q.max c rs .seqs := size_le_max (q := .seqs) hm
    have h2 : c.pulses ≤ Q.max c rs .pulses := size_le_max (q := .pulses) hm
    have h3 : 0 < c.pulses := hrs.pos.2.2.2.2.2
    have h4 : 0 < rs.length := by omega
    rw [hsh]
    simp only [Ppo.shape, List.map_cons, List.map_nil, prod, Nat.mul_one]
    refine Int.ofNat_le.2 (Nat.le_trans h1 ?_)
    refine Nat.le_trans ?_ (Nat.le_mul_of_pos_left _ h4)
    exact Nat.le_mul_of_pos_right _ (by omega)

/-- When a site file is read. -/
theorem siteRead_of {fs : FSys} {p s : PyStr} {F : H5} {rs rs' : Records} (ht : t ≠ .rawrf) (hF : fs.at p = some (.h5 F))
    (hs : siteHash F = .ok s) (hv : selectVersion s = .ok v) (hr : readRecords F = .ok rs) (hx : ppoSiteFix rs = .ok rs')
    (hc : checkRecords (formatOf v t).siteSingleTypes (formatOf v t).siteArrayTypes rs' = .ok ()) :
    siteRead fs p t.name = .ok ⟨t, v, sortStrs F.keys, rs'⟩ := by
  unfold siteRead
  rw [parseFType_iff.2 rfl]
  simp only [openR_iff.2 hF, hs, hv, tables_ok ht, hr, hx, hc, bind, Except.bind]

theorem AllRec.get {R} {rs rs' : Records} (hR : AllRec R rs rs') (hn : rs.NodupKeys) {n : PyStr} {r r' : Rec}
    (h1 : rs.get? n = some r) (h2 : rs'.get? n = some r') : R r r' := by
  obtain ⟨r0, h3, h4⟩ := hR.of_mem (Dict.mem_of_get? h2)
  rw [Dict.get?_of_mem hn h3] at h1
  cases h1
  exact h4

theorem ppoSiteFix_same {rs rs1 rs' : Records} (hR : AllRec SameFields rs rs1)
    (hx : AllRec (fun r r' => ppoSiteFix1 r = .ok r') rs rs') :
    ∃ rs1', ppoSiteFix rs1 = .ok rs1' ∧ AllRec SameFields rs' rs1' := by
  induction hR generalizing rs' with
  | nil =>
    cases hx
    exact ⟨[], rfl, .nil⟩
  | cons hr _ ih =>
    cases hx with
    | cons hx1 hx =>
      obtain ⟨r1', h1, h2⟩ := ppoSiteFix1_same hr hx1
      obtain ⟨l, h3, h4⟩ := ih hx
      refine ⟨_ :: l, ?_, .cons h2 h4⟩
      rw [ppoSiteFix, h1, h3]
      rfl

theorem allRec_of_index {R : Rec → Rec → Prop} : ∀ {rs rs' : Records}, rs.keys = rs'.keys →
    (∀ i (hi : i < rs.length) (hi' : i < rs'.length), R rs[i].2 rs'[i].2) → AllRec R rs rs'
  | [], [], _, _ => .nil
  | [], _ :: _, hk, _ => by cases hk
  | _ :: _, [], hk, _ => by cases hk
  | (n, r) :: rs, (n', r') :: rs', hk, hR => by
    simp only [Dict.keys, List.map_cons, List.cons.injEq] at hk
    obtain ⟨rfl, hk⟩ := hk
    exact .cons (hR 0 (by simp) (by simp)) (allRec_of_index hk fun i hi hi' =>
      hR (i + 1) (by simpa using hi) (by simpa using hi'))

theorem AllRec.same {rs rs' : Records} (hR : AllRec SameFields rs rs') (hn : rs.NodupKeys) : SameRecords rs rs' :=
  ⟨fun n => by rw [hR.names], fun _ _ _ h1 h2 => hR.get hn h1 h2⟩

theorem SameRecords.trans {rs rs' rs'' : Records} (h1 : SameRecords rs rs') (h2 : SameRecords rs' rs'') :
    SameRecords rs rs'' := by
  refine ⟨fun n => (h1.1 n).trans (h2.1 n), fun n r r'' hr hr'' => ?_⟩
  obtain ⟨r', hr'⟩ := Dict.mem_keys_iff.1 ((h1.1 n).1 (Dict.mem_keys_iff.2 ⟨r, hr⟩))
  exact (h1.2 n r r' hr hr').trans (h2.2 n r' r'' hr' hr'')

theorem SameRecords.symm {rs rs' : Records} (h1 : SameRecords rs rs') : SameRecords rs' rs :=
  ⟨fun n => (h1.1 n).symm, fun n r r' hr hr' => (h1.2 n r' r hr' hr).symm⟩

theorem sortedNames_unique {l l1 l2 : List PyStr} (h1 : SortedNames l l1) (h2 : SortedNames l l2) : l1 = l2 :=
  List.Perm.eq_of_pairwise (le := fun s t => ¬ t < s) (fun _ _ _ _ hab hba => str_antisymm hba hab) h1.sorted h2.sorted
    (h1.perm.trans h2.perm.symm)

/-- A site file with the records of a slice, and the array file that it is restructured to. -/
theorem slice_files (h : H5Cfg) (hfit : h.Fits) (tkey : Elt → Except Err PyStr) (fs : FSys) (a b : PyStr)
    (comp comp' : Option PyStr) (hcomp : FilterOK h comp) (hcomp' : FilterOK h comp') (v : Version) (t : FType) (ht : t ≠ .rawrf)
    (hno : ¬ (v = .v07 ∧ t = .bfiq)) (o : Ppo) (c : Common) (rs : Records) (hs : SliceRecords tkey v t o c rs)
    (ha : fs.at a = none) (hb : fs.at b = none) (hab : fs.node a ≠ fs.node b) :
    ∃ F G rs1 s A2 rd out, siteWrite h fs a (.records rs) t.name comp = (.ok (), fs.put a (.h5 F)) ∧
      borealisRestructure h tkey (fs.put a (.h5 F)) a b t.name (py! "array") comp' = (.ok (), (fs.put a (.h5 F)).put b (.h5 G)) ∧
      PlainSite v t o c F rs1 ∧ siteHash F = .ok s ∧ selectVersion s = .ok v ∧ SliceRecords tkey v t o c rs1 ∧
      F.keys = rs.keys ∧ rs1.keys = sortStrs rs.keys ∧ (∀ n r, (n, r) ∈ rs1 → ∃ r0, rs.get? n = some r0 ∧ SameFields r0 r) ∧
      PlainArrays v t G A2 ∧ arrayRead ((fs.put a (.h5 F)).put b (.h5 G)) b t.name = .ok rd ∧ rd.version = v ∧ rd.content = A2 ∧
      recordsOf tkey (formatOf v t) A2 = .ok out ∧ out.keys = rs1.keys ∧ AllRec SameFields out rs1 ∧
      (∀ x, A2.get? (py! "sqn_timestamps") = some (.arr x) → x.shape.headD 0 = out.length) ∧
      (ppoName ∈ (formatOf v t).unshared → ∀ i < out.length, OffsetsCut A2 i) := by
  have hC := coherent v t ht
  have hP := ppoTyped v t
  -- the first file
  obtain ⟨fs1, hw1⟩ : ∃ fs1, siteWrite h fs a (.records rs) t.name comp = (.ok (), fs1) :=
    ⟨_, by rw [Prod.ext_iff]; exact ⟨hs.written ht ha hcomp, rfl⟩⟩
  obtain ⟨F, rs1, s, rfl, hp, hh, hv, hs1, hkF, hk1, hsame1⟩ := hs.file hfit ht ha hw1
  -- the arrays
  obtain ⟨rs', A, hA, hall, hrs', hst⟩ := siteToArray_ok hC hs1.slice
  have hsA := hs1.sliceArrays ht hp hA
  obtain ⟨tail, ht1, ht2⟩ := selectVersion_names.1 hv
  have hver : OfVersion v A := ⟨tail, by rw [← ht1]; exact hp.hash ht hA hh, ht2⟩
  have hF1 : (fs.put a (.h5 F)).at a = some (.h5 F) := at_put ..
  have hb1 : (fs.put a (.h5 F)).at b = none := by rw [at_put_ne _ hab.symm]; exact hb
  have hne : a ≠ b := fun e => hab (by rw [e])
  obtain ⟨hr1, hr2⟩ := hp.restructured (h := h) (tkey := tkey) (out := b) (comp := comp') ht hne hF1 hh hv hA hsA.check
  have hw2 := array_written hb1 ht hcomp' hver hsA.dict hsA.kept hsA.ascii hsA.check
  obtain ⟨fs2, hw2⟩ : ∃ fs2, arrayWrite h (fs.put a (.h5 F)) b (.arrays A) t.name comp' = (.ok (), fs2) :=
    ⟨_, by rw [Prod.ext_iff]; exact ⟨hw2, rfl⟩⟩
  rw [hw2] at hr1 hr2
  have hbr2 : borealisRestructure h tkey (fs.put a (.h5 F)) a b t.name (py! "array") comp' = (.ok (), fs2) := by
    rw [Prod.ext_iff]
    exact ⟨hr2.2 rfl, hr1⟩
  obtain ⟨G, A2, rd, rfl, hpA, hsame2, hrd, hrv, hrc⟩ := hsA.file hfit ht hver hb1 hw2
  -- the records
  have hst2 := hst.same hsame2
  obtain ⟨out, hout, hok, hof⟩ := stacked_back hC hs1.one (fun e => absurd e hs1.offsets) hall hrs' hst2
  have hlen : out.length = rs1.length := by
    have := congrArg List.length hok
    simpa [Dict.keys] using this
  have hR : AllRec SameFields out rs1 := allRec_of_index hok fun i hi hi' => by
    intro k w
    unfold Holds
    rw [(hof i hi' hi).2 k (kept v t ht k fun e => hno ⟨e.1, e.2.1⟩)]
  have hno1 : out.NodupKeys := by unfold Dict.NodupKeys; rw [hok]; exact hs1.one.names
  have hconf : ∀ n r, (n, r) ∈ out → ∃ r1, (n, r1) ∈ rs1 ∧ SameFields r r1 := by
    intro n r hm
    have hr : out.get? n = some r := Dict.get?_of_mem hno1 hm
    obtain ⟨r1, hr1⟩ := Dict.mem_keys_iff.1 (show n ∈ rs1.keys by rw [← hok]; exact Dict.mem_keys_iff.2 ⟨r, hr⟩)
    exact ⟨r1, Dict.mem_of_get? hr1, hR.get hno1 hr hr1⟩
  have good := C34_site_tables v t ht
  have hrecs : recordsOf tkey (formatOf v t) A2 = .ok out := by
    unfold recordsOf
    simp only
    rw [hout]
    have : checkRecords (formatOf v t).siteSingleTypes (formatOf v t).siteArrayTypes out = .ok () :=
      checkRecords_ok_iff.2 fun n r hm => by
        obtain ⟨r1, hm1, hsm⟩ := hconf n r hm
        exact (checkRecord_ok_iff good r).2 (conforms_same hsm.symm (conforms_numpy (hs1.types _ hm1)))
    simp only [this, bind, Except.bind]
  have hts : ∀ x, A2.get? (py! "sqn_timestamps") = some (.arr x) → x.shape.headD 0 = out.length := by
    intro x hx
    obtain ⟨h1, h2, h3, -⟩ := hC.times
    obtain ⟨ty, h3⟩ := Option.isSome_iff_exists.1 h3
    obtain ⟨x', hx', -, -, hsh, -⟩ := hst2.array _ ty h1 h2 h3
    rw [hx] at hx'
    cases hx'
    rw [hsh, hlen, hall.length]
    rfl
  have hcut : ppoName ∈ (formatOf v t).unshared → ∀ i < out.length, OffsetsCut A2 i := by
    intro hu i hi
    exact stacked_cut hC hP hrs' hs1.offsets hst2 hu (by rw [hall.length, ← hlen]; exact hi)
  exact ⟨F, G, rs1, s, A2, rd, out, hw1, hbr2, hp, hh, hv, hs1, hkF, hk1, hsame1, hpA, hrd, hrv, hrc, hrecs, hok, hR, hts, hcut⟩

/-- **C38 (partial)** Records of a slice that are written to a site file come back when the file is restructured to an
array file and that one to a site file: everything succeeds, and a reader of the last file has the records that a reader
of the first one has.  These are the records that were written, with phase offsets as the readers fix them.  Not covered:
bfiq of v0.7, whose arrays are not accepted again, phase offsets that are given per pulse, and records with more beams than
the first one, which `BorealisRestructure` does not stack; see `C38_descriptors_violation` and `C60_beams_violation`. -/
theorem C38_files_partial (h : H5Cfg) (hfit : h.Fits) (tkey : Elt → Except Err PyStr) (fs : FSys) (a b d : PyStr)
    (comp comp' comp'' : Option PyStr) (hcomp : FilterOK h comp) (hcomp' : FilterOK h comp') (hcomp'' : FilterOK h comp'')
    (v : Version) (t : FType) (ht : t ≠ .rawrf) (hno : ¬ (v = .v07 ∧ t = .bfiq)) (o : Ppo) (c : Common) (rs : Records)
    (hs : SliceRecords tkey v t o c rs) (ha : fs.at a = none) (hb : fs.at b = none) (hd : fs.at d = none)
    (hab : fs.node a ≠ fs.node b) (had : fs.node a ≠ fs.node d) (hbd : fs.node b ≠ fs.node d) :
    ∃ fs1 fs2 fs3 first last, siteWrite h fs a (.records rs) t.name comp = (.ok (), fs1) ∧
      borealisRestructure h tkey fs1 a b t.name (py! "array") comp' = (.ok (), fs2) ∧
      borealisRestructure h tkey fs2 b d t.name (py! "site") comp'' = (.ok (), fs3) ∧
      siteRead fs3 a t.name = .ok first ∧ siteRead fs3 d t.name = .ok last ∧
      first.version = v ∧ last.version = v ∧ SortedNames rs.keys last.names ∧ first.names = last.names ∧
      SameRecords first.content last.content ∧
      (∀ n r r', rs.get? n = some r → last.content.get? n = some r' → ∀ k, k ≠ ppoName → r.get? k = r'.get? k) ∧
      ((∀ p ∈ rs, PpoLikePulses p.2) → SameRecords rs last.content) := by
  obtain ⟨F, G, rs1, s, A2, rd, out, hw1, hbr2, hp, hh, hv, hs1, hkF, hk1, hsame1, hpA, hrd, hrv, hrc, hrecs, hok, hR, hts, hcut⟩ :=
    slice_files h hfit tkey fs a b comp comp' hcomp hcomp' v t ht hno o c rs hs ha hb hab
  have hF1 : (fs.put a (.h5 F)).at a = some (.h5 F) := at_put ..
  have hlen : out.length = rs1.length := by
    have := congrArg List.length hok
    simpa [Dict.keys] using this
  have hno1 : out.NodupKeys := by unfold Dict.NodupKeys; rw [hok]; exact hs1.one.names
  have hconf : ∀ n r, (n, r) ∈ out → ∃ r1, (n, r1) ∈ rs1 ∧ SameFields r r1 := by
    intro n r hm
    have hr : out.get? n = some r := Dict.get?_of_mem hno1 hm
    obtain ⟨r1, hr1⟩ := Dict.mem_keys_iff.1 (show n ∈ rs1.keys by rw [← hok]; exact Dict.mem_keys_iff.2 ⟨r, hr⟩)
    exact ⟨r1, Dict.mem_of_get? hr1, hR.get hno1 hr hr1⟩
  have good := C34_site_tables v t ht
  have hrecs : recordsOf tkey (formatOf rd.version t) rd.content = .ok out := by
    rw [hrv, hrc]
    exact hrecs
  have hne' : out ≠ [] := by
    rintro rfl
    exact hs1.slice.nonempty (List.length_eq_zero_iff.1 hlen.symm)
  have hcut : ppoName ∈ (formatOf rd.version t).unshared → ∀ i < out.length, OffsetsCut A2 i := by
    rw [hrv]
    exact hcut
  have hG : ((fs.put a (.h5 F)).put b (.h5 G)).at b = some (.h5 G) := at_put ..
  have hd2 : ((fs.put a (.h5 F)).put b (.h5 G)).at d = none := by
    rw [at_put_ne _ (show (fs.put a (.h5 F)).node d ≠ (fs.put a (.h5 F)).node b from hbd.symm), at_put_ne _ had.symm]
    exact hd
  have hbd' : ((fs.put a (.h5 F)).put b (.h5 G)).node b ≠ ((fs.put a (.h5 F)).put b (.h5 G)).node d := hbd
  have hpA' : PlainArrays rd.version t G A2 := by rw [hrv]; exact hpA
  obtain ⟨rsF, -, hfirst, hnd, hwa, hs2, hs3⟩ := to_site_core h tkey _ b d comp'' t G A2 rd out hbd' hG hrd hpA' hrecs hne' hts
  have hkept : ∀ p ∈ out, KeptRec (formatOf v t).siteArrayTypes p.2 := by
    intro p hp k w hw
    obtain ⟨r1, hm1, hsm⟩ := hconf p.1 p.2 hp
    exact hs1.kept _ hm1 k w ((hsm k w).1 hw)
  have hascii : ∀ p ∈ out, AsciiRec p.2 := by
    intro p hp k ty e hw
    obtain ⟨r1, hm1, hsm⟩ := hconf p.1 p.2 hp
    exact hs1.ascii _ hm1 k ty e ((hsm k _).1 hw)
  have hnF : rsF.NodupKeys := by unfold Dict.NodupKeys; rw [← hwa.names]; exact hno1
  have hwF : (siteWrite h ((fs.put a (.h5 F)).put b (.h5 G)) d (.records rsF) t.name comp'').1 = .ok () := by
    rw [hrv] at hfirst
    refine site_written (f := .new) (by unfold FSys.openA; rw [hd2]) ht hcomp'' hfirst hnF (fun n r' hr' => ?_) fun n hn => ?_
    · obtain ⟨r, hm, hx⟩ := hwa.of_mem (Dict.mem_of_get? hr')
      obtain ⟨h1, h2, -, h4⟩ := fixed_written ht (hnd n r hm) (hkept _ hm) (hx.exact hcut)
      have hck := hx.check
      rw [hrv] at hck
      exact ⟨h1, h2, h4 (hascii _ hm), (checkRecord_ok_iff good r').1 hck⟩
    · rw [← hwa.names, hok] at hn
      refine ⟨(hs1.names n hn).1, ?_⟩
      simp [H5.new, H5.keys, Group.new]
  obtain ⟨fs3, hbr3⟩ : ∃ fs3, borealisRestructure h tkey ((fs.put a (.h5 F)).put b (.h5 G)) b d t.name (py! "site") comp'' =
      (.ok (), fs3) := ⟨_, by rw [Prod.ext_iff]; exact ⟨hs3.2 hwF, rfl⟩⟩
  obtain ⟨last, rs'', hl1, hl2, hl3, hl4, hl5, hl6, hl7, hl8, hl9⟩ := C60_to_site_content_partial h hfit tkey _ fs3 b d comp'' t G A2
    rd out hbd' hd2 hG hrd hpA' hrecs hne' hts hcut (by rw [hrv]; exact hkept) hbr3
  -- the first file is still there
  have hfs3 : fs3.at a = some (.h5 F) := by
    rw [hbr3] at hs2
    obtain ⟨_, _, _, hwF⟩ := siteWrite_ok (show siteWrite h ((fs.put a (.h5 F)).put b (.h5 G)) d (.records rsF) t.name comp'' =
      (.ok (), fs3) by rw [Prod.ext_iff]; exact ⟨hwF, hs2.symm⟩)
    obtain ⟨_, f', -, -, rfl⟩ := writing_ok hwF
    rw [at_put_ne _ (show ((fs.put a (.h5 F)).put b (.h5 G)).node a ≠ ((fs.put a (.h5 F)).put b (.h5 G)).node d from had),
      at_put_ne _ (show (fs.put a (.h5 F)).node a ≠ (fs.put a (.h5 F)).node b from hab)]
    exact hF1
  have hfixed : AllRec (fun r r' => ppoSiteFix1 r = .ok r') out rsF := hwa.imp fun _ _ _ _ h => h.exact hcut
  rw [hfixed.ppoSiteFix] at hl7
  cases hl7
  obtain ⟨rs1', hx1, hx2⟩ := ppoSiteFix_same hR hfixed
  have hnames : rs1'.NodupKeys := by unfold Dict.NodupKeys; rw [← hx2.names]; exact hnF
  have hread1 := siteRead_of (fs := fs3) ht hfs3 hh hv hp.read hx1 (checkRecords_ok_iff.2 fun n r hm => by
    obtain ⟨r', hm', hsm⟩ := hx2.of_mem hm
    obtain ⟨_, -, hx⟩ := hwa.of_mem hm'
    have hck := hx.check
    rw [hrv] at hck
    exact (checkRecord_ok_iff good r).2 (conforms_same hsm ((checkRecord_ok_iff good r').1 hck)))
  have hperm : out.keys.Perm rs.keys := by rw [hok, hk1]; exact sortStrs_perm _
  have hlast : SortedNames rs.keys last.names := ⟨hl4.perm.trans hperm, hl4.sorted⟩
  have hfirst1 : SameRecords rs rs1 := by
    refine ⟨fun n => by rw [← hok]; exact hperm.mem_iff.symm, fun n r r1 hr hr1 => ?_⟩
    obtain ⟨r0, h1, h2⟩ := hsame1 n r1 (Dict.mem_of_get? hr1)
    rw [hr] at h1
    cases h1
    exact h2
  have hback : SameRecords rs out := hfirst1.trans (hR.same hno1).symm
  refine ⟨_, _, fs3, _, last, hw1, hbr2, hbr3, hread1, hl1, rfl, hl3.trans hrv, hlast, ?_, ?_, ?_, ?_⟩
  · refine sortedNames_unique ?_ hlast
    show SortedNames rs.keys (sortStrs F.keys)
    rw [hkF]
    exact sortStrs_names _
  · exact (hx2.same hnF).symm.trans hl8
  · intro n r r' hr hr' k hk
    obtain ⟨r2, hr2⟩ := Dict.mem_keys_iff.1 ((hback.1 n).1 (Dict.mem_keys_iff.2 ⟨r, hr⟩))
    obtain ⟨r3, hr3⟩ := Dict.mem_keys_iff.1 ((hl8.1 n).2 (Dict.mem_keys_iff.2 ⟨r', hr'⟩))
    rw [sameFields_get (hback.2 n r r2 hr hr2), (hl6.get hno1 hr2 hr3).2 k hk, sameFields_get (hl8.2 n r3 r' hr3 hr')]
  · intro hl
    refine hback.trans (hl9 fun p hp => ?_)
    obtain ⟨r, hr⟩ := Dict.mem_keys_iff.1 ((hback.1 p.1).2 (Dict.mem_keys_iff.2 ⟨_, Dict.get?_of_mem hno1 hp⟩))
    exact ppoLikePulses_same (hback.2 p.1 r p.2 hr (Dict.get?_of_mem hno1 hp)) (hl _ (Dict.mem_of_get? hr))

/-- Check of the texts of a record. -/
def asciiRecB (r : Rec) : Bool := r.all fun p => match p.2 with
  | .py t (.str s) => t == .str && s.all fun c => c.toNat < 128
  | .py _ _ => false
  | .np t _ => t != .str
  | .arr _ => true

theorem asciiRecB_sound {r : Rec} (h : asciiRecB r = true) : AsciiRec r ∧ ∀ k e, ¬ Holds r k (.np .str e) := by
  have h' := List.all_eq_true.1 h
  refine ⟨fun k t e hk => ?_, fun k e hk => ?_⟩
  · have := h' _ (Dict.mem_of_get? hk)
    cases e with
    | str s =>
      simp only [Bool.and_eq_true, beq_iff_eq, List.all_eq_true, decide_eq_true_eq] at this
      exact ⟨this.1, s, rfl, this.2⟩
    | _ => cases this
  · have := h' _ (Dict.mem_of_get? hk)
    simp at this

/-- Check of the version of the first record, and of the numbers of beams. -/
def firstB (v : Version) (rs : Records) : Bool :=
  match rs with
  | [] => false
  | p :: _ => decide (∀ m ∈ rs.keys, ¬ m < p.1) && beamsB rs &&
    match p.2.get? (py! "borealis_git_hash") with
    | some (.py .str (.str s)) => okAnd (selectVersion s) (· == v)
    | _ => false

/-- Check of `SliceRecords`. -/
def sliceRecordsB (tkey : Elt → Except Err PyStr) (v : Version) (t : FType) (o : Ppo) (c : Common) (rs : Records) : Bool :=
  siteRecordsB (formatOf v t) t o c (flatFields v t) rs && oneSliceB tkey (formatOf v t) t rs && firstB v rs &&
    rs.all (fun p => conformsB (formatOf v t).siteSingleTypes (formatOf v t).siteArrayTypes p.2 &&
      keptRecB (formatOf v t).siteArrayTypes.keys p.2 && asciiRecB p.2 && decide p.2.keys.Nodup &&
      (p.1 != [] && p.1 != py! "." && !p.1.contains '/' && p.1 != py! "borealis_git_hash") &&
      shapeB [c.pulses] (p.2.get? (py! "pulses")) && sizeB (· != [2]) (p.2.get? ppoName)) &&
    (o != .flat)

theorem str_least {a b : PyStr} (h1 : ¬ a < b) (h2 : ¬ b < a) : a = b := str_antisymm h1 h2

theorem sliceRecordsB_sound {rs : Records} (h : sliceRecordsB tkey v t o c rs = true) : SliceRecords tkey v t o c rs := by
  simp only [sliceRecordsB, Bool.and_eq_true, List.all_eq_true, decide_eq_true_eq, bne_iff_ne, Bool.not_eq_true',
    List.contains_eq_mem, decide_eq_false_iff_not] at h
  obtain ⟨⟨⟨⟨h1, h2⟩, h3⟩, h4⟩, h5⟩ := h
  have hone := oneSliceB_sound h2
  cases rs with
  | nil => cases h3
  | cons p rs =>
    simp only [firstB, Bool.and_eq_true, decide_eq_true_eq] at h3
    obtain ⟨⟨h6, h7⟩, h8⟩ := h3
    have hp : Dict.get? (p :: rs) p.1 = some p.2 := Dict.get?_of_mem hone.names List.mem_cons_self
    refine ⟨siteRecordsB_sound h1, hone, ⟨p.1, p.2, hp, h6, ?_⟩, fun q hq => conformsB_sound (h4 q hq).1.1.1.1.1.1,
      fun q hq => keptRecB_sound (h4 q hq).1.1.1.1.1.2, fun q hq => (asciiRecB_sound (h4 q hq).1.1.1.1.2).1,
      fun q hq => (asciiRecB_sound (h4 q hq).1.1.1.1.2).2, fun q hq => (h4 q hq).1.1.1.2, ?_, h5, ?_, ?_, ?_⟩
    · split at h8
      · rename_i s hs
        obtain ⟨w, hw, he⟩ := okAnd_ok h8
        simp only [beq_iff_eq] at he
        subst he
        obtain ⟨tail, rfl, htail⟩ := selectVersion_names.1 hw
        exact ⟨tail, hs, htail⟩
      · cases h8
    · intro n hn
      obtain ⟨r, hr⟩ := Dict.mem_keys_iff.1 hn
      have := (h4 _ (Dict.mem_of_get? hr)).1.1.2
      exact ⟨⟨this.1.1.1, this.1.1.2, this.1.2⟩, this.2⟩
    · intro _ q hq
      have := (h4 q hq).1.2
      unfold shapeB at this
      split at this
      · rename_i a ha
        exact ⟨a, ha, by simpa using this⟩
      · cases this
    · intro _ q hq a ha
      have := (h4 q hq).2
      rw [ha] at this
      simpa [sizeB] using this
    · intro _ n r hr hmin q hq
      have hn : n = p.1 := str_least (h6 n (Dict.mem_keys_iff.2 ⟨r, hr⟩)) (hmin p.1 (Dict.mem_keys_iff.2 ⟨_, hp⟩))
      subst hn
      rw [hp] at hr
      cases hr
      rcases List.mem_cons.1 hq with rfl | hq
      · exact Nat.le_refl _
      · simp only [beamsB, List.all_eq_true, decide_eq_true_eq] at h7
        exact h7 q hq

/-- Two records of different numbers of sequences, beams and blanked samples meet the hypotheses of `C38_files_partial`,
for all types of files and formats with and without phase offsets. -/
example : SliceRecords sampleKey .v06 .bfiq .perSeq sampleCommon (typedRecords .v06 .bfiq .perSeq 2 1) ∧
    SliceRecords sampleKey .v07 .antennasIq .perSeq sampleCommon (typedRecords .v07 .antennasIq .perSeq 2 1) ∧
    SliceRecords sampleKey .v04 .rawacf .none sampleCommon (typedRecords .v04 .rawacf .none 2 1) ∧
    FilterOK sampleH5 (some (py! "lzf")) ∧ noFiles.at (py! "a") = none ∧ noFiles.node (py! "a") ≠ noFiles.node (py! "b") :=
  ⟨sliceRecordsB_sound (by decide +kernel), sliceRecordsB_sound (by decide +kernel), sliceRecordsB_sound (by decide +kernel),
    by simp [FilterOK, sampleH5], rfl, by decide⟩

/-- The names that `C38_files_partial` gives a reader of the last file. -/
example : ∃ fs1 fs2 fs3 last,
    siteWrite sampleH5 noFiles (py! "a") (.records (typedRecords .v06 .bfiq .perSeq 2 1)) (py! "bfiq") none = (.ok (), fs1) ∧
    borealisRestructure sampleH5 sampleKey fs1 (py! "a") (py! "b") (py! "bfiq") (py! "array") none = (.ok (), fs2) ∧
    borealisRestructure sampleH5 sampleKey fs2 (py! "b") (py! "c") (py! "bfiq") (py! "site") none = (.ok (), fs3) ∧
    siteRead fs3 (py! "c") (py! "bfiq") = .ok last ∧ last.version = .v06 ∧
    SortedNames [List.replicate 5 '0', List.replicate 9 '0'] last.names := by
  obtain ⟨fs1, fs2, fs3, first, last, h1, h2, h3, -, h4, -, h5, h6, -⟩ := C38_files_partial sampleH5 sampleH5_fits sampleKey
    noFiles (py! "a") (py! "b") (py! "c") none none none nofun nofun nofun .v06 .bfiq (by decide) (by decide) .perSeq sampleCommon
    (typedRecords .v06 .bfiq .perSeq 2 1) (sliceRecordsB_sound (by decide +kernel)) rfl rfl rfl (by decide) (by decide) (by decide)
  exact ⟨fs1, fs2, fs3, last, h1, h2, h3, h4, h5, h6⟩

end Verif.Bor
