import Verif.Borealis.Lemmas.FileWrites
import Verif.Borealis.Props.FileRestructure
/-!
# Files that the writers leave
-/
namespace Verif.Bor
open Verif

variable {h : H5Cfg} {comp : Option PyStr}

/-! ## Groups -/

theorem sameFields_get {r r' : Rec} (hs : SameFields r r') (k : PyStr) : r.get? k = r'.get? k := by
  cases h1 : r.get? k with
  | some v => exact ((hs k v).1 h1).symm
  | none =>
    cases h2 : r'.get? k with
    | none => rfl
    | some v =>
      have := (hs k v).2 h2
      unfold Holds at this
      rw [h1] at this
      cases this

theorem storeDset_text {a : NdArr} {d : Dset} (hd : storeDset h comp (.arr a) = .ok d) :
    d.itemsize.isSome = true ↔ a.ty = .npStr := by
  unfold storeDset at hd
  simp only at hd
  split at hd
  · cases hd
  · rename_i heq
    obtain ⟨b, -, hd⟩ := bind_ok hd
    obtain ⟨_, -, hd⟩ := bind_ok hd
    cases hd
    simp [heq]
  · rename_i _ hne
    obtain ⟨_, -, hd⟩ := bind_ok hd
    cases hd
    simpa using hne

/-- A group with the fields of a record is plain. -/
theorem plainGroup_written {S D : TyTable} {taken : List PyStr} {r : Rec} {g : Group} (hn : r.NodupKeys)
    (hw : writeFields h comp S taken .new r = (.ok (), g)) (hp : Plain S)
    (hs : ∀ k t v, (k, t) ∈ S → Holds r k v → IsScalar t v)
    (ha : AsciiRec r) (ht : ∀ k e, ¬ Holds r k (.np .str e)) (hSD : ∀ k ∈ D.keys, k ∉ S.keys)
    (hD : ∀ k ∈ D.keys, ∀ v, Holds r k v → ∃ a, v = .arr a ∧ (a.ty = .npStr ↔ D.get? k = some .npStr)) :
    PlainGroup S D g := by
  have w := writeFields_written hn hw
  have attr : ∀ k a, g.attrs.get? k = some a → ∃ v, Holds r k v ∧ storeAttr v = .ok a := by
    intro k a hk
    by_cases hc : k ∈ r.keys ∧ k ∈ S.keys
    · obtain ⟨v, hv⟩ := Dict.mem_keys_iff.1 hc.1
      obtain ⟨a', h1, h2⟩ := w.attr k v (Dict.mem_of_get? hv) hc.2
      rw [hk] at h2
      cases h2
      exact ⟨v, hv, h1⟩
    · rw [w.oldAttr k hc] at hk
      cases hk
  refine ⟨w.nodupAttrs List.nodup_nil, w.nodupDsets List.nodup_nil, ?_, ?_, ?_, ?_, ?_⟩
  · intro k hk
    refine Dict.get?_eq_none_iff.1 ?_
    rw [w.oldDset k fun c => c.2 hk]
    rfl
  · intro k hk
    refine Dict.get?_eq_none_iff.1 ?_
    rw [w.oldAttr k fun c => hSD k hk c.2]
    rfl
  · intro k hk a hka
    obtain ⟨v, hv, hst⟩ := attr k a hka
    have := hs k _ v (Dict.mem_of_get? hk) hv
    cases v with
    | py ty e =>
      obtain ⟨rfl, s, rfl, -⟩ := ha k ty e hv
      unfold storeAttr at hst
      simp only at hst
      obtain ⟨b, -, hst⟩ := bind_ok hst
      cases hst
      exact ⟨_, rfl⟩
    | np ty e =>
      cases this
      exact absurd hv (ht k e)
    | arr _ => cases this
  · intro k ty hk hne a hka
    obtain ⟨v, hv, hst⟩ := attr k a hka
    have hm := Dict.mem_of_get? hk
    have := hs k _ v hm hv
    cases v with
    | py ty' e =>
      cases this
      obtain ⟨rfl, -⟩ := ha k ty e hv
      exact absurd rfl hne
    | np ty' e =>
      cases this
      obtain ⟨h1, h2, h3, h4⟩ := hp.types k ty hm
      have h5 := hp.known k ty hm
      unfold storeAttr at hst
      cases ty with
      | npStr => exact absurd rfl h1
      | npBytes => exact absurd rfl h2
      | other n => cases h5
      | _ => cases hst; exact ⟨_, rfl⟩
    | arr _ => cases this
  · intro k d hk hd
    have hkS := hSD k hk
    by_cases hc : k ∈ r.keys ∧ k ∉ S.keys
    · obtain ⟨v, hv⟩ := Dict.mem_keys_iff.1 hc.1
      obtain ⟨d', h1, h2, -⟩ := w.dset k v (Dict.mem_of_get? hv) hc.2
      rw [hd] at h2
      cases h2
      obtain ⟨a, rfl, hiff⟩ := hD k hk v hv
      rw [storeDset_text h1, hiff]
    · rw [w.oldDset k hc] at hd
      cases hd

/-! ## The same records -/

variable {v : Version} {t : FType} {o : Ppo} {c : Common} {tkey : Elt → Except Err PyStr}

theorem sameFields_keys {r r' : Rec} (hs : SameFields r r') (k : PyStr) : k ∈ r.keys ↔ k ∈ r'.keys := by
  rw [Dict.mem_keys_iff, Dict.mem_keys_iff, sameFields_get hs]

theorem sameFields_len {r r' : Rec} (hs : SameFields r r') (k : PyStr) : lenOf k r = lenOf k r' := by
  unfold lenOf
  rw [sameFields_get hs]

theorem sameFields_seqs {r r' : Rec} (hs : SameFields r r') : seqsOf r = seqsOf r' := by
  unfold seqsOf
  rw [sameFields_get hs]

theorem sameFields_size {r r' : Rec} (hs : SameFields r r') : Q.size c r = Q.size c r' := by
  funext q
  cases q with
  | seqs => exact sameFields_seqs hs
  | beams => exact sameFields_len hs _
  | blanked => exact sameFields_len hs _
  | _ => rfl

theorem SiteRec.same {f : Format} {flat : List PyStr} {r r' : Rec} (hs : SameFields r r')
    (hr : SiteRec f t o c flat r) : SiteRec f t o c flat r' := by
  have hg := sameFields_get hs
  obtain ⟨h1, h2, h3, h4, h5, h6⟩ := hr
  unfold beamsOf at h2
  rw [sameFields_len hs] at h2
  refine ⟨?_, h2, ?_, ?_, ?_, ?_⟩
  · rw [← hg]; exact h1
  · intro k ty; rw [← hg]; exact h3 k ty
  · intro k ty; rw [← hg, ← sameFields_size hs]; exact h4 k ty
  · intro k; rw [← hg, ← sameFields_size hs]; exact h5 k
  · intro k hk; exact (sameFields_keys hs k).1 (h6 k hk)

theorem SliceRecords.same {rs rs1 : Records} (hs : SliceRecords tkey v t o c rs) (hk : rs1.keys.Perm rs.keys)
    (hr : ∀ n r, (n, r) ∈ rs1 → r.NodupKeys ∧ ∃ r0, rs.get? n = some r0 ∧ SameFields r0 r) :
    SliceRecords tkey v t o c rs1 := by
  have old : ∀ p ∈ rs1, ∃ q ∈ rs, q.1 = p.1 ∧ SameFields q.2 p.2 := by
    intro p hp
    obtain ⟨-, r0, h1, h2⟩ := hr p.1 p.2 hp
    exact ⟨(p.1, r0), Dict.mem_of_get? h1, rfl, h2⟩
  have hn1 : rs1.NodupKeys := hk.nodup_iff.2 hs.one.names
  have new : ∀ n r0, rs.get? n = some r0 → ∃ r, (n, r) ∈ rs1 ∧ SameFields r0 r := by
    intro n r0 h0
    obtain ⟨r, hr1⟩ := Dict.mem_keys_iff.1 (hk.mem_iff.2 (Dict.mem_keys_iff.2 ⟨r0, h0⟩))
    obtain ⟨-, r0', h1, h2⟩ := hr n r (Dict.mem_of_get? hr1)
    rw [h0] at h1
    cases h1
    exact ⟨r, Dict.mem_of_get? hr1, h2⟩
  refine ⟨⟨?_, hs.slice.pos, ?_, ?_⟩, ⟨hn1, ?_, ?_, ?_, ?_⟩, ?_, ?_, ?_, ?_, ?_, fun p hp => (hr p.1 p.2 hp).1, ?_, hs.offsets,
    ?_, ?_, ?_⟩
  · rintro rfl
    have := hk.length_eq
    refine hs.slice.nonempty (List.length_eq_zero_iff.1 ?_)
    simpa [Dict.keys] using this.symm
  · intro p hp
    obtain ⟨q, hq, -, hsm⟩ := old p hp
    exact (hs.slice.recs q hq).same hsm
  · have hb : ∀ (P : Nat → Prop), (∀ p ∈ rs, P (blankedOf p.2)) → ∀ p ∈ rs1, P (blankedOf p.2) := by
      intro P hP p hp
      obtain ⟨q, hq, -, hsm⟩ := old p hp
      have := hP q hq
      unfold blankedOf at this ⊢
      rw [← sameFields_len hsm]
      exact this
    exact hs.slice.blanked.imp (hb (· = 0)) (hb (· ≠ 0))
  · intro p hp
    obtain ⟨q, hq, he, hsm⟩ := old p hp
    have := hs.one.times q hq
    rw [he, sameFields_get hsm] at this
    exact this
  · intro p hp p' hp' k hk1 hk2
    obtain ⟨q, hq, -, hsm⟩ := old p hp
    obtain ⟨q', hq', -, hsm'⟩ := old p' hp'
    rw [← sameFields_get hsm, ← sameFields_get hsm']
    exact hs.one.shared q hq q' hq' k hk1 hk2
  · intro p hp k hk1 ty hty
    obtain ⟨q, hq, -, hsm⟩ := old p hp
    rw [← sameFields_get hsm]
    exact hs.one.descriptors q hq k hk1 ty hty
  · intro p hp k hk1
    obtain ⟨q, hq, -, hsm⟩ := old p hp
    exact hs.one.only q hq k ((sameFields_keys hsm k).2 hk1)
  · obtain ⟨n, r, h1, h2, s, h3, h4⟩ := hs.first
    obtain ⟨r', h5, h6⟩ := new n r h1
    exact ⟨n, r', Dict.get?_of_mem hn1 h5, fun m hm => h2 m (hk.mem_iff.1 hm), s, (h6 _ _).1 h3, h4⟩
  · intro p hp
    obtain ⟨q, hq, -, hsm⟩ := old p hp
    exact conforms_same hsm (hs.types q hq)
  · intro p hp k w hw
    obtain ⟨q, hq, -, hsm⟩ := old p hp
    exact hs.kept q hq k w ((hsm _ _).2 hw)
  · intro p hp k ty e hw
    obtain ⟨q, hq, -, hsm⟩ := old p hp
    exact hs.ascii q hq k ty e ((hsm _ _).2 hw)
  · intro p hp k e hw
    obtain ⟨q, hq, -, hsm⟩ := old p hp
    exact hs.texts q hq k e ((hsm _ _).2 hw)
  · exact fun n hn => hs.names n (hk.mem_iff.1 hn)
  · intro hu p hp
    obtain ⟨q, hq, -, hsm⟩ := old p hp
    rw [← sameFields_get hsm]
    exact hs.pulses hu q hq
  · intro hu p hp a ha
    obtain ⟨q, hq, -, hsm⟩ := old p hp
    rw [← sameFields_get hsm] at ha
    exact hs.pair hu q hq a ha
  · intro ht n r hn hmin q hq
    obtain ⟨-, r0, h1, h2⟩ := hr n r (Dict.mem_of_get? hn)
    obtain ⟨q0, hq0, -, hsm⟩ := old q hq
    have := hs.beams ht n r0 h1 (fun m hm => hmin m (hk.mem_iff.2 hm)) q0 hq0
    unfold beamsOf at this ⊢
    rw [← sameFields_len h2, ← sameFields_len hsm]
    exact this

theorem conforms_numpy {attrs dsets : TyTable} {r : Rec} (hc : ConformsRecord attrs dsets r) :
    Conforms (fun _ => IsNumpy) attrs dsets r := by
  refine ⟨hc.complete, hc.known, fun k ty hw => hc.typed k ty (hw.imp id ?_)⟩
  rintro ⟨hm, w, hw, hno⟩
  refine ⟨hm, w, hw, fun hi => hno ?_⟩
  cases w with
  | arr a => exact hi
  | py _ _ => exact hi.elim
  | np _ _ => exact hi.elim

/-! ## Site files -/

theorem mem_stripNul {b : Bytes} {x z : UInt8} (hx : x ∈ stripNul z b) : x ∈ b := by
  unfold stripNul at hx
  exact List.mem_reverse.1 ((List.dropWhile_sublist _).subset (List.mem_reverse.1 hx))

theorem ascii_encode {s : PyStr} (ha : AsciiText s) : AsciiBytes (utf8Encode s) := by
  intro x hx
  obtain ⟨ch, hch, hx⟩ := List.mem_flatMap.1 hx
  have h1 := ha ch hch
  have : x = UInt8.ofNat ch.toNat := by
    unfold utf8EncodeChar at hx
    rw [if_pos (by omega)] at hx
    simpa using hx
  subst this
  rw [UInt8.toNat_ofNat']
  omega

theorem ppo_site' (v : Version) (t : FType) (ht : t ≠ .rawrf) : ppoName ∉ (formatOf v t).siteSingleTypes.keys := by
  cases v <;> cases t <;> first | exact absurd rfl ht | decide +kernel

theorem ppo_siteTy (v : Version) (t : FType) (ht : t ≠ .rawrf) :
    ∀ ty, (ppoName, ty) ∈ (formatOf v t).siteArrayTypes → ty = .f32 := by
  have h1 : ∀ p ∈ (formatOf v t).siteArrayTypes, p.1 = ppoName → p.2 = .f32 := by
    cases v <;> cases t <;> first | exact absurd rfl ht | decide +kernel
  exact fun ty hm => h1 _ hm rfl

theorem SliceRecords.written {rs : Records} {fs : FSys} {p : PyStr} {comp : Option PyStr}
    (hs : SliceRecords tkey v t o c rs) (ht : t ≠ .rawrf) (hnew : fs.at p = none) (hc : FilterOK h comp) :
    (siteWrite h fs p (.records rs) t.name comp).1 = .ok () := by
  refine site_written (f := .new) (by unfold FSys.openA; rw [hnew]) ht hc hs.first hs.one.names (fun n r hr => ?_) fun n hn => ?_
  · have hm := Dict.mem_of_get? hr
    exact ⟨hs.dicts _ hm, hs.kept _ hm, hs.ascii _ hm, conforms_numpy (hs.types _ hm)⟩
  · refine ⟨(hs.names n hn).1, ?_⟩
    simp [H5.new, H5.keys, Group.new]

/-- The file that records of a slice are written to. -/
theorem SliceRecords.file (hf : h.Fits) {rs : Records} {fs fs' : FSys} {p : PyStr}
    (hs : SliceRecords tkey v t o c rs) (ht : t ≠ .rawrf) (hnew : fs.at p = none)
    (hw : siteWrite h fs p (.records rs) t.name comp = (.ok (), fs')) :
    ∃ F rs1 s, fs' = fs.put p (.h5 F) ∧ PlainSite v t o c F rs1 ∧ siteHash F = .ok s ∧ selectVersion s = .ok v ∧
      SliceRecords tkey v t o c rs1 ∧ F.keys = rs.keys ∧ rs1.keys = sortStrs rs.keys ∧
      ∀ n r, (n, r) ∈ rs1 → ∃ r0, rs.get? n = some r0 ∧ SameFields r0 r := by
  obtain ⟨fmt, rs', hc, hw⟩ := siteWrite_ok hw
  have hc0 := siteWriteCheck_of ht hs.first fun n r hm =>
    (checkRecord_ok_iff (C34_site_tables v t ht) r).2 (conforms_numpy (hs.types _ hm))
  rw [hc0] at hc
  cases hc
  obtain ⟨f, f', ho, hw, rfl⟩ := writing_ok hw
  have hf0 : f = .new := by
    unfold FSys.openA at ho
    rw [hnew] at ho
    cases ho; rfl
  subst hf0
  have w := writeRecords_written hw
  obtain ⟨gs, hgs, hgk, hgw⟩ := w.groups
  have hgs : f'.groups = gs := by rw [hgs]; rfl
  have hnd : Dict.NodupKeys gs := by unfold Dict.NodupKeys; rw [hgk]; exact w.nodup
  have hkeys : f'.keys = rs.keys := by
    unfold H5.keys
    rw [hgs, hgk, w.root]
    exact List.append_nil _
  have good := C34_site_tables v t ht
  have grp : ∀ n r, rs.get? n = some r → ∃ g, f'.groups.get? n = some g ∧
      writeFields h comp (formatOf v t).siteSingleTypes [] .new r = (.ok (), g) := by
    intro n r hr
    obtain ⟨g, h1, h2⟩ := hgw n r (Dict.mem_of_get? hr)
    exact ⟨g, by rw [hgs]; exact Dict.get?_of_mem hnd h1, h2⟩
  have grp' : ∀ n g, f'.groups.get? n = some g → ∃ r, (n, r) ∈ rs ∧
      writeFields h comp (formatOf v t).siteSingleTypes [] .new r = (.ok (), g) := by
    intro n g hg
    have hm : n ∈ rs.keys := by rw [← hgk, ← hgs]; exact Dict.mem_keys_iff.2 ⟨g, hg⟩
    obtain ⟨r, hr⟩ := Dict.mem_keys_iff.1 hm
    obtain ⟨g', h1, h2⟩ := grp n r hr
    rw [hg] at h1
    cases h1
    exact ⟨r, Dict.mem_of_get? hr, h2⟩
  obtain ⟨rs1, h1, h2, h3⟩ := readNames_back (f := f') (ns := sortStrs rs.keys)
    (P := fun n r' => r'.NodupKeys ∧ ∃ r, rs.get? n = some r ∧ SameFields r r') (by
      intro n hm
      obtain ⟨r, hr⟩ := Dict.mem_keys_iff.1 ((sortStrs_perm _).mem_iff.1 hm)
      obtain ⟨g, hg1, hg2⟩ := grp n r hr
      have hm := Dict.mem_of_get? hr
      obtain ⟨r', hr1, hr2, hr3⟩ := group_back hf (plain_site v t ht) (hs.dicts _ hm) (hs.kept _ hm)
        (fun k ty v hm' hv => conforms_scalar (hs.types _ hm) hm' hv)
        (fun k hk ha => conforms_dset (hs.types _ hm) hk ha) hg2
      exact ⟨g, r', hg1, hr1, hr3, r, hr, hr2⟩)
  have hs1 : SliceRecords tkey v t o c rs1 := hs.same (by rw [h2]; exact sortStrs_perm _) h3
  -- the version
  obtain ⟨n0, r0, hr0, hmin, tail, hver, htail⟩ := hs.first
  obtain ⟨g0, hg0, hw0⟩ := grp n0 r0 hr0
  have hm0 := Dict.mem_of_get? hr0
  have hhash : siteHash f' = .ok (v.name ++ tail) := by
    obtain ⟨l, hl⟩ := sortStrs_first_of (Dict.mem_keys_iff.2 ⟨_, hr0⟩) hmin
    unfold siteHash
    rw [asStructure_ok, hkeys, hl]
    simp only [hg0]
    exact hashOf_back (hs.dicts _ hm0) (listed_iff.1 ⟨_, (hash_listed v t ht).1⟩) hver
      (((hs.kept _ hm0) _ _ hver).1 _ rfl) hw0
  have hdisj : ∀ k ∈ (formatOf v t).siteArrayTypes.keys, k ∉ (formatOf v t).siteSingleTypes.keys :=
    fun k hk hk' => (List.nodup_append.1 good.nodup).2.2 k hk' k hk rfl
  have hDn : (formatOf v t).siteArrayTypes.NodupKeys := (List.nodup_append.1 good.nodup).2.1
  have harr : ∀ p ∈ rs, ∀ k ty, (k, ty) ∈ (formatOf v t).siteArrayTypes → ∀ w, Holds p.2 k w → IsArray ty w :=
    fun p hp k ty hm w hw => Classical.byContradiction fun hno => (hs.types p hp).typed k ty (.inr ⟨hm, w, hw, hno⟩)
  have hread : readRecords f' = .ok rs1 := by unfold readRecords; rw [hkeys]; exact h1
  refine ⟨f', rs1, v.name ++ tail, rfl, ⟨?_, ?_, ?_, ?_, hread, hs1.slice, hs1.pulses, fun _ => hs1.offsets, ?_, ?_⟩, hhash,
    selectVersion_iff.2 (versionOf_of htail), hs1, hkeys, h2, fun n r hm => (h3 n r hm).2⟩
  · intro k hk
    rw [w.root] at hk
    cases hk
  · rw [hkeys]
    exact fun c => (hs.names _ c).2 rfl
  · intro n g hg
    obtain ⟨r, hm, hwf⟩ := grp' n g hg
    refine plainGroup_written (hs.dicts _ hm) hwf (plain_site v t ht)
      (fun k ty v hm' hv => conforms_scalar (hs.types _ hm) hm' hv) (hs.ascii _ hm) (hs.texts _ hm) hdisj fun k hk w hw => ?_
    obtain ⟨ty, hty⟩ := listed_iff.2 hk
    have := harr _ hm k ty hty w hw
    cases w with
    | arr a =>
      refine ⟨a, rfl, ?_⟩
      rw [Dict.get?_of_mem hDn hty, show a.ty = ty from this]
      simp
    | py _ _ => exact this.elim
    | np _ _ => exact this.elim
  · intro n g hg k hku hks b hb
    obtain ⟨r, hm, hwf⟩ := grp' n g hg
    have wf := writeFields_written (hs.dicts _ hm) hwf
    obtain ⟨w, hw, hok⟩ := (hs.slice.recs _ hm).scalar k .str hku hks
    unfold ScalarOK at hok
    rw [if_pos rfl] at hok
    obtain ⟨s, rfl, -, -⟩ := hok
    have hk : k ∈ (formatOf v t).siteSingleTypes.keys := by
      refine Classical.byContradiction fun hno => ?_
      rw [wf.oldAttr k fun c => hno c.2] at hb
      cases hb
    obtain ⟨a, ha1, ha2⟩ := wf.attr k _ (Dict.mem_of_get? hw) hk
    rw [hb] at ha2
    cases ha2
    obtain ⟨-, s', he, has⟩ := hs.ascii _ hm k _ _ hw
    cases he
    unfold storeAttr at ha1
    simp only at ha1
    obtain ⟨b', hb', ha1⟩ := bind_ok ha1
    cases ha1
    rw [asciiBytes_of has] at hb'
    cases hb'
    exact fun x hx => ascii_encode has x (mem_stripNul hx)
  · intro p hp w hw
    have hl : Listed (formatOf v t).siteArrayTypes ppoName :=
      conforms_dset (hs1.types p hp) (Dict.mem_keys_iff.2 ⟨w, hw⟩) (ppo_site' v t ht)
    obtain ⟨ty, hty⟩ := hl
    have hx : IsArray ty w :=
      Classical.byContradiction fun hno => (hs1.types p hp).typed ppoName ty (.inr ⟨hty, w, hw, hno⟩)
    have : ty = .f32 := ppo_siteTy v t ht ty hty
    subst this
    cases w with
    | arr a => exact ⟨a, rfl, hx⟩
    | py _ _ => exact hx.elim
    | np _ _ => exact hx.elim
  · intro ht' p q hp hq
    have hn1 := hs1.one.names
    cases rs1 with
    | nil => cases hp
    | cons p' l =>
      cases hp
      refine hs1.beams ht' p.1 p.2 (Dict.get?_of_mem hn1 (List.mem_cons_self ..)) (fun m hm => ?_) q hq
      have hsort : sortStrs rs.keys = p.1 :: Dict.keys l := h2.symm
      exact (sortStrs_first hsort).2 m (by rw [h2] at hm; exact (sortStrs_perm _).mem_iff.1 hm)

end Verif.Bor
