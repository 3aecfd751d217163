import Verif.Borealis.Lemmas.ArrayFileRows
import Verif.Borealis.Props.FileRestructure
/-!
# C60: restructuring an array file agrees with restructuring in memory

Examples that meet the hypotheses are in `FileDisagreeSite.lean`.
-/
namespace Verif.Bor
open Verif

variable {v : Version} {t : FType} {F : H5} {A : Rec}

/-- A record in memory and the one that is written: equal except for the phase offsets. -/
structure WrittenAs (v : Version) (t : FType) (E : Prop) (r r' : Rec) : Prop where
  but : SameButPpo r r'
  exact : E → ppoSiteFix1 r = .ok r'
  check : checkRecord (formatOf v t).siteSingleTypes (formatOf v t).siteArrayTypes r' = .ok ()

theorem sub_unshared (ht : t ≠ .rawrf) : (formatOf v t).dimsSite.keys ⊆ (formatOf v t).unshared :=
  fun k hk => (coherent v t ht).sup k hk

/-- The tables of the check that `_array_to_site_restructure` uses. -/
theorem arrays_good (ht : t ≠ .rawrf) : GoodTables (formatOf v t).siteSingleTypes (formatOf v t).arrays ∧
    ∀ k ty, (k, ty) ∈ (formatOf v t).arrays ↔ (k, ty) ∈ (formatOf v t).siteArrayTypes := by
  have hT := arrayTabled v t ht
  have hg := C34_site_tables v t ht
  have n1 : (formatOf v t).arrays.NodupKeys := (List.nodup_append.1 hT.nodup).2.1
  have n2 : (formatOf v t).siteArrayTypes.NodupKeys := (List.nodup_append.1 hg.nodup).2.1
  refine ⟨⟨hT.nodup, .inl ?_⟩, fun k ty => ⟨fun h => ?_, fun h => ?_⟩⟩
  · cases v <;> cases t <;> first | exact absurd rfl ht | decide +kernel
  · have := hT.same k (List.mem_append_left _ (List.mem_map.2 ⟨_, h, rfl⟩))
    rw [Dict.get?_of_mem n1 h] at this
    exact Dict.mem_of_get? this.symm
  · have := hT.same k (List.mem_append_right _ (List.mem_map.2 ⟨_, h, rfl⟩))
    rw [Dict.get?_of_mem n2 h] at this
    exact Dict.mem_of_get? this

/-- The site tables and the phase offsets. -/
theorem ppo_site (v : Version) (t : FType) (ht : t ≠ .rawrf) : ppoName ∉ (formatOf v t).siteSingleTypes.keys ∧
    py! "pulses" ∈ (formatOf v t).siteArrayTypes.keys := by
  cases v <;> cases t <;> first | exact absurd rfl ht | decide +kernel

/-- One row. -/
theorem row_written (ht : t ≠ .rawrf) (hp : PlainArrays v t F A) (hA : ∀ k ∈ (formatOf v t).arrayFields, k ∈ A.keys)
    {tkey : Elt → Except Err PyStr} {ts : NdArr} {i : Nat} {n : PyStr} {r w : Rec} {E : Prop}
    (hE : E → ppoName ∈ (formatOf v t).unshared → OffsetsCut A i)
    (hk : rowKey tkey ts i = .ok n) (hr : siteRecord (formatOf v t) A i = .ok r)
    (hw : flattenRec (formatOf v t) r = .ok w)
    (hc : checkRecord (formatOf v t).siteSingleTypes (formatOf v t).siteArrayTypes w = .ok ()) :
    ∃ w', rowOfFile tkey (formatOf v t) F.root ts i = .ok (n, w') ∧ WrittenAs v t E w w' := by
  have hT := arrayTabled v t ht
  have hC := coherent v t ht
  have hP := ppoTyped v t
  have hread : readGroup F.root = .ok A := by
    have := hp.read
    unfold readArrays at this
    split at this
    · exact this
    · cases this
  obtain ⟨good, hsame⟩ := arrays_good (v := v) ht
  have hgood := C34_site_tables v t ht
  obtain ⟨hps, hpu⟩ := ppo_site v t ht
  obtain ⟨r', h1, h2⟩ := recordOfFile_near hT hp.root hread hA hp.counts i (sub_unshared ht) hC.nodupD hP.single hr
  obtain ⟨w1, h3, h4⟩ := mapFields_near hT.flat.1 h2 hw
  have hcf := (checkRecord_ok_iff hgood w).1 hc
  -- the pulses
  have hpulse : ∃ p, w.get? (py! "pulses") = some p ∧ ∃ ps, p.shape? = .ok ps := by
    obtain ⟨ty, hty⟩ := Dict.mem_keys_iff.1 hpu
    have hm := Dict.mem_of_get? hty
    cases hg : w.get? (py! "pulses") with
    | none => exact absurd ⟨.inr ⟨ty, hm⟩, fun ⟨x, hx⟩ => by rw [Holds, hg] at hx; cases hx⟩ (hcf.complete (py! "pulses"))
    | some p =>
      refine ⟨p, rfl, ?_⟩
      cases p with
      | py a b => exact absurd (.inr ⟨hm, _, hg, id⟩) (hcf.typed (py! "pulses") ty)
      | np a b => exact ⟨_, rfl⟩
      | arr a => exact ⟨_, rfl⟩
  have htypes : ∀ ty, (ppoName, ty) ∈ (formatOf v t).siteArrayTypes → ty = .f32 := fun ty hm =>
    hP.arrays ty (by
      have n1 : (formatOf v t).arrays.NodupKeys := (List.nodup_append.1 hT.nodup).2.1
      exact Dict.get?_of_mem n1 ((hsame _ _).2 hm))
  -- the fix
  have hfix : ∃ w2, ppoSiteFix1 w1 = .ok w2 := by
    unfold ppoSiteFix1
    cases hg : Dict.get? w1 (py! "pulse_phase_offset") with
    | none => exact ⟨_, rfl⟩
    | some x =>
      obtain ⟨p, hp1, ps, hps'⟩ := hpulse
      rw [h4.but.2 _ (by decide)] at hp1
      have hx : ∃ s, x.shape? = .ok s := by
        have hk : ppoName ∈ w.keys := by
          rw [h4.1]
          exact Dict.mem_keys_iff.2 ⟨x, hg⟩
        obtain ⟨y, hy⟩ := Dict.mem_keys_iff.1 hk
        obtain ⟨x', hx', hn⟩ := h4.2 _ _ hy
        rw [hg] at hx'
        cases hx'
        rcases hn with rfl | ⟨-, a, a', -, rfl, -⟩
        · cases x with
          | py a b =>
            exfalso
            have hl : Listed (formatOf v t).siteSingleTypes ppoName ∨ Listed (formatOf v t).siteArrayTypes ppoName :=
              Classical.byContradiction fun c => hcf.known ppoName ⟨⟨_, hy⟩, c⟩
            rcases hl with ⟨ty, hm⟩ | ⟨ty, hm⟩
            · exact hps (List.mem_map.2 ⟨_, hm, rfl⟩)
            · exact hcf.typed ppoName ty (.inr ⟨hm, _, hy, id⟩)
          | np a b => exact ⟨_, rfl⟩
          | arr a => exact ⟨_, rfl⟩
        · exact ⟨_, rfl⟩
      obtain ⟨s, hs⟩ := hx
      simp only [hs, field_ok hp1, hps', bind, Except.bind]
      split
      · exact ⟨_, rfl⟩
      · exact ⟨_, rfl⟩
  obtain ⟨w2, hw2⟩ := hfix
  obtain ⟨hb2, hx2⟩ := ppoSiteFix1_but hw2
  have hbut : SameButPpo w w2 := ⟨h4.1.trans hb2.1, fun k hk => (h4.but.2 k hk).trans (hb2.2 k hk)⟩
  have hppo : ∀ x', w2.get? ppoName = some x' → ∃ x, w.get? ppoName = some x ∧
      (x' = x ∨ ∃ a, x' = .arr a ∧ (a.ty = .f32 ∨ ∃ b, x = .arr b ∧ a.ty = b.ty)) := by
    intro x' hx'
    have hk : ppoName ∈ w1.keys := by
      rw [hb2.1]
      exact Dict.mem_keys_iff.2 ⟨x', hx'⟩
    have hk' : ppoName ∈ w.keys := by
      rw [h4.1]
      exact hk
    obtain ⟨x, hx⟩ := Dict.mem_keys_iff.1 hk'
    obtain ⟨y, hy, hn⟩ := h4.2 _ _ hx
    obtain ⟨s, p, ps, -, -, -, hz⟩ := hx2 y hy
    rw [hx'] at hz
    refine ⟨x, hx, ?_⟩
    by_cases e : s = ps
    · rw [if_pos e] at hz
      cases hz
      rcases hn with rfl | ⟨-, a, a', rfl, rfl, hty⟩
      · exact .inl rfl
      · exact .inr ⟨a', rfl, .inr ⟨a, rfl, hty⟩⟩
    · rw [if_neg e] at hz
      cases hz
      exact .inr ⟨_, rfl, .inl rfl⟩
  have hc1 := (checkRecord_ok_iff good w2).2 (conforms_but hcf hbut hsame hps hppo htypes)
  have hc2 := (checkRecord_ok_iff hgood w2).2 (conforms_but hcf hbut (fun _ _ => Iff.rfl) hps hppo htypes)
  refine ⟨w2, ?_, hbut, fun hE' => ?_, hc2⟩
  · unfold rowOfFile
    rw [hk, h1]
    show (do let r ← flattenRec (formatOf v t) r'; _) = _
    rw [show flattenRec (formatOf v t) r' = .ok w1 from h3]
    show (do let r ← ppoSiteFix1 w1; _) = _
    rw [hw2]
    show (do checkRecords _ _ [(n, w2)]; _) = _
    rw [checkRecords_ok_iff.2 (by
      intro n' r' hm
      simp only [List.mem_singleton, Prod.mk.injEq] at hm
      rw [hm.2]
      exact hc1)]
    rfl
  · have heq : recordOfFile (formatOf v t) F.root i = siteRecord (formatOf v t) A i := by
      refine recordOfFile_eq hT hp.root hread hA hp.counts i (sub_unshared ht) ?_
      rintro ⟨k, l⟩ hm rfl
      have hu : ppoName ∈ (formatOf v t).unshared := sub_unshared ht (List.mem_map.2 ⟨_, hm, rfl⟩)
      have hl := Dict.get?_of_mem hC.nodupD hm
      rcases hT.ppoDims with c | c
      · rw [c] at hl
        cases hl
      · rw [c] at hl
        cases hl
        exact ppoOfFile_eq hT hp.root hread hA hp.counts hP.single hu (hT.dims _ hm _ (by simp)) (hE hE' hu)
    rw [h1, hr] at heq
    cases heq
    rw [show flattenRec (formatOf v t) r = .ok w1 from h3] at hw
    cases hw
    exact hw2

/-- All rows. -/
theorem rows_written (ht : t ≠ .rawrf) (hp : PlainArrays v t F A) (hA : ∀ k ∈ (formatOf v t).arrayFields, k ∈ A.keys)
    {tkey : Elt → Except Err PyStr} {ts : NdArr} {E : Prop} : ∀ {is : List Nat} {rows rs : Records},
    (E → ppoName ∈ (formatOf v t).unshared → ∀ i ∈ is, OffsetsCut A i) →
    siteRows tkey (formatOf v t) A ts is = .ok rows → mapRecords (flattenRec (formatOf v t)) rows = .ok rs →
    (∀ n r, (n, r) ∈ rs → checkRecord (formatOf v t).siteSingleTypes (formatOf v t).siteArrayTypes r = .ok ()) →
    ∃ rs', RowsOf (rowOfFile tkey (formatOf v t) F.root ts) is rs' ∧ AllRec (WrittenAs v t E) rs rs'
  | [], rows, rs, _, h, h', _ => by
    cases h
    cases h'
    exact ⟨[], .nil, .nil⟩
  | i :: is, rows, rs, hE, h, h', hc => by
    rw [siteRows] at h
    obtain ⟨n, hn, h⟩ := bind_ok h
    obtain ⟨r, hr, h⟩ := bind_ok h
    obtain ⟨l, hl, h⟩ := bind_ok h
    cases h
    rw [mapRecords] at h'
    obtain ⟨w, hw, h'⟩ := bind_ok h'
    obtain ⟨l', hl', h'⟩ := bind_ok h'
    cases h'
    obtain ⟨w', h1, h2⟩ := row_written ht hp hA (fun e hu => hE e hu i (by simp)) hn hr hw (hc n w (by simp))
    obtain ⟨rs', h3, h4⟩ := rows_written ht hp hA (fun e hu j hj => hE e hu j (by simp [hj])) hl hl'
      fun n r hm => hc n r (by simp [hm])
    exact ⟨(n, w') :: rs', .cons h1 h3, .cons h2 h4⟩

theorem AllRec.ppoSiteFix {rs rs' : Records} (h : AllRec (fun r r' => ppoSiteFix1 r = .ok r') rs rs') :
    ppoSiteFix rs = .ok rs' := by
  induction h with
  | nil => rfl
  | cons hr _ ih =>
    rw [Bor.ppoSiteFix, hr, ih]
    rfl

theorem AllRec.names {R} {rs rs' : Records} (h : AllRec R rs rs') : rs.keys = rs'.keys := by
  induction h with
  | nil => rfl
  | cons _ _ ih =>
    simp only [Dict.keys, List.map_cons] at ih ⊢
    rw [ih]

theorem AllRec.of_mem {R} {rs rs' : Records} (h : AllRec R rs rs') {n : PyStr} {r' : Rec} (hm : (n, r') ∈ rs') :
    ∃ r, (n, r) ∈ rs ∧ R r r' := by
  induction h with
  | nil => cases hm
  | cons hr _ ih =>
    rcases List.mem_cons.1 hm with e | hm
    · cases e
      exact ⟨_, List.mem_cons_self .., hr⟩
    · obtain ⟨r, h1, h2⟩ := ih hm
      exact ⟨r, List.mem_cons_of_mem _ h1, h2⟩

theorem array_fields (v : Version) (t : FType) (ht : t ≠ .rawrf) :
    ∀ k ∈ (formatOf v t).arrayFields, k ∈ (formatOf v t).arraySingleTypes.keys ++ (formatOf v t).arrayArrayTypes.keys := by
  cases v <;> cases t <;> first | exact absurd rfl ht | decide +kernel

/-- Checked arrays have all fields. -/
theorem checked_fields (ht : t ≠ .rawrf) (h : checkArrays (formatOf v t).arraySingleTypes (formatOf v t).arrayArrayTypes
    (formatOf v t).unshared A = .ok ()) : ∀ k ∈ (formatOf v t).arrayFields, k ∈ A.keys := by
  obtain ⟨good, hu⟩ := C34_array_tables v t ht
  obtain ⟨hc, -⟩ := (checkArrays_ok_iff good hu A).1 h
  intro k hk
  refine Classical.byContradiction fun hno => hc.complete k ⟨?_, fun ⟨w, hw⟩ => hno (Dict.mem_keys_iff.2 ⟨w, hw⟩)⟩
  rcases List.mem_append.1 (array_fields v t ht k hk) with h | h
  · exact .inl (listed_iff.2 h)
  · exact .inr (listed_iff.2 h)

theorem arrayRead_fix {fs : FSys} {p : PyStr} {rd : Reader Rec} (h : arrayRead fs p t.name = .ok rd)
    (hF : fs.at p = some (.h5 F)) (hr : readArrays F = .ok A) : ppoArrayFix A = .ok rd.content := by
  unfold arrayRead at h
  rw [parseFType_iff.2 rfl] at h
  obtain ⟨f, hf, h⟩ := bind_ok h
  obtain ⟨s, -, h⟩ := bind_ok h
  obtain ⟨v, -, h⟩ := bind_ok h
  obtain ⟨_, -, h⟩ := bind_ok h
  obtain ⟨r0, h0, h⟩ := bind_ok h
  obtain ⟨r1, h1, h⟩ := bind_ok h
  obtain ⟨_, -, h⟩ := bind_ok h
  cases h
  rw [openR_iff.1 hf] at hF
  cases hF
  rw [h0] at hr
  cases hr
  exact h1

/-- What is read once can be read. -/
theorem loadOnce_ok (ht : t ≠ .rawrf) (hp : PlainArrays v t F A) (hA : ∀ k ∈ (formatOf v t).arrayFields, k ∈ A.keys)
    {ts : NdArr} (hts : A.get? (py! "sqn_timestamps") = some (.arr ts)) : loadOnce (formatOf v t) F.root = .ok ts := by
  have hT := arrayTabled v t ht
  have hread : readGroup F.root = .ok A := by
    have := hp.read
    unfold readArrays at this
    split at this
    · exact this
    · cases this
  have key : ∀ (g : PyStr → Except Err Val) (l : List PyStr), (∀ k ∈ l, ∃ w, g k = .ok w) →
      ∃ r, forFields (fun k (_ : Unit) => g k) (l.map fun k => (k, ())) = .ok r := by
    intro g l
    induction l with
    | nil => exact fun _ => ⟨[], rfl⟩
    | cons k l ih =>
      intro h
      obtain ⟨w, hw⟩ := h k (by simp)
      obtain ⟨r, hr⟩ := ih fun k hk => h k (by simp [hk])
      refine ⟨(k, w) :: r, ?_⟩
      rw [List.map_cons, forFields, hw, hr]
      rfl
  have get : ∀ k ∈ (formatOf v t).arrayFields, ∃ w, field A k = .ok w := fun k hk => by
    obtain ⟨w, hw⟩ := Dict.mem_keys_iff.1 (hA k hk)
    exact ⟨w, field_ok hw⟩
  obtain ⟨r1, h1⟩ := key (sharedOfFile (formatOf v t) F.root) (formatOf v t).shared fun k hk => by
    have hk' : k ∈ (formatOf v t).arrayFields := by simp [Format.arrayFields, hk]
    rw [sharedOfFile_eq hT hp.root hread hk (hA k hk')]
    exact get k hk'
  obtain ⟨r2, h2⟩ := key (singlesOfFile (formatOf v t) F.root)
    ((formatOf v t).unshared.filter fun k => k ∈ (formatOf v t).single.keys) fun k hk => by
    obtain ⟨hk, hs⟩ := List.mem_filter.1 hk
    have hk' : k ∈ (formatOf v t).arrayFields := by simp [Format.arrayFields, hk]
    rw [singlesOfFile_eq hT hp.root hread hk (by simpa using hs) (hA k hk')]
    exact get k hk'
  obtain ⟨d, hd, hsh, he⟩ := numericD hT hp.root hread hT.times hts
  cases he
  unfold loadOnce
  rw [h1]
  show (do let _ ← forFields _ _; _) = _
  rw [h2]
  show (do let d ← field F.root.dsets (py! "sqn_timestamps"); _) = _
  rw [field_ok hd]
  exact Dset.all_eq hsh

theorem recordsOf_inv {tkey : Elt → Except Err PyStr} {f : Format} {rs : Records} (h : recordsOf tkey f A = .ok rs) :
    arrayToSite tkey f A = .ok rs ∧ checkRecords f.siteSingleTypes f.siteArrayTypes rs = .ok () := by
  unfold recordsOf at h
  simp only at h
  split at h
  · rename_i x hx
    cases h
    obtain ⟨y, hy, hx⟩ := bind_ok hx
    obtain ⟨_, hz, hx⟩ := bind_ok hx
    cases hx
    exact ⟨hy, hz⟩
  · cases h

theorem hashOf_attr {g : Group} {s : PyStr} (h : hashOf g.attrs = .ok s) : VersionAttr g s := by
  unfold hashOf at h
  obtain ⟨a, ha, h⟩ := bind_ok h
  cases a with
  | bytes b =>
    refine ⟨b, field_iff.1 ha, ?_⟩
    have h' : decodeUtf8 b = .ok s := h
    unfold decodeUtf8 at h'
    cases hu : utf8Decode b with
    | none => rw [hu] at h'; cases h'
    | some x => rw [hu] at h'; cases h'; rfl
  | empty t => cases h
  | value v => cases h

/-- Where the records in memory come from. -/
theorem flatRows_mem {tkey : Elt → Except Err PyStr} {f : Format} {ts : NdArr} : ∀ {is : List Nat} {rows rs : Records},
    siteRows tkey f A ts is = .ok rows → mapRecords (flattenRec f) rows = .ok rs → ∀ n r, (n, r) ∈ rs →
    ∃ i r0, siteRecord f A i = .ok r0 ∧ flattenRec f r0 = .ok r
  | [], rows, rs, h, h', n, r, hm => by
    cases h
    cases h'
    cases hm
  | i :: is, rows, rs, h, h', n, r, hm => by
    rw [siteRows] at h
    obtain ⟨_, -, h⟩ := bind_ok h
    obtain ⟨r0, hr, h⟩ := bind_ok h
    obtain ⟨l, hl, h⟩ := bind_ok h
    cases h
    rw [mapRecords] at h'
    obtain ⟨w, hw, h'⟩ := bind_ok h'
    obtain ⟨l', hl', h'⟩ := bind_ok h'
    cases h'
    rcases List.mem_cons.1 hm with e | hm
    · cases e
      exact ⟨i, r0, hr, hw⟩
    · exact flatRows_mem hl hl' n r hm

theorem mapFieldsOf_keys {h : Val → Except Err Val} : ∀ {ks : List PyStr} {r r' : Rec}, mapFieldsOf h r ks = .ok r' →
    r'.keys = r.keys
  | [], r, r', hs => by cases hs; rfl
  | k :: ks, r, r', hs => by
    rw [mapFieldsOf] at hs
    obtain ⟨v, hv, hs⟩ := bind_ok hs
    obtain ⟨w, -, hs⟩ := bind_ok hs
    rw [mapFieldsOf_keys hs, Dict.keys_set_of_mem (Dict.mem_keys_iff.2 ⟨v, field_iff.1 hv⟩)]

/-- The records that are written to the file. -/
theorem to_site_core (h : H5Cfg) (tkey : Elt → Except Err PyStr) (fs : FSys) (inp out : PyStr) (comp : Option PyStr)
    (t : FType) (F : H5) (A : Rec) (rd : Reader Rec) (rs : Records) (hio : fs.node inp ≠ fs.node out)
    (hF : fs.at inp = some (.h5 F)) (hrd : arrayRead fs inp t.name = .ok rd) (hp : PlainArrays rd.version t F A)
    (hrs : recordsOf tkey (formatOf rd.version t) rd.content = .ok rs) (hne : rs ≠ [])
    (hlen : ∀ a, A.get? (py! "sqn_timestamps") = some (.arr a) → a.shape.headD 0 = rs.length) :
    ∃ rs', t ≠ .rawrf ∧ FirstOfVersion rd.version rs' ∧ (∀ n r, (n, r) ∈ rs → r.NodupKeys) ∧
      AllRec (WrittenAs rd.version t (ppoName ∈ (formatOf rd.version t).unshared → ∀ i < rs.length, OffsetsCut A i)) rs rs' ∧
      (borealisRestructure h tkey fs inp out t.name (py! "site") comp).2 =
        (siteWrite h fs out (.records rs') t.name comp).2 ∧
      ((borealisRestructure h tkey fs inp out t.name (py! "site") comp).1 = .ok () ↔
        (siteWrite h fs out (.records rs') t.name comp).1 = .ok ()) := by
  obtain ⟨F', s, r0, hF', hft, hs, hv, hr0, hcheck, hraw⟩ := arrayRead_ok hrd
  rw [openR_iff.1 hF'] at hF
  cases hF
  have ht : t ≠ .rawrf := by rw [hft]; exact hraw
  have hF := openR_iff.1 hF'
  have hfix := arrayRead_fix hrd hF hp.read
  rw [← hft] at hcheck
  have hc := coherent rd.version t ht
  have hT := arrayTabled rd.version t ht
  -- the reader changes nothing
  have hcont : rd.content = A := by
    unfold ppoArrayFix at hfix
    cases hg : Dict.get? A (py! "pulse_phase_offset") with
    | none => rw [hg] at hfix; cases hfix; rfl
    | some x =>
      rw [hg] at hfix
      simp only at hfix
      obtain ⟨sh, hsh, hfix⟩ := bind_ok hfix
      split at hfix
      · rename_i e
        subst e
        cases x with
        | arr a => exact absurd (Except.ok.inj hsh) (hp.offsets a hg)
        | np _ _ => cases hsh
        | py _ _ => cases hsh
      · cases hfix
        rfl
  rw [hcont] at hrs hcheck
  have hA := checked_fields ht hcheck
  obtain ⟨hrs, hchk⟩ := recordsOf_inv hrs
  obtain ⟨ts, n, ds, rows, hts, hsh, hrows, hmap⟩ := arrayToSite_inv hrs
  have hlen' := hlen ts hts
  rw [hsh] at hlen'
  have hlen' : n = rs.length := hlen'
  have hkeys := (mapRecords_inv hmap).1
  have hnodup : (rows.map Prod.fst).Nodup := by
    rw [← length_ofList_iff, (siteRows_inv hrows).1, List.length_range, hlen']
    have := congrArg List.length hkeys
    simp only [Dict.keys, List.length_map] at this
    exact this.symm
  rw [Dict.ofList_of_nodup hnodup] at hmap hkeys
  have hall := checkRecords_ok_iff.1 hchk
  obtain ⟨rs', hro, hw⟩ := rows_written (E := ppoName ∈ (formatOf rd.version t).unshared → ∀ i < rs.length, OffsetsCut A i)
    ht hp hA (fun e hu i hi => e hu i (by rw [← hlen']; exact List.mem_range.1 hi)) hrows hmap hall
  have hmem := flatRows_mem hrows hmap
  have hown : ∀ n r, (n, r) ∈ rs → r.NodupKeys ∧ r.get? (py! "borealis_git_hash") = A.get? (py! "borealis_git_hash") := by
    intro n r hm
    obtain ⟨i, r0, h1, h2⟩ := hmem n r hm
    have hsh := hash_shared rd.version t ht
    constructor
    · unfold Dict.NodupKeys
      rw [mapFieldsOf_keys h2]
      unfold siteRecord at h1
      obtain ⟨_, -, h1⟩ := bind_ok h1
      obtain ⟨_, -, h1⟩ := bind_ok h1
      obtain ⟨_, -, h1⟩ := bind_ok h1
      cases h1
      exact update_nodup (update_nodup (update_nodup List.nodup_nil))
    · rw [mapFieldsOf_other h2 _ hT.flat.2.2, siteRecord_shared hc h1 hsh.1 hsh.2]
  -- the version
  obtain ⟨b, hb, hu⟩ : VersionAttr F.root s := hashOf_attr hs
  have hread : readGroup F.root = .ok A := by
    have := hp.read
    unfold readArrays at this
    split at this
    · exact this
    · cases this
  have hhash : A.get? (py! "borealis_git_hash") = some (.py .str (.str s)) := by
    obtain ⟨w, hw, hw'⟩ := (readGroup_get (k := py! "borealis_git_hash") hread hp.root.nodupA (by decide)).1 _ hb
    rw [hw']
    have hw2 : (decodeUtf8 b >>= fun s => .ok (.py .str (.str s)) : Except Err Val) = .ok w := hw
    unfold decodeUtf8 at hw2
    rw [hu] at hw2
    cases hw2
    rfl
  obtain ⟨tail, hs1, hs2⟩ := selectVersion_names.1 hv
  have hn' : rs'.keys.Nodup := by
    rw [← hw.names, hkeys]
    exact hnodup
  have hfirst : FirstOfVersion rd.version rs' := by
    cases hso : sortStrs rs'.keys with
    | nil =>
      exfalso
      have h0 := (sortStrs_perm rs'.keys).length_eq
      rw [hso, ← hw.names] at h0
      simp only [Dict.keys, List.length_map, List.length_nil] at h0
      exact hne (List.length_eq_zero_iff.1 h0.symm)
    | cons n l =>
      obtain ⟨h1, h2⟩ := sortStrs_first hso
      obtain ⟨r', hr'⟩ := Dict.mem_keys_iff.1 h1
      obtain ⟨r, hm, hwr⟩ := hw.of_mem (Dict.mem_of_get? hr')
      refine ⟨n, r', hr', h2, tail, ?_, hs2⟩
      rw [Holds, ← hwr.but.2 _ (by decide), (hown n r hm).2, hhash, hs1]
  refine ⟨rs', ht, hfirst, fun n r hm => (hown n r hm).1, hw, ?_⟩
  have hwc := siteWriteCheck_of ht hfirst fun n r' hm => by
    obtain ⟨r, -, hwr⟩ := hw.of_mem hm
    exact hwr.check
  have hbr : borealisRestructure h tkey fs inp out t.name (py! "site") comp =
      arrayFileToSite h tkey fs F inp out (formatOf rd.version t) comp := by
    unfold borealisRestructure
    rw [restructureType_iff.2 ⟨rfl, ht⟩]
    show (if inp = out then _ else _) = _
    obtain ⟨s', h1, h2⟩ := examine_hash hF (.array ⟨b, hb, hu⟩)
    cases h1
    rw [if_neg fun e => hio (by rw [e]), h2, restructureVersion_names.2 (selectVersion_names.1 hv)]
    simp only [bind, Except.bind]
    unfold restructure
    rw [if_neg (by simp), if_pos hc.restr]
  have hne' : rs' ≠ [] := by
    rintro rfl
    exact hne (List.length_eq_zero_iff.1 hw.length)
  rw [hbr]
  unfold arrayFileToSite siteWrite
  rw [loadOnce_ok ht hp hA hts, hwc]
  simp only [hsh, List.headD_cons, decide_eq_false hio]
  cases ho : fs.openA out with
  | ok o =>
    rw [writeRows_eq h tkey _ _ ts out comp hro fs o ho hne']
    generalize writing fs out _ = x
    obtain ⟨res, fs'⟩ := x
    cases res with
    | ok u => exact ⟨rfl, Iff.rfl⟩
    | error e => exact ⟨rfl, by simp⟩
  | error e =>
    generalize List.range n = is at hro
    cases hro with
    | nil => exact absurd rfl hne'
    | cons hpq _ =>
      rw [writeRows, hpq]
      simp only [Bool.false_eq_true, if_false]
      unfold writing
      rw [ho]
      simp

/-- **C60 (partial)** `BorealisRestructure` to `site` writes what `BorealisSiteWrite` writes when it is given the records
that the property `records` of a reader of the input file returns, except that it applies the fix of the site readers to
the phase offsets before, and it succeeds for the same files.  Not covered are files with other than the plain attributes and
datasets of the writers, phase offsets that the array readers replace, records with equal names (`C60_names_violation`), and
phase offsets that are not as many as the sequences. -/
theorem C60_to_site_partial (h : H5Cfg) (tkey : Elt → Except Err PyStr) (fs : FSys) (inp out : PyStr) (comp : Option PyStr)
    (t : FType) (F : H5) (A : Rec) (rd : Reader Rec) (rs : Records) (hio : fs.node inp ≠ fs.node out)
    (hF : fs.at inp = some (.h5 F)) (hrd : arrayRead fs inp t.name = .ok rd) (hp : PlainArrays rd.version t F A)
    (hrs : recordsOf tkey (formatOf rd.version t) rd.content = .ok rs) (hne : rs ≠ [])
    (hlen : ∀ a, A.get? (py! "sqn_timestamps") = some (.arr a) → a.shape.headD 0 = rs.length) :
    ∃ rs', AllRec SameButPpo rs rs' ∧
      ((ppoName ∈ (formatOf rd.version t).unshared → ∀ i < rs.length, OffsetsCut A i) →
        ppoSiteFix rs = .ok rs' ∧ ((∀ p ∈ rs, PpoLikePulses p.2) → rs' = rs)) ∧
      (borealisRestructure h tkey fs inp out t.name (py! "site") comp).2 =
        (siteWrite h fs out (.records rs') t.name comp).2 ∧
      ((borealisRestructure h tkey fs inp out t.name (py! "site") comp).1 = .ok () ↔
        (siteWrite h fs out (.records rs') t.name comp).1 = .ok ()) := by
  obtain ⟨rs', -, -, -, hw, h1⟩ := to_site_core h tkey fs inp out comp t F A rd rs hio hF hrd hp hrs hne hlen
  refine ⟨rs', hw.imp fun _ _ _ _ h => h.but, fun hE => ?_, h1⟩
  have hfix := (hw.imp fun _ _ _ _ h => h.exact hE).ppoSiteFix
  refine ⟨hfix, fun hl => ?_⟩
  rw [ppoSiteFix_id fun n r hm => hl (n, r) hm] at hfix
  exact (Except.ok.inj hfix).symm

/-- What is written with fixed phase offsets. -/
theorem fixed_written {r r' : Rec} (ht : t ≠ .rawrf) (hn : r.NodupKeys) (hk : KeptRec (formatOf v t).siteArrayTypes r)
    (hx : ppoSiteFix1 r = .ok r') :
    r'.NodupKeys ∧ KeptRec (formatOf v t).siteArrayTypes r' ∧ PpoLikePulses r' ∧ (AsciiRec r → AsciiRec r') := by
  obtain ⟨hb, hz⟩ := ppoSiteFix1_but hx
  have hval : ∀ w', r'.get? ppoName = some w' → ∃ w s p ps, r.get? ppoName = some w ∧ w.shape? = .ok s ∧
      r.get? (py! "pulses") = some p ∧ p.shape? = .ok ps ∧ w' = if s = ps then w else zerosF32 ps := by
    intro w' hw'
    obtain ⟨w, hw⟩ := Dict.mem_keys_iff.1 (show ppoName ∈ r.keys by rw [hb.1]; exact Dict.mem_keys_iff.2 ⟨w', hw'⟩)
    obtain ⟨s, p, ps, h1, h2, h3, h4⟩ := hz w hw
    rw [hw'] at h4
    exact ⟨w, s, p, ps, hw, h1, h2, h3, Option.some.inj h4⟩
  refine ⟨?_, ?_, ?_, fun ha k ty e hw' => ?_⟩
  · unfold Dict.NodupKeys
    rw [← hb.1]
    exact hn
  · intro k w' hw'
    by_cases e : k = ppoName
    · subst e
      obtain ⟨w, s, p, ps, h1, h2, h3, h4, rfl⟩ := hval w' hw'
      by_cases e : s = ps
      · rw [if_pos e]
        exact hk _ _ h1
      · rw [if_neg e]
        obtain ⟨-, hparr⟩ := hk _ _ h3
        obtain ⟨a, rfl⟩ := hparr (listed_iff.2 (ppo_site v t ht).2)
        obtain ⟨hkp, -⟩ := hk _ _ h3
        cases h4
        exact ⟨⟨by simp, hkp.rank, fun c => by cases c⟩, fun _ => ⟨_, rfl⟩⟩
    · exact hk k w' (by unfold Holds at hw' ⊢; rw [hb.2 k e]; exact hw')
  · intro w' hw'
    obtain ⟨w, s, p, ps, h1, h2, h3, h4, rfl⟩ := hval w' hw'
    refine ⟨p, ps, by unfold Holds; rw [← hb.2 _ (by decide)]; exact h3, ?_, h4⟩
    by_cases e : s = ps
    · rw [if_pos e, h2, e]
    · rw [if_neg e]
      rfl
  · by_cases hp : k = ppoName
    · subst hp
      obtain ⟨w, s, p, ps, h1, h2, h3, h4, h5⟩ := hval _ hw'
      by_cases e : s = ps
      · rw [if_pos e] at h5
        subst h5
        exact ha _ _ _ h1
      · rw [if_neg e] at h5
        cases h5
    · exact ha k ty e (by unfold Holds at hw' ⊢; rw [hb.2 k hp]; exact hw')

/-- **C60 (partial)** When `BorealisRestructure` to `site` writes a new file, a reader of the file it writes has the
records that the property `records` of a reader of the input file returns, with phase offsets as the site readers fix
them. -/
theorem C60_to_site_content_partial (h : H5Cfg) (hfit : h.Fits) (tkey : Elt → Except Err PyStr) (fs fs' : FSys)
    (inp out : PyStr) (comp : Option PyStr)
    (t : FType) (F : H5) (A : Rec) (rd : Reader Rec) (rs : Records) (hio : fs.node inp ≠ fs.node out)
    (hnew : fs.at out = none)
    (hF : fs.at inp = some (.h5 F)) (hrd : arrayRead fs inp t.name = .ok rd) (hp : PlainArrays rd.version t F A)
    (hrs : recordsOf tkey (formatOf rd.version t) rd.content = .ok rs) (hne : rs ≠ [])
    (hlen : ∀ a, A.get? (py! "sqn_timestamps") = some (.arr a) → a.shape.headD 0 = rs.length)
    (hcut : ppoName ∈ (formatOf rd.version t).unshared → ∀ i < rs.length, OffsetsCut A i)
    (hkept : ∀ p ∈ rs, KeptRec (formatOf rd.version t).siteArrayTypes p.2)
    (hok : borealisRestructure h tkey fs inp out t.name (py! "site") comp = (.ok (), fs')) :
    ∃ rd' rs', siteRead fs' out t.name = .ok rd' ∧ rd'.ftype = t ∧ rd'.version = rd.version ∧
      SortedNames rs.keys rd'.names ∧ rd'.content.keys = rd'.names ∧
      AllRec SameButPpo rs rs' ∧ ppoSiteFix rs = .ok rs' ∧ SameRecords rs' rd'.content ∧
      ((∀ p ∈ rs, PpoLikePulses p.2) → SameRecords rs rd'.content) := by
  obtain ⟨rs', ht, hfirst, hnd, hw, h1, h2⟩ :=
    to_site_core h tkey fs inp out comp t F A rd rs hio hF hrd hp hrs hne hlen
  rw [hok] at h1 h2
  have hwr : siteWrite h fs out (.records rs') t.name comp = (.ok (), fs') := by
    rw [Prod.ext_iff]
    exact ⟨h2.1 rfl, h1.symm⟩
  have hfix := (hw.imp fun _ _ _ _ h => h.exact hcut).ppoSiteFix
  have hrec : ∀ n r', rs'.get? n = some r' →
      r'.NodupKeys ∧ KeptRec (formatOf rd.version t).siteArrayTypes r' ∧ PpoLikePulses r' := by
    intro n r' hr'
    obtain ⟨r, hm, hx⟩ := hw.of_mem (Dict.mem_of_get? hr')
    obtain ⟨h1, h2, h3, -⟩ := fixed_written ht (hnd n r hm) (hkept _ hm) (hx.exact hcut)
    exact ⟨h1, h2, h3⟩
  obtain ⟨rd', hr1, hr2, hr3, hr4, hr5, hr6⟩ :=
    C56_site_partial h hfit fs fs' out rs' comp rd.version t hnew hfirst hrec hwr
  refine ⟨rd', rs', hr1, hr2, hr3, by rw [hw.names]; exact hr4, hr5, hw.imp fun _ _ _ _ h => h.but, hfix, hr6, fun hl => ?_⟩
  rw [ppoSiteFix_id fun n r hm => hl (n, r) hm] at hfix
  rw [Except.ok.inj hfix]
  exact hr6

end Verif.Bor
