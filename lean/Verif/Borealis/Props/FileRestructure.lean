import Verif.Borealis.Lemmas.PpoCongr
import Verif.Borealis.Props.Arguments
import Verif.Borealis.Props.Files
import Verif.Borealis.Props.Restructure
import Verif.Borealis.SamplePlain
/-!
# C60: restructuring a file agrees with restructuring in memory

Examples that meet the hypotheses are in `FileDisagree.lean`.
-/
namespace Verif.Bor
open Verif

/-! ## From site to array -/

variable {v : Version} {t : FType} {o : Ppo} {c : Common} {F : H5} {rs : Records}

theorem hash_shared (v : Version) (t : FType) (ht : t ≠ .rawrf) :
    py! "borealis_git_hash" ∈ (formatOf v t).shared ∧ py! "borealis_git_hash" ∉ (formatOf v t).unshared := by
  cases v <;> cases t <;> first | exact absurd rfl ht | decide +kernel

theorem PlainSite.fromFile (h : PlainSite v t o c F rs) :
    FromFile F (SiteGroup (formatOf v t) t o c (flatFields v t)) (sortStrs F.keys) rs :=
  (fromFile_read h.read).imp fun n g _ hg hm hr =>
    ⟨hr, h.groups n g hg, h.records.recs _ hm, fun hp => h.pulses hp _ hm, fun k hk hs => h.ascii n g hg k hk hs⟩

theorem first_max {p : PyStr × Rec} {rs : Records} (h : ∀ q ∈ p :: rs, beamsOf q.2 ≤ beamsOf p.2) :
    beamsOf p.2 = Q.max c (p :: rs) .beams := by
  have key : ∀ (rs : Records) m, (∀ q ∈ rs, beamsOf q.2 ≤ m) →
      rs.foldl (fun m p => Nat.max m (Q.size c p.2 .beams)) m = m := by
    intro rs
    induction rs with
    | nil => exact fun _ _ => rfl
    | cons q rs ih =>
      intro m hm
      have h1 : Nat.max m (Q.size c q.2 .beams) = m := Nat.max_eq_left (hm q (List.mem_cons_self ..))
      rw [List.foldl_cons, h1]
      exact ih m fun q' hq' => hm q' (List.mem_cons_of_mem _ hq')
  unfold Q.max
  rw [List.foldl_cons]
  have h0 : Nat.max 0 (Q.size c p.2 .beams) = beamsOf p.2 := Nat.zero_max _
  rw [h0]
  exact (key rs _ fun q hq => h q (List.mem_cons_of_mem _ hq)).symm

theorem beams_antennas (t : FType) (h : Q.beams ∈ mainShape t) : t ≠ .antennasIq := by
  rintro rfl
  revert h
  decide

/-- The arrays made of the file are those of its records. -/
theorem PlainSite.arrays (h : PlainSite v t o c F rs) (ht : t ≠ .rawrf) :
    arraysOfFile (formatOf v t) (mainDims v t) F = siteToArray (formatOf v t) rs := by
  have hf := h.fromFile
  have hrs := h.records
  have hb := h.beams
  cases rs with
  | nil => exact absurd rfl hrs.nonempty
  | cons p rs =>
    obtain ⟨n0, r0⟩ := p
    exact arraysOfFile_eq (coherent v t ht) (tabled v t ht) (mainOK v t ht) h.offsets h.root hrs hf fun hq =>
      first_max (p := (n0, r0)) fun q hq' => hb (beams_antennas t hq) _ q rfl hq'

/-- The version of the file. -/
theorem siteHash_attr {F : H5} {s : PyStr} (h : siteHash F = .ok s) :
    ∃ n l g, sortStrs F.keys = n :: l ∧ F.groups.get? n = some g ∧ VersionAttr g s := by
  unfold siteHash at h
  rw [asStructure_ok] at h
  split at h
  · cases h
  · rename_i n l hs
    cases hg : F.groups.get? n with
    | none => rw [hg] at h; cases h
    | some g =>
      rw [hg] at h
      simp only at h
      unfold hashOf at h
      obtain ⟨a, ha, h⟩ := bind_ok h
      cases a with
      | bytes b =>
        refine ⟨n, l, g, hs, hg, b, field_iff.1 ha, ?_⟩
        have h' : decodeUtf8 b = .ok s := h
        unfold decodeUtf8 at h'
        cases hu : utf8Decode b with
        | none => rw [hu] at h'; cases h'
        | some x => rw [hu] at h'; cases h'; rfl
      | empty t => cases h
      | value v => cases h

theorem PlainSite.examined (h : PlainSite v t o c F rs) {fs : FSys} {p s : PyStr} (hF : fs.at p = some (.h5 F))
    (hs : siteHash F = .ok s) (hv : selectVersion s = .ok v) : examine fs p = .ok (F, .site, v) := by
  obtain ⟨n, l, g, hn, hg, ha⟩ := siteHash_attr hs
  have hmin := (sortStrs_first hn).2
  have hr : py! "borealis_git_hash" ∉ F.root.attrs.keys := fun c => by
    have := h.root _ c
    revert this
    decide
  obtain ⟨s', h1, h2⟩ := examine_hash hF (.site h.names hr hg hmin ha)
  cases h1
  rw [h2, restructureVersion_names.2 (selectVersion_names.1 hv)]
  rfl

theorem siteRead_fix {fs : FSys} {p : PyStr} {rd : Reader Records} (h : siteRead fs p t.name = .ok rd)
    (hF : fs.at p = some (.h5 F)) (hr : readRecords F = .ok rs) : ppoSiteFix rs = .ok rd.content := by
  unfold siteRead at h
  rw [parseFType_iff.2 rfl] at h
  obtain ⟨f, hf, h⟩ := bind_ok h
  obtain ⟨s, -, h⟩ := bind_ok h
  obtain ⟨v, -, h⟩ := bind_ok h
  obtain ⟨_, -, h⟩ := bind_ok h
  obtain ⟨rs0, h0, h⟩ := bind_ok h
  obtain ⟨rs1, h1, h⟩ := bind_ok h
  obtain ⟨_, -, h⟩ := bind_ok h
  cases h
  rw [openR_iff.1 hf] at hF
  cases hF
  rw [h0] at hr
  cases hr
  exact h1

/-- The phase offsets of the arrays of a file. -/
structure StackedPpo (f : Format) (N : Nat) (A : Rec) : Prop where
  array : ∀ w, A.get? ppoName = some w → ∃ a, w = .arr a ∧ a.ty = .f32 ∧ (ppoName ∈ f.unshared → ∃ ds, a.shape = N :: ds)
  seqs : ∃ w, A.get? (py! "num_sequences") = some w ∧ HasRecords N w

theorem PlainSite.stacked {A : Rec} (h : PlainSite v t o c F rs) (ht : t ≠ .rawrf)
    (hA : siteToArray (formatOf v t) rs = .ok A) : StackedPpo (formatOf v t) rs.length A := by
  have hc := coherent v t ht
  have hp := ppoTyped v t
  obtain ⟨rs', A', hA', hall, hrs', hst⟩ := siteToArray_ok hc h.records
  rw [hA] at hA'
  cases hA'
  refine ⟨?_, ?_⟩
  · intro w hw
    by_cases hu : ppoName ∈ (formatOf v t).unshared
    · obtain ⟨a, ha, hty, -, hsh, -⟩ := hst.array ppoName .f32 hu hp.single (hp.present hu)
      rw [hw] at ha
      cases ha
      exact ⟨a, rfl, hty, fun _ => ⟨_, by rw [hsh, hall.length]⟩⟩
    · by_cases hs : ppoName ∈ (formatOf v t).shared
      · have hl : 0 < rs'.length := List.length_pos_iff.2 hrs'.nonempty
        have hl0 : 0 < rs.length := by rw [← hall.length]; exact hl
        have h1 := hst.shared rs'[0] (List.getElem?_eq_getElem hl) ppoName hs hu
        have hfl : ppoName ∉ flatFields v t := fun c => (flat_arr hc c).1.2.2.2 rfl
        rw [(hall.recs 0 hl0 hl).same _ hfl, hw] at h1
        obtain ⟨a, rfl, hty⟩ := h.shared _ (List.getElem_mem hl0) w h1.symm
        exact ⟨a, rfl, hty, fun c => absurd c hu⟩
      · exact absurd ((hst.keys _).1 (Dict.mem_keys_iff.2 ⟨w, hw⟩)) (hp.absent hs hu)
  · obtain ⟨a, ha, -, -, hsh, -⟩ := hst.scalar _ _ hc.seqs.2 hc.seqs.1
    exact ⟨.arr a, ha, [], by rw [hsh, hall.length]⟩

theorem hasRecords_unique {n m : Nat} {w : Val} (h : HasRecords n w) (h' : HasRecords m w) : n = m := by
  cases w with
  | arr a =>
    obtain ⟨d, hd⟩ := h
    obtain ⟨d', hd'⟩ := h'
    rw [hd] at hd'
    exact (List.cons.inj hd').1
  | np _ _ => exact absurd h id
  | py _ _ => exact absurd h id

/-- Arrays with other phase offsets pass the checks as well. -/
theorem check_but {A A' : Rec} {N : Nat} (ht : t ≠ .rawrf) (hb : SameButPpo A A') (hp : StackedPpo (formatOf v t) N A')
    (h : checkArrays (formatOf v t).arraySingleTypes (formatOf v t).arrayArrayTypes (formatOf v t).unshared A = .ok ()) :
    checkArrays (formatOf v t).arraySingleTypes (formatOf v t).arrayArrayTypes (formatOf v t).unshared A' = .ok () := by
  obtain ⟨good, hu⟩ := C34_array_tables v t ht
  have hty := ppoTyped v t
  have hc := coherent v t ht
  rw [checkArrays_ok_iff good hu] at h ⊢
  obtain ⟨⟨h1, h2, h3⟩, n, hn⟩ := h
  have hkeys : ∀ k, (∃ w, Holds A k w) ↔ ∃ w, Holds A' k w := fun k => by
    unfold Holds
    rw [← Dict.mem_keys_iff, ← Dict.mem_keys_iff, hb.1]
  refine ⟨⟨fun k hm => h1 k ⟨hm.1, fun c => hm.2 ((hkeys k).1 c)⟩, fun k hm => h2 k ⟨(hkeys k).2 hm.1, hm.2⟩, ?_⟩, n, ?_⟩
  · intro k ty hw
    by_cases hk : k = ppoName
    · subst hk
      rcases hw with ⟨hm, -⟩ | ⟨hm, w, hw, hno⟩
      · exact hty.arraySingle (List.mem_map.2 ⟨_, hm, rfl⟩)
      · obtain ⟨a, rfl, ha, -⟩ := hp.array w hw
        have hnd : (formatOf v t).arrayArrayTypes.NodupKeys := (List.nodup_append.1 good.nodup).2.1
        have := hty.arrayTypes ty (Dict.get?_of_mem hnd hm)
        subst this
        exact hno (.inl ha)
    · refine h3 k ty (hw.imp ?_ ?_)
      · rintro ⟨hm, w, hw, hno⟩
        exact ⟨hm, w, by unfold Holds at hw ⊢; rw [hb.2 k hk]; exact hw, hno⟩
      · rintro ⟨hm, w, hw, hno⟩
        exact ⟨hm, w, by unfold Holds at hw ⊢; rw [hb.2 k hk]; exact hw, hno⟩
  · intro k hk
    obtain ⟨w, hw, hr⟩ := hn k hk
    by_cases hkp : k = ppoName
    · subst hkp
      obtain ⟨w', hw'⟩ := (hkeys _).1 ⟨w, hw⟩
      obtain ⟨a, rfl, -, hsh⟩ := hp.array w' hw'
      obtain ⟨ds, hds⟩ := hsh hk
      obtain ⟨ws, hws, hsr⟩ := hp.seqs
      obtain ⟨ws', hws', hsr'⟩ := hn _ hc.seqs.2
      rw [← hb.2 _ (by decide)] at hws
      rw [Holds, hws] at hws'
      cases hws'
      have := hasRecords_unique hsr hsr'
      subst this
      exact ⟨_, hw', ds, hds⟩
    · exact ⟨w, by unfold Holds at hw ⊢; rw [← hb.2 k hkp]; exact hw, hr⟩

/-- The version of the arrays is that of the file. -/
theorem PlainSite.hash {A : Rec} (h : PlainSite v t o c F rs) (ht : t ≠ .rawrf)
    (hA : siteToArray (formatOf v t) rs = .ok A) {s : PyStr} (hs : siteHash F = .ok s) :
    A.get? (py! "borealis_git_hash") = some (.py .str (.str s)) := by
  have hc := coherent v t ht
  obtain ⟨rs', A', hA', hall, hrs', hst⟩ := siteToArray_ok hc h.records
  rw [hA] at hA'
  cases hA'
  obtain ⟨n, l, g, hn, hg, b, hb, hu⟩ := siteHash_attr hs
  have hl : 0 < rs'.length := List.length_pos_iff.2 hrs'.nonempty
  have hl0 : 0 < rs.length := by rw [← hall.length]; exact hl
  have h1 := hst.shared rs'[0] (List.getElem?_eq_getElem hl) _ (hash_shared v t ht).1 (hash_shared v t ht).2
  have hfl : py! "borealis_git_hash" ∉ flatFields v t := fun c => (flat_arr hc c).2.2.1 (hash_shared v t ht).1
  rw [(hall.recs 0 hl0 hl).same _ hfl] at h1
  rw [h1]
  have hf := fromFile_read h.read
  rw [hn] at hf
  cases hf with
  | @cons _ g' r _ rs hg' hr _ =>
    rw [hg] at hg'
    cases hg'
    obtain ⟨w, hw, hw'⟩ := (readGroup_get (k := py! "borealis_git_hash") hr (h.groups _ _ hg).nodupA (by decide)).1 _ hb
    show r.get? _ = _
    rw [hw']
    have hw2 : (decodeUtf8 b >>= fun s => .ok (.py .str (.str s)) : Except Err Val) = .ok w := hw
    unfold decodeUtf8 at hw2
    rw [hu] at hw2
    cases hw2
    rfl

theorem update_nodup {d e : Rec} (h : d.NodupKeys) : (update d e).NodupKeys := by
  unfold update
  induction e generalizing d with
  | nil => exact h
  | cons p e ih => exact ih (Dict.nodup_set h ..)

theorem siteToArray_nodup {f : Format} {A : Rec} (h : siteToArray f rs = .ok A) : A.NodupKeys := by
  unfold siteToArray at h
  split at h
  · obtain ⟨rs', -, h⟩ := bind_ok h
    unfold stackRecords at h
    obtain ⟨_, -, h⟩ := bind_ok h
    obtain ⟨_, -, h⟩ := bind_ok h
    obtain ⟨_, -, h⟩ := bind_ok h
    obtain ⟨_, -, h⟩ := bind_ok h
    cases h
    exact update_nodup (update_nodup (update_nodup List.nodup_nil))
  · cases h

theorem siteToArray_ppo {A : Rec} (h : PlainSite v t o c F rs) (ht : t ≠ .rawrf)
    (hA : siteToArray (formatOf v t) rs = .ok A)
    (hppo : ppoName ∉ (formatOf v t).unshared → ∀ p ∈ rs, ∀ a, p.2.get? ppoName = some (.arr a) →
      KeptArray a ∧ a.shape ≠ [2]) (w : Val) (hw : A.get? ppoName = some w) :
    ∃ a, w = .arr a ∧ KeptArray a ∧ a.shape ≠ [2] := by
  have hc := coherent v t ht
  have hp := ppoTyped v t
  obtain ⟨rs', A', hA', hall, hrs', hst⟩ := siteToArray_ok hc h.records
  rw [hA] at hA'
  cases hA'
  by_cases hu : ppoName ∈ (formatOf v t).unshared
  · obtain ⟨a, ha, hty, hwf, hsh, -⟩ := hst.array ppoName .f32 hu hp.single (hp.present hu)
    rw [hw] at ha
    cases ha
    refine ⟨a, rfl, ⟨hwf, by rw [hsh]; simp, fun e => by rw [hty] at e; cases e⟩, ?_⟩
    rw [hsh, shapeOf, if_pos rfl]
    cases o <;> simp [Ppo.shape]
  · by_cases hs : ppoName ∈ (formatOf v t).shared
    · have hl : 0 < rs'.length := List.length_pos_iff.2 hrs'.nonempty
      have hl0 : 0 < rs.length := by rw [← hall.length]; exact hl
      have h1 := hst.shared rs'[0] (List.getElem?_eq_getElem hl) ppoName hs hu
      have hfl : ppoName ∉ flatFields v t := fun c => (flat_arr hc c).1.2.2.2 rfl
      rw [(hall.recs 0 hl0 hl).same _ hfl, hw] at h1
      obtain ⟨a, rfl, -⟩ := h.shared _ (List.getElem_mem hl0) w h1.symm
      exact ⟨a, rfl, hppo hu _ (List.getElem_mem hl0) a h1.symm⟩
    · exact absurd ((hst.keys _).1 (Dict.mem_keys_iff.2 ⟨w, hw⟩)) (hp.absent hs hu)

/-- The object `BorealisArrayWrite` writes the arrays. -/
theorem arrayWrite_checked {h : H5Cfg} {fs : FSys} {p : PyStr} {comp : Option PyStr} {A : Rec} {s : PyStr} (ht : t ≠ .rawrf)
    (hs : A.get? (py! "borealis_git_hash") = some (.py .str (.str s))) (hv : selectVersion s = .ok v)
    (hc : checkArrays (formatOf v t).arraySingleTypes (formatOf v t).arrayArrayTypes (formatOf v t).unshared A = .ok ()) :
    arrayWrite h fs p (.arrays A) t.name comp = writing fs p fun f => writeArrays h comp (formatOf v t) f A := by
  have hd : arrayDataHash (.arrays A) = .ok s := by
    unfold arrayDataHash
    rw [asStructure_ok]
    show (do
      let x ← field A (py! "borealis_git_hash")
      splitText x) = _
    rw [field_iff.2 hs]
    rfl
  have : arrayWriteCheck (.arrays A) t.name = .ok (formatOf v t, A) := by
    unfold arrayWriteCheck
    rw [parseFType_iff.2 rfl]
    simp only [hd, hv, tables_ok ht, hc, bind, Except.bind]
  unfold arrayWrite
  rw [this]

theorem asRestructure_ok {α : Type} {f : Err → Bool} {x : Except Err α} {a : α} : asRestructure f x = .ok a ↔ x = .ok a := by
  unfold asRestructure
  cases x with
  | ok b => rfl
  | error e => simp only; split <;> simp

/-- `BorealisRestructure` writes the arrays of a plain file. -/
theorem PlainSite.restructured {h : H5Cfg} {tkey : Elt → Except Err PyStr} {fs : FSys} {inp out s : PyStr}
    {comp : Option PyStr} {A : Rec} (hp : PlainSite v t o c F rs) (ht : t ≠ .rawrf) (hio : inp ≠ out)
    (hF : fs.at inp = some (.h5 F)) (hs : siteHash F = .ok s) (hv : selectVersion s = .ok v)
    (hA : siteToArray (formatOf v t) rs = .ok A)
    (hc : checkArrays (formatOf v t).arraySingleTypes (formatOf v t).arrayArrayTypes (formatOf v t).unshared A = .ok ()) :
    (borealisRestructure h tkey fs inp out t.name (py! "array") comp).2 =
        (arrayWrite h fs out (.arrays A) t.name comp).2 ∧
      ((borealisRestructure h tkey fs inp out t.name (py! "array") comp).1 = .ok () ↔
        (arrayWrite h fs out (.arrays A) t.name comp).1 = .ok ()) := by
  rw [arrayWrite_checked ht (hp.hash ht hA hs) hv hc]
  have hbr : borealisRestructure h tkey fs inp out t.name (py! "array") comp = siteFileToArray h fs F out v t comp := by
    unfold borealisRestructure
    rw [restructureType_iff.2 ⟨rfl, ht⟩]
    show (if inp = out then _ else _) = _
    rw [if_neg hio, hp.examined hF hs hv]
    simp only
    unfold restructure
    rw [if_neg (by simp), if_pos (coherent v t ht).restr]
  rw [hbr]
  unfold siteFileToArray
  simp only [hp.arrays ht, hA, hc, bind, Except.bind]
  exact ⟨trivial, asRestructure_ok⟩

/-- The arrays that are written to the file. -/
theorem to_array_core (h : H5Cfg) (tkey : Elt → Except Err PyStr) (fs : FSys) (inp out : PyStr) (comp : Option PyStr)
    (t : FType) (o : Ppo) (c : Common) (F : H5) (rs : Records) (rd : Reader Records) (A : Rec) (hio : inp ≠ out)
    (hF : fs.at inp = some (.h5 F)) (hrd : siteRead fs inp t.name = .ok rd) (hp : PlainSite rd.version t o c F rs)
    (hA : arraysOf (formatOf rd.version t) rd.content = .ok A) :
    ∃ A', siteToArray (formatOf rd.version t) rs = .ok A' ∧ t ≠ .rawrf ∧
      (∃ s, siteHash F = .ok s ∧ selectVersion s = .ok rd.version) ∧ SameButPpo A A' ∧ (rd.content = rs → A' = A) ∧
      (borealisRestructure h tkey fs inp out t.name (py! "array") comp).2 =
        (arrayWrite h fs out (.arrays A') t.name comp).2 ∧
      ((borealisRestructure h tkey fs inp out t.name (py! "array") comp).1 = .ok () ↔
        (arrayWrite h fs out (.arrays A') t.name comp).1 = .ok ()) := by
  obtain ⟨F', s, hF', hft, hs, hv, -, -, hraw⟩ := siteRead_ok hrd
  rw [openR_iff.1 hF'] at hF
  cases hF
  have ht : t ≠ .rawrf := by rw [hft]; exact hraw
  have hF := openR_iff.1 hF'
  have hfix := siteRead_fix hrd hF hp.read
  have hc := coherent rd.version t ht
  have htab := tabled rd.version t ht
  have hppo := ppoTyped rd.version t
  -- the arrays in memory
  have hA1 : siteToArray (formatOf rd.version t) rd.content = .ok A ∧ checkArrays (formatOf rd.version t).arraySingleTypes
      (formatOf rd.version t).arrayArrayTypes (formatOf rd.version t).unshared A = .ok () := by
    unfold arraysOf at hA
    simp only at hA
    split at hA
    · rename_i x hx
      cases hA
      obtain ⟨y, hy, hx⟩ := bind_ok hx
      obtain ⟨_, hz, hx⟩ := bind_ok hx
      cases hx
      exact ⟨hy, hz⟩
    · cases hA
  obtain ⟨hA1, hA2⟩ := hA1
  obtain ⟨-, A', hA', -⟩ := siteToArray_ok hc hp.records
  -- the records of the reader
  have hall : AllRec (fun r r' => SameButPpo r r' ∧
      SiteRec (formatOf rd.version t) t (fixedPpo (formatOf rd.version t) o) c (flatFields rd.version t) r') rs rd.content := by
    have h1 := ppoSiteFix_all hfix
    have h2 := hp.records.recs
    have h3 := hp.pulses
    have h4 := hp.records.pos
    have h5 := hp.offsets
    generalize rd.content = rs1 at h1
    clear hp hfix hA' hA1
    induction h1 with
    | nil => exact .nil
    | cons hr _ ih =>
      exact .cons (fixed_rec hppo hc h4 (h2 _ (List.mem_cons_self ..)) (fun hu => h3 hu _ (List.mem_cons_self ..)) h5 hr)
        (ih (fun p hp => h2 p (List.mem_cons_of_mem _ hp)) fun hu p hp => h3 hu p (List.mem_cons_of_mem _ hp))
  have hbut : AllRec SameButPpo rs rd.content := hall.imp fun _ _ _ _ h => h.1
  have hsite : SiteRecords (formatOf rd.version t) t (fixedPpo (formatOf rd.version t) o) c (flatFields rd.version t)
      rd.content := by
    refine ⟨?_, hp.records.pos, ?_, ?_⟩
    · intro e
      have := hall.length
      rw [e] at this
      exact hp.records.nonempty (List.length_eq_zero_iff.1 this)
    · have : ∀ {rs rs1 : Records} {P : Rec → Prop} {R : Rec → Rec → Prop}, AllRec (fun r r' => R r r' ∧ P r') rs rs1 →
          ∀ p ∈ rs1, P p.2 := by
        intro rs rs1 P R h
        induction h with
        | nil => exact fun p hp => by cases hp
        | cons hr _ ih =>
          intro p hp
          rcases List.mem_cons.1 hp with rfl | hp
          · exact hr.2
          · exact ih p hp
      exact this hall
    · have hiff : ∀ (P : Nat → Prop), (∀ p ∈ rs, P (blankedOf p.2)) → ∀ p ∈ rd.content, P (blankedOf p.2) := by
        intro P
        generalize rd.content = rs1 at hbut
        clear hp hfix hA' hall hA1
        induction hbut with
        | nil => exact fun _ p hp => by cases hp
        | cons hr _ ih =>
          intro hq p hp
          rcases List.mem_cons.1 hp with rfl | hp
          · have := hq _ (List.mem_cons_self ..)
            have e := size_but (c := c) hr .blanked
            simp only [Q.size] at e
            rw [e] at this
            exact this
          · exact ih (fun p hp => hq p (List.mem_cons_of_mem _ hp)) p hp
      exact hp.records.blanked.imp (hiff (· = 0)) (hiff (· ≠ 0))
  have hsame : SameButPpo A A' := (siteToArray_but hc htab hp.records hsite hbut hA' hA1).symm
  have hcheck := check_but ht hsame (hp.stacked ht hA') hA2
  refine ⟨A', hA', ht, ⟨s, hs, hv⟩, hsame, fun e => ?_, ?_⟩
  · rw [e, hA'] at hA1
    exact Except.ok.inj hA1
  · exact hp.restructured ht hio hF hs hv hA' hcheck

/-- **C60 (partial)** `BorealisRestructure` to `array` writes what `BorealisArrayWrite` writes when it is given the
arrays that the property `arrays` of a reader of the input file returns, except the phase offsets: the readers replace
these when they have another shape than the pulses, `BorealisRestructure` does not.  They succeed for the same files.
Not covered are files with other than the plain attributes and datasets of the writers, phase offsets per pulse in the
versions where records have their own (`C60_offsets_violation`), and records with more beams than the first
(`C60_beams_violation`). -/
theorem C60_to_array_partial (h : H5Cfg) (tkey : Elt → Except Err PyStr) (fs : FSys) (inp out : PyStr) (comp : Option PyStr)
    (t : FType) (o : Ppo) (c : Common) (F : H5) (rs : Records) (rd : Reader Records) (A : Rec) (hio : inp ≠ out)
    (hF : fs.at inp = some (.h5 F)) (hrd : siteRead fs inp t.name = .ok rd) (hp : PlainSite rd.version t o c F rs)
    (hA : arraysOf (formatOf rd.version t) rd.content = .ok A) :
    ∃ A', SameButPpo A A' ∧ (rd.content = rs → A' = A) ∧
      (borealisRestructure h tkey fs inp out t.name (py! "array") comp).2 =
        (arrayWrite h fs out (.arrays A') t.name comp).2 ∧
      ((borealisRestructure h tkey fs inp out t.name (py! "array") comp).1 = .ok () ↔
        (arrayWrite h fs out (.arrays A') t.name comp).1 = .ok ()) := by
  obtain ⟨A', -, -, -, h1⟩ := to_array_core h tkey fs inp out comp t o c F rs rd A hio hF hrd hp hA
  exact ⟨A', h1⟩

/-- **C60 (partial)** When `BorealisRestructure` to `array` writes a new file, a reader of the file it writes has the
arrays that the property `arrays` of a reader of the input file returns, except phase offsets, and these too if the
reader of the input does not change them. -/
theorem C60_to_array_content_partial (h : H5Cfg) (hfit : h.Fits) (tkey : Elt → Except Err PyStr) (fs fs' : FSys)
    (inp out : PyStr) (comp : Option PyStr)
    (t : FType) (o : Ppo) (c : Common) (F : H5) (rs : Records) (rd : Reader Records) (A : Rec) (hnew : fs.at out = none)
    (hF : fs.at inp = some (.h5 F)) (hrd : siteRead fs inp t.name = .ok rd) (hp : PlainSite rd.version t o c F rs)
    (hA : arraysOf (formatOf rd.version t) rd.content = .ok A)
    (hkept : KeptRec (formatOf rd.version t).arrayArrayTypes A)
    (hppo : ppoName ∉ (formatOf rd.version t).unshared → ∀ p ∈ rs, ∀ a, p.2.get? ppoName = some (.arr a) →
      KeptArray a ∧ a.shape ≠ [2])
    (hok : borealisRestructure h tkey fs inp out t.name (py! "array") comp = (.ok (), fs')) :
    ∃ rd', arrayRead fs' out t.name = .ok rd' ∧ rd'.ftype = t ∧ rd'.version = rd.version ∧
      (∀ k w, k ≠ ppoName → (Holds A k w ↔ Holds rd'.content k w)) ∧
      (rd.content = rs → SameFields A rd'.content) := by
  have hio : inp ≠ out := by
    rintro rfl
    rw [hnew] at hF
    cases hF
  obtain ⟨A', hA', ht, ⟨s, hs, hv⟩, hb, he, h1, h2⟩ :=
    to_array_core h tkey fs inp out comp t o c F rs rd A hio hF hrd hp hA
  have hst := siteToArray_ppo hp ht hA' hppo
  have hn := siteToArray_nodup hA'
  rw [hok] at h1 h2
  have hw : arrayWrite h fs out (.arrays A') t.name comp = (.ok (), fs') := by
    rw [Prod.ext_iff]
    exact ⟨h2.1 rfl, h1.symm⟩
  obtain ⟨tail, hs1, hs2⟩ := selectVersion_names.1 hv
  have hver : OfVersion rd.version A' := ⟨tail, by rw [← hs1]; exact hp.hash ht hA' hs, hs2⟩
  have hk' : KeptRec (formatOf rd.version t).arrayArrayTypes A' := by
    intro k w hw
    by_cases e : k = ppoName
    · subst e
      obtain ⟨a, rfl, hk, -⟩ := hst w hw
      exact ⟨hk, fun _ => ⟨a, rfl⟩⟩
    · exact hkept k w (by unfold Holds at hw ⊢; rw [hb.2 k e]; exact hw)
  have hpair : PpoNoPair A' := by
    intro w hw
    obtain ⟨a, rfl, -, h2⟩ := hst w hw
    exact ⟨a.shape, rfl, h2⟩
  obtain ⟨rd', hr1, hr2, hr3, hr4⟩ := C56_array_partial h hfit fs fs' out A' comp rd.version t hnew hver hn hk' hpair hw
  refine ⟨rd', hr1, hr2, hr3, fun k w hk => ?_, fun e => ?_⟩
  · rw [← hr4 k w]
    unfold Holds
    rw [hb.2 k hk]
  · rw [he e] at hr4
    exact hr4

end Verif.Bor
