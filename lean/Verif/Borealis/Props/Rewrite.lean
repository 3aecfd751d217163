import Verif.Borealis.Props.Files
import Verif.Borealis.Props.Kinds
import Verif.Borealis.Props.FileRestructureSite
/-!
# C86: Borealis files that were read, written and read again
-/
namespace Verif.Bor
open Verif

/-- What is true of every group that h5py opens: names are unique, stored texts do not end in NUL, arrays
have as many elements as their shape says and there are no datasets of NumPy strings. -/
structure SoundGroup (g : Group) : Prop where
  nodupA : g.attrs.NodupKeys
  nodupD : g.dsets.NodupKeys
  text : ∀ k b, g.attrs.get? k = some (.bytes b) → b.getLast? ≠ some 0
  value : ∀ k v, g.attrs.get? k = some (.value v) → KeptVal v
  dset : ∀ k d, g.dsets.get? k = some d → d.arr.data.length = prod d.arr.shape ∧ (d.itemsize = none → d.arr.ty ≠ .npStr)

/-- What is true of every file of groups that h5py opens. -/
structure SoundFile (f : H5) : Prop where
  nodup : f.keys.Nodup
  names : ∀ n ∈ f.keys, PlainName n
  groups : ∀ n g, f.groups.get? n = some g → SoundGroup g

/-- The array fields of a record are arrays, and its Python objects are ASCII texts. -/
def CopyRec (dsets : TyTable) (r : Rec) : Prop :=
  AsciiRec r ∧ ∀ k v, Listed dsets k → Holds r k v → ∃ a, v = .arr a

/-! ## What is read is kept -/

theorem noNulEnd_stripNul (s : PyStr) : NoNulEnd (stripNul '\x00' s) := by
  unfold NoNulEnd stripNul
  rw [List.getLast?_reverse]
  intro h
  have := List.head?_dropWhile_not (p := (· == '\x00')) (l := s.reverse)
  rw [h] at this
  simp at this

theorem takeStrs_kept {w : Nat} : ∀ {n : Nat} {b : Bytes} {l : List Elt}, takeStrs w n b = .ok l →
    l.length = n ∧ ∀ e ∈ l, ∃ s, e = .str s ∧ NoNulEnd s
  | 0, b, l, h => by cases h; simp
  | n + 1, b, l, h => by
    rw [takeStrs] at h
    obtain ⟨p, -, h⟩ := bind_ok h
    obtain ⟨l', hl, h⟩ := bind_ok h
    cases h
    obtain ⟨h1, h2⟩ := takeStrs_kept hl
    refine ⟨by simp [h1], fun e he => ?_⟩
    rcases List.mem_cons.1 he with rfl | he
    · exact ⟨_, rfl, noNulEnd_stripNul _⟩
    · exact h2 e he

theorem viewText_kept {w : Nat} {a b : NdArr} (h : viewText w a = .ok b) : KeptArray b := by
  unfold viewText at h
  split at h
  · cases h
  · rename_i d hd
    split at h
    · cases h
    · split at h
      · obtain ⟨x, -, h⟩ := bind_ok h
        obtain ⟨l, hl, h⟩ := bind_ok h
        cases h
        obtain ⟨h1, h2⟩ := takeStrs_kept hl
        exact ⟨h1, mapLast_ne_nil (by rintro c; rw [c] at hd; cases hd), fun _ => h2⟩
      · cases h

theorem decode_noNul {b : Bytes} {s : PyStr} (hb : b.getLast? ≠ some 0) (h : utf8Decode b = some s) : NoNulEnd s := by
  intro hs
  obtain ⟨t, rfl⟩ := List.getLast?_eq_some_iff.1 hs
  apply hb
  rw [← utf8Encode_decode h]
  simp only [utf8Encode, List.flatMap_append]
  rw [List.getLast?_append]
  rfl

/-- Every field of a group that was read is kept. -/
theorem readGroup_kept {g : Group} {r : Rec} (hg : SoundGroup g) (hr : readGroup g = .ok r) {k : PyStr}
    (hk : k ∉ defaultAttrs) {v : Val} (hv : r.get? k = some v) : KeptVal v := by
  obtain ⟨h1, h2, h3⟩ := readGroup_get hr hg.nodupA hk
  cases ha : g.attrs.get? k with
  | some a =>
    obtain ⟨w, hw, hw'⟩ := h1 a ha
    rw [hv] at hw'
    cases hw'
    cases a with
    | bytes b =>
      unfold readAttr at hw
      obtain ⟨s, hs, hw⟩ := bind_ok hw
      cases hw
      unfold decodeUtf8 at hs
      intro s' e
      cases e
      refine decode_noNul (hg.text k b ha) ?_
      split at hs
      · rename_i h; cases hs; exact h
      · cases hs
    | empty t =>
      unfold readAttr at hw
      split at hw
      · rename_i h; cases h
      · cases hw
        intro s e
        cases e
        simp [NoNulEnd]
      · rename_i h
        obtain ⟨z, -, hw⟩ := bind_ok hw
        cases hw
        trivial
      · rename_i h; cases h
    | value x =>
      cases hw
      exact hg.value k _ ha
  | none =>
    cases hd : g.dsets.get? k with
    | none => rw [h3 ha hd] at hv; cases hv
    | some d =>
      obtain ⟨w, hw, hw'⟩ := h2 ha d hd
      rw [hv] at hw'
      cases hw'
      unfold readDset at hw
      obtain ⟨a, ha', hw⟩ := bind_ok hw
      obtain ⟨rfl, hs⟩ := Dset.all_ok ha'
      obtain ⟨hl, ht⟩ := hg.dset k d hd
      split at hw
      · rename_i hi
        cases hw
        exact ⟨hl, hs, fun c => absurd c (ht hi)⟩
      · obtain ⟨b, hb, hw⟩ := bind_ok hw
        cases hw
        exact viewText_kept hb

theorem readGroup_nodup {g : Group} {r : Rec} (hg : SoundGroup g) (hr : readGroup g = .ok r) : r.NodupKeys := by
  unfold readGroup at hr
  obtain ⟨d, hd, hr⟩ := bind_ok hr
  obtain ⟨a, ha, hr⟩ := bind_ok hr
  cases hr
  refine update_nodup ?_
  unfold Dict.NodupKeys
  rw [(readDsets_get hd).1]
  exact hg.nodupD

theorem default_names (v : Version) (t : FType) (ht : t ≠ .rawrf) :
    (∀ k ∈ (formatOf v t).siteSingleTypes.keys ++ (formatOf v t).siteArrayTypes.keys, k ∉ defaultAttrs) ∧
    ∀ k ∈ (formatOf v t).arraySingleTypes.keys ++ (formatOf v t).arrayArrayTypes.keys, k ∉ defaultAttrs := by
  cases v <;> cases t <;> first | exact absurd rfl ht | decide +kernel

theorem conforms_name {ok : PyStr → Ty → Val → Prop} {attrs dsets : TyTable} {r : Rec} (hc : Conforms ok attrs dsets r)
    {k : PyStr} {v : Val} (hv : Holds r k v) : k ∈ attrs.keys ++ dsets.keys := by
  rw [List.mem_append]
  by_cases h : k ∈ attrs.keys
  · exact .inl h
  · exact .inr (listed_iff.1 (conforms_dset hc (Dict.mem_keys_iff.2 ⟨v, hv⟩) h))

/-! ## Site files -/

theorem fromFile_get {f : H5} {P : Group → Rec → Prop} {ns : List PyStr} {rs : Records} (h : FromFile f P ns rs) :
    rs.keys = ns ∧ ∀ n r, (n, r) ∈ rs → ∃ g, f.groups.get? n = some g ∧ P g r := by
  induction h with
  | nil => exact ⟨rfl, by simp⟩
  | @cons n g r ns rs hg hp _ ih =>
    refine ⟨by rw [← ih.1]; rfl, fun m r' hm => ?_⟩
    rcases List.mem_cons.1 hm with h | h
    · cases h; exact ⟨g, hg, hp⟩
    · exact ih.2 m r' h

theorem zerosF32_kept {s : List Nat} (h : s ≠ []) : ∃ a, zerosF32 s = .arr a ∧ KeptArray a :=
  ⟨_, rfl, by simp, h, fun c => by cases c⟩

/-- A record of a site file that was read. -/
theorem siteRecord_kept {v : Version} {t : FType} (ht : t ≠ .rawrf) {g : Group} {r r' : Rec} (hg : SoundGroup g)
    (hr : readGroup g = .ok r) (hx : ppoSiteFix1 r = .ok r')
    (hc : checkRecord (formatOf v t).siteSingleTypes (formatOf v t).siteArrayTypes r' = .ok ()) :
    r'.NodupKeys ∧ PpoLikePulses r' ∧
    (CopyRec (formatOf v t).siteArrayTypes r' → KeptRec (formatOf v t).siteArrayTypes r') := by
  have conf := (checkRecord_ok_iff (C34_site_tables v t ht) r').1 hc
  obtain ⟨hb, hp⟩ := ppoSiteFix1_but hx
  have hold : ∀ {k w}, k ≠ ppoName → r'.get? k = some w → KeptVal w := fun {k w} hk hw =>
    readGroup_kept hg hr ((default_names v t ht).1 k (conforms_name conf hw)) (by rw [hb.2 k hk]; exact hw)
  refine ⟨by unfold Dict.NodupKeys; rw [← hb.1]; exact readGroup_nodup hg hr, fun w hw => ?_, fun hcp k w hw => ?_⟩
  · have hk : ppoName ∈ r.keys := by rw [hb.1]; exact Dict.mem_keys_iff.2 ⟨w, hw⟩
    obtain ⟨x, hx⟩ := Dict.mem_keys_iff.1 hk
    obtain ⟨s, p, ps, h1, h2, h3, h4⟩ := hp x hx
    rw [Holds, show py! "pulse_phase_offset" = ppoName from rfl, h4] at hw
    refine ⟨p, ps, by rw [Holds, ← hb.2 _ (by decide)]; exact h2, ?_, h3⟩
    cases hw
    split
    · rename_i e; rw [← e]; exact h1
    · rfl
  · refine ⟨?_, fun hl => hcp.2 k w hl hw⟩
    by_cases hk : k = ppoName
    · subst hk
      have hk : ppoName ∈ r.keys := by rw [hb.1]; exact Dict.mem_keys_iff.2 ⟨w, hw⟩
      obtain ⟨x, hx⟩ := Dict.mem_keys_iff.1 hk
      obtain ⟨s, p, ps, h1, h2, h3, h4⟩ := hp x hx
      rw [Holds, h4] at hw
      cases hw
      by_cases e : s = ps
      · rw [if_pos e]
        exact readGroup_kept hg hr ((default_names v t ht).1 ppoName (conforms_name conf h4)) hx
      · rw [if_neg e]
        have hpl : Holds r' (py! "pulses") p := by rw [Holds, ← hb.2 _ (by decide)]; exact h2
        obtain ⟨a, rfl⟩ := hcp.2 _ p (listed_iff.2 (ppo_site v t ht).2) hpl
        have hka : KeptArray a := hold (k := py! "pulses") (by decide) hpl
        cases h3
        obtain ⟨z, hz, hz'⟩ := zerosF32_kept hka.rank
        rw [hz]
        exact hz'
    · exact hold hk hw

theorem allRec_mem {R : Rec → Rec → Prop} {rs rs' : Records} (h : AllRec R rs rs') :
    rs.keys = rs'.keys ∧ ∀ n r', (n, r') ∈ rs' → ∃ r, (n, r) ∈ rs ∧ R r r' := by
  induction h with
  | nil => exact ⟨rfl, by simp⟩
  | @cons n r r' rs rs' hr _ ih =>
    refine ⟨by simp only [Dict.keys, List.map_cons, List.cons.injEq, true_and]; exact ih.1, fun m x hm => ?_⟩
    rcases List.mem_cons.1 hm with h | h
    · cases h; exact ⟨r, by simp, hr⟩
    · obtain ⟨y, h1, h2⟩ := ih.2 m x h
      exact ⟨y, by simp [h1], h2⟩

theorem sortedNames_unique {ns l l' : List PyStr} (h : SortedNames ns l) (h' : SortedNames ns l') : l = l' :=
  List.Perm.eq_of_pairwise (fun _ _ _ _ h1 h2 => str_antisymm h2 h1) h.sorted h'.sorted (h.perm.trans h'.perm.symm)

/-- The file at another path is as before. -/
theorem at_put_other {fs : FSys} {p q : PyStr} {c : File} (hp : fs.at p ≠ none) (hq : fs.at q = none) :
    (fs.put q c).at p = fs.at p := by
  have : fs.node p ≠ fs.node q := fun e => hp (by unfold FSys.at at hq ⊢; rw [e]; exact hq)
  simp [FSys.at, FSys.put, this]

/-- The records of a site file that was read, as the writers need them. -/
structure ReadRecords (v : Version) (t : FType) (f : H5) (rs : Records) : Prop where
  type : t ≠ .rawrf
  keys : rs.keys = sortStrs f.keys
  first : FirstOfVersion v rs
  recs : ∀ n r, (n, r) ∈ rs → r.NodupKeys ∧ PpoLikePulses r ∧
    Conforms (fun _ => IsNumpy) (formatOf v t).siteSingleTypes (formatOf v t).siteArrayTypes r ∧
    (CopyRec (formatOf v t).siteArrayTypes r → KeptRec (formatOf v t).siteArrayTypes r)

theorem readRecords_of {fs : FSys} {p : PyStr} {t : FType} {rd : Reader Records} {f : H5}
    (hr : siteRead fs p t.name = .ok rd) (ho : fs.at p = some (.h5 f)) (hf : SoundFile f) :
    ReadRecords rd.version t f rd.content ∧ rd.names = sortStrs f.keys ∧ rd.ftype = t := by
  obtain ⟨f', s, rs, ho', hs, hv, hrs, hfix, hrd, hchk, ht, -⟩ := siteRead_content hr
  have hff : f' = f := by
    unfold FSys.openR at ho'
    rw [ho] at ho'
    cases ho'; rfl
  subst hff
  have hall := ppoSiteFix_all hfix
  obtain ⟨hk, hm⟩ := allRec_mem hall
  obtain ⟨hk', hm'⟩ := fromFile_get (fromFile_read hrs)
  have keys : rd.content.keys = sortStrs f'.keys := hk.symm.trans hk'
  have hch := checkRecords_ok_iff.1 hchk
  refine ⟨⟨ht, keys, ?_, fun n r hn => ?_⟩, by rw [hrd], by rw [hrd]⟩
  · obtain ⟨n, l, g, hn, hg, hva⟩ := siteHash_attr hs
    obtain ⟨b, hb, hu⟩ := hva
    have hnk : n ∈ rd.content.keys := by rw [keys, hn]; simp
    obtain ⟨r', hr'⟩ := Dict.mem_keys_iff.1 hnk
    obtain ⟨r, hr1, hr2⟩ := hm n r' (Dict.mem_of_get? hr')
    obtain ⟨g', hg', hrg⟩ := hm' n r hr1
    rw [hg] at hg'
    cases hg'
    obtain ⟨w, hw, hw'⟩ := (readGroup_get (k := py! "borealis_git_hash") hrg (hf.groups n g hg).nodupA (by decide)).1 _ hb
    have hw2 : (decodeUtf8 b >>= fun s => .ok (.py .str (.str s)) : Except Err Val) = .ok w := hw
    unfold decodeUtf8 at hw2
    rw [hu] at hw2
    cases hw2
    obtain ⟨tail, hs1, hs2⟩ := selectVersion_names.1 hv
    refine ⟨n, r', hr', fun m hm c => ?_, tail, ?_, hs2⟩
    · rw [keys] at hm
      exact (sortStrs_first hn).2 m ((sortStrs_perm _).mem_iff.1 hm) c
    · rw [Holds, ← (ppoSiteFix1_but hr2).1.2 _ (by decide), hw', hs1]
  · obtain ⟨r0, h1, h2⟩ := hm n r hn
    obtain ⟨g, hg, hrg⟩ := hm' n r0 h1
    obtain ⟨h3, h4, h5⟩ := siteRecord_kept ht (hf.groups n g hg) hrg h2 (hch n r hn)
    exact ⟨h3, h4, (checkRecord_ok_iff (C34_site_tables _ t ht) r).1 (hch n r hn), h5⟩

/-- The copy of the records of a file: written to a new file and read from it. -/
structure SiteCopy (h : H5Cfg) (fs : FSys) (q : PyStr) (t : FType) (comp : Option PyStr) (rd : Reader Records)
    (fs' : FSys) (rd' : Reader Records) : Prop where
  write : siteWrite h fs q (.records rd.content) t.name comp = (.ok (), fs')
  read : siteRead fs' q t.name = .ok rd'
  type : rd'.ftype = rd.ftype
  version : rd'.version = rd.version
  names : rd'.names = rd.names
  same : SameRecords rd.content rd'.content

/-- **C86** A site file that was read can be written to a new file, which is read with the same records, and
the file itself is still read as before, provided the texts are ASCII and the arrays were datasets.  Missing:
other files, for which it is false (`C86_site_iff`). -/
theorem C86_site_partial (h : H5Cfg) (hh : h.Fits) (fs : FSys) (p q : PyStr) (t : FType) (comp : Option PyStr)
    (rd : Reader Records) (f : H5) (hr : siteRead fs p t.name = .ok rd) (ho : fs.at p = some (.h5 f))
    (hf : SoundFile f) (hq : fs.at q = none) (hc : ∀ c, comp = some c → h.hasFilter c = true)
    (hcopy : ∀ n r, rd.content.get? n = some r → CopyRec (formatOf rd.version t).siteArrayTypes r) :
    ∃ fs' rd', SiteCopy h fs q t comp rd fs' rd' ∧ siteRead fs' p t.name = .ok rd := by
  obtain ⟨R, hnames, hty⟩ := readRecords_of hr ho hf
  have hnd : rd.content.NodupKeys := by
    unfold Dict.NodupKeys
    rw [R.keys]
    exact (sortStrs_perm _).nodup_iff.2 hf.nodup
  have hkept : ∀ n r, rd.content.get? n = some r → KeptRec (formatOf rd.version t).siteArrayTypes r :=
    fun n r hn => (R.recs n r (Dict.mem_of_get? hn)).2.2.2 (hcopy n r hn)
  have hw : (siteWrite h fs q (.records rd.content) t.name comp).1 = .ok () := by
    refine site_written (f := .new) (by unfold FSys.openA; rw [hq]) R.type hc R.first hnd (fun n r hn => ?_)
      fun n hn => ⟨hf.names n ?_, by simp [H5.keys, H5.new, Group.new]⟩
    · have := R.recs n r (Dict.mem_of_get? hn)
      exact ⟨this.1, hkept n r hn, (hcopy n r hn).1, this.2.2.1⟩
    · rw [R.keys] at hn
      exact (sortStrs_perm _).mem_iff.1 hn
  obtain ⟨fs', hfs⟩ : ∃ fs', siteWrite h fs q (.records rd.content) t.name comp = (.ok (), fs') := ⟨_, Prod.ext hw rfl⟩
  obtain ⟨rd', h1, h2, h3, h4, h5, h6⟩ := C56_site_partial h hh fs fs' q rd.content comp rd.version t hq R.first
    (fun n r hn => ⟨(R.recs n r (Dict.mem_of_get? hn)).1, hkept n r hn, (R.recs n r (Dict.mem_of_get? hn)).2.1⟩) hfs
  refine ⟨fs', rd', ⟨hfs, h1, by rw [h2, hty], h3, ?_, h6⟩, ?_⟩
  · rw [hnames]
    rw [R.keys] at h4
    exact sortedNames_unique h4 ⟨.refl _, sortStrs_sorted _⟩
  · obtain ⟨fmt, rs', -, hw⟩ := siteWrite_ok hfs
    obtain ⟨f0, f1, -, -, rfl⟩ := writing_ok hw
    rw [← hr]
    unfold siteRead FSys.openR
    rw [at_put_other (by rw [ho]; simp) hq]

/-- What the attributes of a record that was written are. -/
theorem ascii_written {h : H5Cfg} {comp : Option PyStr} {attrs dsets : TyTable} (hp : Plain attrs)
    {taken : List PyStr} {r : Rec} {g g' : Group} (hn : r.NodupKeys)
    (hs : ∀ k t v, (k, t) ∈ attrs → Holds r k v → IsScalar t v)
    (hk : ∀ k, k ∈ r.keys → k ∉ attrs.keys → Listed dsets k)
    (arr : ∀ k v, Listed dsets k → Holds r k v → ∃ a, v = .arr a)
    (hw : writeFields h comp attrs taken g r = (.ok (), g')) : AsciiRec r := by
  have w := writeFields_written hn hw
  intro k t e hv
  by_cases hka : k ∈ attrs.keys
  · obtain ⟨ty, hty⟩ := listed_iff.2 hka
    have hsc := hs k ty _ hty hv
    obtain ⟨t1, t2, t3, t4⟩ := hp.types k ty hty
    cases (hsc : t = ty)
    obtain ⟨a, ha, -⟩ := w.attr k _ (Dict.mem_of_get? hv) hka
    unfold storeAttr at ha
    split at ha <;> try (rename_i heq; cases heq)
    · obtain ⟨b, hb, -⟩ := bind_ok ha
      exact ⟨rfl, _, rfl, (asciiBytes_ok hb).2⟩
    · exact absurd rfl t3
    · exact absurd rfl t4
    · cases ha
  · obtain ⟨a, ha⟩ := arr k _ (hk k (Dict.mem_keys_iff.2 ⟨_, hv⟩) hka) hv
    cases ha

/-- A record that is written to a group that can be read. -/
theorem field_copied {h : H5Cfg} {comp : Option PyStr} {attrs dsets : TyTable} (hp : Plain attrs)
    (hd : ∀ k ∈ dsets.keys, k ∉ attrs.keys) {taken : List PyStr} {r r' : Rec} {g : Group} (hn : r.NodupKeys)
    (hs : ∀ k t v, (k, t) ∈ attrs → Holds r k v → IsScalar t v)
    (hk : ∀ k, k ∈ r.keys → k ∉ attrs.keys → Listed dsets k)
    (hw : writeFields h comp attrs taken .new r = (.ok (), g)) (hr : readGroup g = .ok r') : CopyRec dsets r := by
  have w := writeFields_written hn hw
  have arr : ∀ k v, Listed dsets k → Holds r k v → ∃ a, v = .arr a := by
    intro k v hl hv
    have hka := hd k (listed_iff.1 hl)
    obtain ⟨d, h1, h2, -⟩ := w.dset k v (Dict.mem_of_get? hv) hka
    cases v with
    | arr a => exact ⟨a, rfl⟩
    | py t e => cases h1
    | np t e =>
      exfalso
      have hsh : d.arr.shape = [] := by
        unfold storeDset at h1
        split at h1 <;> first
          | cases h1; done
          | (obtain ⟨u, -, h1⟩ := bind_ok h1; cases h1; rfl)
          | (rename_i e; cases e)
      unfold readGroup at hr
      obtain ⟨ds, hds, -⟩ := bind_ok hr
      obtain ⟨x, hx, -⟩ := ((readDsets_get hds).2 k).2 d h2
      unfold readDset Dset.all at hx
      rw [hsh] at hx
      cases hx
  exact ⟨ascii_written hp hn hs hk arr hw, arr⟩

/-- **C86** Exactly the site files with ASCII texts and with datasets for all arrays can be copied by reading,
writing and reading again. -/
theorem C86_site_iff (h : H5Cfg) (hh : h.Fits) (fs : FSys) (p q : PyStr) (t : FType) (comp : Option PyStr)
    (rd : Reader Records) (f : H5) (hr : siteRead fs p t.name = .ok rd) (ho : fs.at p = some (.h5 f))
    (hf : SoundFile f) (hq : fs.at q = none) (hc : ∀ c, comp = some c → h.hasFilter c = true) :
    (∃ fs' rd', SiteCopy h fs q t comp rd fs' rd') ↔
      ∀ n r, rd.content.get? n = some r → CopyRec (formatOf rd.version t).siteArrayTypes r := by
  refine ⟨?_, fun hcopy => ?_⟩
  · rintro ⟨fs', rd', hcp⟩ n r hn
    obtain ⟨R, -, -⟩ := readRecords_of hr ho hf
    obtain ⟨fmt, rs', hck, hw⟩ := siteWrite_ok hcp.write
    rw [siteWriteCheck_of R.type R.first fun n r hm =>
      (checkRecord_ok_iff (C34_site_tables _ t R.type) r).2 (R.recs n r hm).2.2.1] at hck
    cases hck
    obtain ⟨f0, f1, ho0, hw, rfl⟩ := writing_ok hw
    have hf0 : f0 = .new := by
      unfold FSys.openA at ho0
      rw [hq] at ho0
      cases ho0; rfl
    subst hf0
    have w := writeRecords_written hw
    obtain ⟨gs, hgs, hgk, hgw⟩ := w.groups
    have hgs : f1.groups = gs := by rw [hgs]; rfl
    have hnd : Dict.NodupKeys gs := by unfold Dict.NodupKeys; rw [hgk]; exact w.nodup
    obtain ⟨g, hg, hwf⟩ := hgw n r (Dict.mem_of_get? hn)
    obtain ⟨f2, s, rs, ho2, -, -, hrs, -⟩ := siteRead_content hcp.read
    rw [openR_put] at ho2
    cases ho2
    obtain ⟨hk, hm⟩ := fromFile_get (fromFile_read hrs)
    have hnk : n ∈ rs.keys := by
      rw [hk, (sortStrs_perm _).mem_iff, mem_H5keys, hgs, hgk]
      exact .inl (Dict.mem_keys_iff.2 ⟨r, hn⟩)
    obtain ⟨x, hx⟩ := Dict.mem_keys_iff.1 hnk
    obtain ⟨g', hg', hrg⟩ := hm n x (Dict.mem_of_get? hx)
    rw [hgs, Dict.get?_of_mem hnd hg] at hg'
    cases hg'
    have conf := (R.recs n r (Dict.mem_of_get? hn)).2.2.1
    have hdis : ∀ k ∈ (formatOf rd.version t).siteArrayTypes.keys, k ∉ (formatOf rd.version t).siteSingleTypes.keys := by
      have := (C34_site_tables rd.version t R.type).nodup
      intro k h1 h2
      exact (List.nodup_append.1 this).2.2 k h2 k h1 rfl
    exact field_copied (plain_site rd.version t R.type) hdis (R.recs n r (Dict.mem_of_get? hn)).1
      (fun k ty v hm hv => conforms_scalar conf hm hv) (fun k hk ha => conforms_dset conf hk ha) hwf hrg
  · obtain ⟨fs', rd', h1, -⟩ := C86_site_partial h hh fs p q t comp rd f hr ho hf hq hc hcopy
    exact ⟨fs', rd', h1⟩

/-! ## Array files -/

/-- The fix of the reader leaves the names, and no pair. -/
theorem ppoArrayFix_but {r r' : Rec} (h : ppoArrayFix r = .ok r') : SameButPpo r r' ∧ PpoNoPair r' ∧
    ∀ v, r'.get? ppoName = some v → r.get? ppoName = some v ∨ ∃ n, v = zerosF32 [n, 0] := by
  unfold ppoArrayFix at h
  cases hg : Dict.get? r (py! "pulse_phase_offset") with
  | none =>
    rw [hg] at h
    cases h
    refine ⟨.refl _, fun v hv => ?_, fun v hv => .inl (hg ▸ hv)⟩
    rw [Holds, hg] at hv
    cases hv
  | some v =>
    rw [hg] at h
    obtain ⟨s, hs, h⟩ := bind_ok h
    by_cases e : s = [2]
    · rw [if_pos e] at h
      obtain ⟨ns, -, h⟩ := bind_ok h
      obtain ⟨sh, -, h⟩ := bind_ok h
      split at h
      · cases h
      · rename_i n _
        cases h
        have hget : (Dict.set r (py! "pulse_phase_offset") (zerosF32 [n, 0])).get? ppoName = some (zerosF32 [n, 0]) :=
          Dict.get?_set_self _ _ _
        refine ⟨⟨(Dict.keys_set_of_mem (Dict.mem_keys_iff.2 ⟨_, hg⟩) _).symm, fun k hk => ?_⟩, fun w hw => ?_, fun w hw => ?_⟩
        · rw [Dict.get?_set_ne _ (Ne.symm hk)]
        · rw [Holds, hget] at hw
          cases hw
          exact ⟨[n, 0], rfl, by simp⟩
        · rw [hget] at hw
          cases hw
          exact .inr ⟨n, rfl⟩
    · rw [if_neg e] at h
      cases h
      refine ⟨.refl _, fun w hw => ?_, fun w hw => .inl (hg ▸ hw)⟩
      rw [Holds, hg] at hw
      cases hw
      exact ⟨s, hs, e⟩

/-- The copy of the arrays of a file. -/
structure ArrayCopy (h : H5Cfg) (fs : FSys) (q : PyStr) (t : FType) (comp : Option PyStr) (rd : Reader Rec)
    (fs' : FSys) (rd' : Reader Rec) : Prop where
  write : arrayWrite h fs q (.arrays rd.content) t.name comp = (.ok (), fs')
  read : arrayRead fs' q t.name = .ok rd'
  type : rd'.ftype = rd.ftype
  version : rd'.version = rd.version
  same : SameFields rd.content rd'.content

/-- The arrays of an array file that was read, as the writers need them. -/
structure ReadArrays (v : Version) (t : FType) (r : Rec) : Prop where
  type : t ≠ .rawrf
  version : OfVersion v r
  nodup : r.NodupKeys
  noPair : PpoNoPair r
  check : checkArrays (formatOf v t).arraySingleTypes (formatOf v t).arrayArrayTypes (formatOf v t).unshared r = .ok ()
  conf : Conforms ArrayAccepted (formatOf v t).arraySingleTypes (formatOf v t).arrayArrayTypes r
  arr : ∀ k x, Listed (formatOf v t).arrayArrayTypes k → Holds r k x → ∃ a, x = .arr a
  kept : KeptRec (formatOf v t).arrayArrayTypes r

theorem readArrays_of {fs : FSys} {p : PyStr} {t : FType} {rd : Reader Rec} {f : H5}
    (hr : arrayRead fs p t.name = .ok rd) (ho : fs.at p = some (.h5 f)) (hf : SoundGroup f.root) :
    ReadArrays rd.version t rd.content ∧ rd.ftype = t := by
  obtain ⟨f', s, r, ho', hs, hv, hra, hfix, hrd, hchk, ht⟩ := arrayRead_content hr
  have hff : f' = f := by
    unfold FSys.openR at ho'
    rw [ho] at ho'
    cases ho'; rfl
  subst hff
  have hrg : readGroup f'.root = .ok r := by
    unfold readArrays at hra
    split at hra
    · exact hra
    · cases hra
  obtain ⟨good, hu⟩ := C34_array_tables rd.version t ht
  have conf := ((checkArrays_ok_iff good hu rd.content).1 hchk).1
  obtain ⟨hb, hnp, hx⟩ := ppoArrayFix_but hfix
  have arr : ∀ k x, Listed (formatOf rd.version t).arrayArrayTypes k → Holds rd.content k x → ∃ a, x = .arr a := by
    rintro k x ⟨ty, hm⟩ hx
    have : ArrayAccepted k ty x := Classical.byContradiction fun hne => conf.typed k ty (.inr ⟨hm, _, hx, hne⟩)
    cases x with
    | arr a => exact ⟨a, rfl⟩
    | py _ _ => exact absurd this id
    | np _ _ => exact absurd this id
  refine ⟨⟨ht, ?_, ?_, hnp, hchk, conf, arr, fun k w hw => ⟨?_, fun hl => arr k w hl hw⟩⟩, by rw [hrd]⟩
  · obtain ⟨b, hb', hu'⟩ := hashOf_attr hs
    obtain ⟨w, hw, hw'⟩ := (readGroup_get (k := py! "borealis_git_hash") hrg hf.nodupA (by decide)).1 _ hb'
    have hw2 : (decodeUtf8 b >>= fun s => .ok (.py .str (.str s)) : Except Err Val) = .ok w := hw
    unfold decodeUtf8 at hw2
    rw [hu'] at hw2
    cases hw2
    obtain ⟨tail, hs1, hs2⟩ := selectVersion_names.1 hv
    exact ⟨tail, by rw [Holds, ← hb.2 _ (by decide), hw', hs1], hs2⟩
  · unfold Dict.NodupKeys
    rw [← hb.1]
    exact readGroup_nodup hf hrg
  · have hname := (default_names rd.version t ht).2 k (conforms_name conf hw)
    by_cases hk : k = ppoName
    · subst hk
      rcases hx w hw with h | ⟨n, rfl⟩
      · exact readGroup_kept hf hrg hname h
      · obtain ⟨z, hz, hz'⟩ := zerosF32_kept (s := [n, 0]) (by simp)
        rw [hz]
        exact hz'
    · exact readGroup_kept hf hrg hname (by rw [hb.2 k hk]; exact hw)

/-- **C86** An array file that was read can be written to a new file, which is read with the same arrays, and
the file itself is still read as before, provided the texts are ASCII.  Missing: other files, for which it is
false (`C86_array_iff`). -/
theorem C86_array_partial (h : H5Cfg) (hh : h.Fits) (fs : FSys) (p q : PyStr) (t : FType) (comp : Option PyStr)
    (rd : Reader Rec) (f : H5) (hr : arrayRead fs p t.name = .ok rd) (ho : fs.at p = some (.h5 f))
    (hf : SoundGroup f.root) (hq : fs.at q = none) (hc : ∀ c, comp = some c → h.hasFilter c = true)
    (ha : AsciiRec rd.content) :
    ∃ fs' rd', ArrayCopy h fs q t comp rd fs' rd' ∧ arrayRead fs' p t.name = .ok rd := by
  obtain ⟨R, hty⟩ := readArrays_of hr ho hf
  have hw : (arrayWrite h fs q (.arrays rd.content) t.name comp).1 = .ok () :=
    array_written hq R.type hc R.version R.nodup R.kept ha R.check
  obtain ⟨fs', hfs⟩ : ∃ fs', arrayWrite h fs q (.arrays rd.content) t.name comp = (.ok (), fs') := ⟨_, Prod.ext hw rfl⟩
  obtain ⟨rd', h1, h2, h3, h4⟩ := C56_array_partial h hh fs fs' q rd.content comp rd.version t hq R.version R.nodup
    R.kept R.noPair hfs
  refine ⟨fs', rd', ⟨hfs, h1, by rw [h2, hty], h3, h4⟩, ?_⟩
  obtain ⟨fmt, rs', -, hw⟩ := arrayWrite_ok hfs
  obtain ⟨f0, f1, -, -, rfl⟩ := writing_ok hw
  rw [← hr]
  unfold arrayRead FSys.openR
  rw [at_put_other (by rw [ho]; simp) hq]

/-- **C86** Exactly the array files with ASCII texts can be copied by reading, writing and reading again; the
others cannot even be written. -/
theorem C86_array_iff (h : H5Cfg) (hh : h.Fits) (fs : FSys) (p q : PyStr) (t : FType) (comp : Option PyStr)
    (rd : Reader Rec) (f : H5) (hr : arrayRead fs p t.name = .ok rd) (ho : fs.at p = some (.h5 f))
    (hf : SoundGroup f.root) (hq : fs.at q = none) (hc : ∀ c, comp = some c → h.hasFilter c = true) :
    ((∃ fs' rd', ArrayCopy h fs q t comp rd fs' rd') ↔ AsciiRec rd.content) ∧
    ((arrayWrite h fs q (.arrays rd.content) t.name comp).1 = .ok () ↔ AsciiRec rd.content) := by
  have h1 : AsciiRec rd.content → ∃ fs' rd', ArrayCopy h fs q t comp rd fs' rd' := fun ha => by
    obtain ⟨fs', rd', h1, -⟩ := C86_array_partial h hh fs p q t comp rd f hr ho hf hq hc ha
    exact ⟨fs', rd', h1⟩
  have h2 : (arrayWrite h fs q (.arrays rd.content) t.name comp).1 = .ok () → AsciiRec rd.content := fun hw => by
    obtain ⟨R, -⟩ := readArrays_of hr ho hf
    obtain ⟨fmt, r', hck, hw⟩ := arrayWrite_ok (fs' := (arrayWrite h fs q (.arrays rd.content) t.name comp).2) (Prod.ext hw rfl)
    rw [arrayWriteCheck_of R.type R.version R.check] at hck
    cases hck
    obtain ⟨f0, f1, -, hw, -⟩ := writing_ok hw
    unfold writeArrays at hw
    cases hwf : writeFields h comp (formatOf rd.version t).arraySingleTypes f0.groups.keys f0.root rd.content with
    | mk res g =>
    rw [hwf] at hw
    cases hw
    exact ascii_written (plain_array rd.version t R.type) R.nodup (fun k ty v hm hv => conforms_scalar R.conf hm hv)
      (fun k hk ha => conforms_dset R.conf hk ha) R.arr hwf
  have h3 : (∃ fs' rd', ArrayCopy h fs q t comp rd fs' rd') →
      (arrayWrite h fs q (.arrays rd.content) t.name comp).1 = .ok () := fun ⟨_, _, hc⟩ => by rw [hc.write]
  exact ⟨⟨fun c => h2 (h3 c), h1⟩, h2, fun ha => h3 (h1 ha)⟩

/-! ## Without naming the structure -/

theorem detected_site {fs : FSys} {p : PyStr} {t : FType} {rd : Reader Records}
    (h : borealisRead fs p t.name none = .ok (.site rd)) : siteRead fs p t.name = .ok rd := by
  unfold borealisRead at h
  rw [parseFType_iff.2 rfl] at h
  simp only at h
  unfold returnReader at h
  split at h
  · cases h
  · split at h
    · split at h
      · rename_i hs; cases h; exact hs
      · cases h
    · cases h

theorem detected_array {fs : FSys} {p : PyStr} {t : FType} {rd : Reader Rec}
    (h : borealisRead fs p t.name none = .ok (.array rd)) : arrayRead fs p t.name = .ok rd := by
  unfold borealisRead at h
  rw [parseFType_iff.2 rfl] at h
  simp only at h
  unfold returnReader at h
  split at h
  · rename_i hs; cases h; exact hs
  · split at h
    · split at h
      · cases h
      · cases h
    · cases h

/-- **C86** A file that `BorealisRead` recognizes as a site file is copied by `BorealisWrite` and recognized
again, both without naming the structure.  Missing: as for `C86_site_partial`, and records of which one is named
like the version. -/
theorem C86_site_detected_partial (h : H5Cfg) (hh : h.Fits) (fs : FSys) (p q : PyStr) (t : FType)
    (comp : Option (Option PyStr)) (rd : Reader Records) (f : H5)
    (hr : borealisRead fs p t.name none = .ok (.site rd)) (ho : fs.at p = some (.h5 f)) (hf : SoundFile f)
    (hq : fs.at q = none) (hc : ∀ c, comp = some (some c) → h.hasFilter c = true)
    (hname : py! "borealis_git_hash" ∉ rd.content.keys)
    (hcopy : ∀ n r, rd.content.get? n = some r → CopyRec (formatOf rd.version t).siteArrayTypes r) :
    ∃ fs' rd', borealisWrite h fs q (.records rd.content) t.name none comp = (.ok .site, fs') ∧
      borealisRead fs' q t.name none = .ok (.site rd') ∧ SiteCopy h fs q t (comp.getD none) rd fs' rd' := by
  have hr' := detected_site hr
  have hc' : ∀ c, comp.getD none = some c → h.hasFilter c = true := by
    intro c e
    cases comp with
    | none => cases e
    | some o => exact hc c (by rw [← e]; rfl)
  obtain ⟨fs', rd', hcp, -⟩ := C86_site_partial h hh fs p q t _ rd f hr' ho hf hq hc' hcopy
  obtain ⟨R, -, -⟩ := readRecords_of hr' ho hf
  have hw : borealisWrite h fs q (.records rd.content) t.name none comp = (.ok .site, fs') :=
    (C48_writer_partial h fs fs' q (.records rd.content) t comp hname .site).2 (.inr ⟨rfl, hcp.write⟩)
  obtain ⟨-, rd2, h1, -⟩ := C56_records_detected_partial h hh fs fs' q rd.content comp rd.version t .site hq R.first hname
    (fun n r hn => by
      obtain ⟨h1, h2, h3, h4⟩ := R.recs n r (Dict.mem_of_get? hn)
      exact ⟨h1, h4 (hcopy n r hn), h2⟩) hw
  have := detected_site h1
  rw [hcp.read] at this
  cases this
  exact ⟨fs', rd', hw, h1, hcp⟩

/-- **C86** A file that `BorealisRead` recognizes as an array file is copied by `BorealisWrite` and recognized
again, both without naming the structure, if a compression is given or the default is one of h5py's.  Missing:
as for `C86_array_partial`. -/
theorem C86_array_detected_partial (h : H5Cfg) (hh : h.Fits) (fs : FSys) (p q : PyStr) (t : FType)
    (comp : Option (Option PyStr)) (rd : Reader Rec) (f : H5)
    (hr : borealisRead fs p t.name none = .ok (.array rd)) (ho : fs.at p = some (.h5 f)) (hf : SoundGroup f.root)
    (hq : fs.at q = none) (hc : ∀ c, comp.getD (some (py! "zlib")) = some c → h.hasFilter c = true)
    (ha : AsciiRec rd.content) :
    ∃ fs' rd', borealisWrite h fs q (.arrays rd.content) t.name none comp = (.ok .array, fs') ∧
      borealisRead fs' q t.name none = .ok (.array rd') ∧
      ArrayCopy h fs q t (comp.getD (some (py! "zlib"))) rd fs' rd' := by
  have hr' := detected_array hr
  obtain ⟨fs', rd', hcp, -⟩ := C86_array_partial h hh fs p q t _ rd f hr' ho hf hq hc ha
  obtain ⟨R, -⟩ := readArrays_of hr' ho hf
  have hw : borealisWrite h fs q (.arrays rd.content) t.name none comp = (.ok .array, fs') :=
    (C48_writer_partial h fs fs' q (.arrays rd.content) t comp trivial .array).2 (.inl ⟨rfl, hcp.write⟩)
  obtain ⟨-, rd2, h1, -⟩ := C56_arrays_detected_partial h hh fs fs' q rd.content comp rd.version t .array hq R.version
    R.nodup R.kept R.noPair hw
  have := detected_array h1
  rw [hcp.read] at this
  cases this
  exact ⟨fs', rd', hw, h1, hcp⟩

/-! ## Samples and violations -/

/-- Whether a group is sound. -/
def soundGroupB (g : Group) : Bool :=
  decide g.attrs.keys.Nodup && decide g.dsets.keys.Nodup &&
  (g.attrs.all fun p => match p.2 with
    | .bytes b => b.getLast? != some 0
    | .empty _ => true
    | .value v => keptB v) &&
  g.dsets.all fun p => p.2.arr.data.length == prod p.2.arr.shape && (p.2.itemsize.isSome || p.2.arr.ty != .npStr)

theorem soundGroupB_sound {g : Group} (h : soundGroupB g = true) : SoundGroup g := by
  simp only [soundGroupB, Bool.and_eq_true, decide_eq_true_eq, List.all_eq_true, beq_iff_eq] at h
  obtain ⟨⟨⟨h1, h2⟩, h3⟩, h4⟩ := h
  refine ⟨h1, h2, fun k b hb => ?_, fun k v hv => ?_, fun k d hd => ?_⟩
  · simpa using h3 _ (Dict.mem_of_get? hb)
  · exact keptB_sound (h3 _ (Dict.mem_of_get? hv))
  · obtain ⟨h5, h6⟩ := h4 _ (Dict.mem_of_get? hd)
    exact ⟨h5, fun hi => by simpa [hi] using h6⟩

/-- A file system with one file. -/
def copyFs (f : H5) : FSys := ⟨id, fun n => if n = py! "f" then some (.h5 f) else none⟩

/-- A site file of two records. -/
def copySiteFile : H5 := (writeRecords sampleH5 none (formatOf .v06 .rawacf) .new (sampleFileRecords .v06 .rawacf)).2

/-- An array file. -/
def copyArrayFile : H5 := (writeArrays sampleH5 none (formatOf .v06 .rawacf) .new (sampleFileArrays .v06 .rawacf)).2

/-- Another attribute in every group and at the root, in place of the dataset of the name if there is one. -/
def withAttr (k : PyStr) (a : Attr) (f : H5) : H5 :=
  let g' := fun g : Group => (⟨g.attrs.set k a, g.dsets.filter fun p => p.1 ≠ k⟩ : Group)
  ⟨g' f.root, f.groups.map fun p => (p.1, g' p.2)⟩

theorem copySiteFile_sound : SoundFile copySiteFile := by
  have h : ∀ p ∈ copySiteFile.groups, soundGroupB p.2 = true := by decide +kernel
  have h1 : ∀ n ∈ copySiteFile.keys, n ≠ [] ∧ n ≠ py! "." ∧ '/' ∉ n := by decide +kernel
  exact ⟨by decide +kernel, h1, fun n g hg => soundGroupB_sound (h _ (Dict.mem_of_get? hg))⟩

/-- Whether Python objects are ASCII texts and the array fields arrays. -/
def copyRecB (dsets : TyTable) (r : Rec) : Bool :=
  r.all fun p => match p.2 with
    | .py .str (.str s) => s.all (fun c => c.toNat < 128) && !(dsets.keys.contains p.1)
    | .py _ _ => false
    | .np _ _ => !(dsets.keys.contains p.1)
    | .arr _ => true

theorem copyRecB_sound {dsets : TyTable} {r : Rec} (h : copyRecB dsets r = true) : CopyRec dsets r := by
  have h' := List.all_eq_true.1 h
  refine ⟨fun k t e hv => ?_, fun k v hl hv => ?_⟩
  · have := h' _ (Dict.mem_of_get? hv)
    simp only at this
    split at this
    · rename_i heq
      cases heq
      simp only [Bool.and_eq_true, List.all_eq_true, decide_eq_true_eq] at this
      exact ⟨rfl, _, rfl, this.1⟩
    · cases this
    · rename_i heq; cases heq
    · rename_i heq; cases heq
  · have hk := listed_iff.1 hl
    have := h' _ (Dict.mem_of_get? hv)
    cases v with
    | arr a => exact ⟨a, rfl⟩
    | np t e => simp [hk] at this
    | py t e =>
      simp only at this
      split at this
      · simp [hk] at this
      · cases this
      · rename_i heq; cases heq
      · rename_i heq; cases heq

/-- A file of two records is copied. -/
example : ∃ rd, siteRead (copyFs copySiteFile) (py! "f") (py! "rawacf") = .ok rd ∧ ∃ fs' rd',
    SiteCopy sampleH5 (copyFs copySiteFile) (py! "g") .rawacf (some (py! "gzip")) rd fs' rd' ∧
    rd'.names = [py! "1600000000", py! "1600000003"] := by
  have hok : ((siteRead (copyFs copySiteFile) (py! "f") (py! "rawacf")).toOption.any fun rd =>
      rd.names = [py! "1600000000", py! "1600000003"] ∧ rd.version = .v06 ∧
      rd.content.all fun p => copyRecB (formatOf .v06 .rawacf).siteArrayTypes p.2) = true := by decide +kernel
  cases hr : siteRead (copyFs copySiteFile) (py! "f") (py! "rawacf") with
  | error e => rw [hr] at hok; cases hok
  | ok rd =>
    rw [hr] at hok
    simp only [Except.toOption, Option.any_some, decide_eq_true_eq, List.all_eq_true] at hok
    obtain ⟨h1, h2, h3⟩ := hok
    obtain ⟨fs', rd', h4, -⟩ := C86_site_partial sampleH5 sampleH5_fits (copyFs copySiteFile) (py! "f") (py! "g") .rawacf
      (some (py! "gzip")) rd copySiteFile hr rfl copySiteFile_sound rfl (by rintro c ⟨⟩; decide)
      fun n r hn => by rw [h2]; exact copyRecB_sound (h3 _ (Dict.mem_of_get? hn))
    exact ⟨rd, rfl, fs', rd', h4, by rw [h4.names, h1]⟩

/-- An array file is copied. -/
example : ∃ rd, arrayRead (copyFs copyArrayFile) (py! "f") (py! "rawacf") = .ok rd ∧ ∃ fs' rd',
    ArrayCopy sampleH5 (copyFs copyArrayFile) (py! "g") .rawacf none rd fs' rd' := by
  have hok : ((arrayRead (copyFs copyArrayFile) (py! "f") (py! "rawacf")).toOption.any fun rd =>
      copyRecB [] rd.content) = true := by decide +kernel
  cases hr : arrayRead (copyFs copyArrayFile) (py! "f") (py! "rawacf") with
  | error e => rw [hr] at hok; cases hok
  | ok rd =>
    rw [hr] at hok
    obtain ⟨fs', rd', h4, -⟩ := C86_array_partial sampleH5 sampleH5_fits (copyFs copyArrayFile) (py! "f") (py! "g") .rawacf
      none rd copyArrayFile hr rfl (soundGroupB_sound (by decide +kernel)) rfl (by simp)
      (copyRecB_sound (dsets := []) hok).1
    exact ⟨rd, rfl, fs', rd', h4⟩

/-- Both are recognized. -/
example : ((borealisRead (copyFs copySiteFile) (py! "f") (py! "rawacf") none).toOption.any fun
      | .site rd => py! "borealis_git_hash" ∉ rd.content.keys
      | .array _ => false) = true ∧
    ((borealisRead (copyFs copyArrayFile) (py! "f") (py! "rawacf") none).toOption.any fun
      | .site _ => false
      | .array _ => true) = true := by
  constructor <;> decide +kernel

/-- Read a site file, write its records to a new file and read that: the results of the three steps. -/
def siteAgain (f : H5) (ft : PyStr) : Except Err Unit × Except Err Unit × Except Err Unit :=
  match siteRead (copyFs f) (py! "f") ft with
  | .error e => (.error e, .error e, .error e)
  | .ok rd =>
    let w := siteWrite sampleH5 (copyFs f) (py! "g") (.records rd.content) ft none
    (.ok (), w.1, (siteRead w.2 (py! "g") ft).map fun _ => ())

/-- The same for an array file. -/
def arrayAgain (f : H5) (ft : PyStr) : Except Err Unit × Except Err Unit × Except Err Unit :=
  match arrayRead (copyFs f) (py! "f") ft with
  | .error e => (.error e, .error e, .error e)
  | .ok rd =>
    let w := arrayWrite sampleH5 (copyFs f) (py! "g") (.arrays rd.content) ft none
    (.ok (), w.1, (arrayRead w.2 (py! "g") ft).map fun _ => ())

example : siteAgain copySiteFile (py! "rawacf") = (.ok (), .ok (), .ok ()) ∧
    arrayAgain copyArrayFile (py! "rawacf") = (.ok (), .ok (), .ok ()) := by
  constructor <;> decide +kernel

/-- **C86** violated: a file with a text that is not ASCII, here `é` in UTF-8, is read, but what was read
cannot be written, in either structure. -/
theorem C86_text_violation :
    let a := Attr.bytes [0xC3, 0xA9]
    let F := withAttr (py! "experiment_comment") a copySiteFile
    let G := withAttr (py! "experiment_comment") a copyArrayFile
    (siteAgain F (py! "rawacf")).1 = .ok () ∧ (siteAgain F (py! "rawacf")).2.1 = .error .valueError ∧
    (arrayAgain G (py! "rawacf")).1 = .ok () ∧ (arrayAgain G (py! "rawacf")).2.1 = .error .valueError := by
  refine ⟨?_, ?_, ?_, ?_⟩ <;> decide +kernel

/-- **C86** violated: a site file with a number in place of an array is read, and what was read is written, but
the new file cannot be read. -/
theorem C86_scalar_violation :
    siteAgain (withAttr (py! "blanked_samples") (.value (.np .u32 (.int 1))) copySiteFile) (py! "rawacf") =
      (.ok (), .ok (), .error .valueError) := by
  decide +kernel

end Verif.Bor
