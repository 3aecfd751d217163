import Verif.Borealis.Props.Dispatch
import Verif.Borealis.Lemmas.PpoCongr
/-!
# C62: Borealis file types are told apart
-/
namespace Verif.Bor
open Verif

/-- The two types whose formats list the same fields. -/
def SameFormats (v : Version) (t t' : FType) : Prop :=
  v = .v07 ∧ ((t = .bfiq ∧ t' = .antennasIq) ∨ (t = .antennasIq ∧ t' = .bfiq))

instance (v : Version) (t t' : FType) : Decidable (SameFormats v t t') := by unfold SameFormats; infer_instance

/-- A name that one of two tables lists and the other does not. -/
def NamesDiffer (a a' : List PyStr) : Prop := (∃ k ∈ a, k ∉ a') ∨ ∃ k ∈ a', k ∉ a

instance (a a' : List PyStr) : Decidable (NamesDiffer a a') := by unfold NamesDiffer; infer_instance

/-- The names of the fields of a record. -/
def siteTableNames (f : Format) : List PyStr := f.siteSingleTypes.keys ++ f.siteArrayTypes.keys

/-- The names of the fields of an array file. -/
def arrayTableNames (f : Format) : List PyStr := f.arraySingleTypes.keys ++ f.arrayArrayTypes.keys

theorem formats_apart (v : Version) (t t' : FType) (h : t ≠ t') (ht : t ≠ .rawrf) (ht' : t' ≠ .rawrf)
    (hs : ¬ SameFormats v t t') :
    NamesDiffer (siteTableNames (formatOf v t)) (siteTableNames (formatOf v t')) ∧
    NamesDiffer (arrayTableNames (formatOf v t)) (arrayTableNames (formatOf v t')) := by
  have all : ∀ v ∈ Version.all, ∀ t ∈ FType.all, ∀ t' ∈ FType.all, t ≠ t' → t ≠ .rawrf → t' ≠ .rawrf → ¬ SameFormats v t t' →
      NamesDiffer (siteTableNames (formatOf v t)) (siteTableNames (formatOf v t')) ∧
      NamesDiffer (arrayTableNames (formatOf v t)) (arrayTableNames (formatOf v t')) := by decide +kernel
  exact all v (by cases v <;> decide) t (by cases t <;> decide) t' (by cases t' <;> decide) h ht ht' hs

/-- Nothing conforms to two tables with different names. -/
theorem conforms_apart {ok ok' : PyStr → Ty → Val → Prop} {a d a' d' : TyTable} {r : Rec}
    (hn : NamesDiffer (a.keys ++ d.keys) (a'.keys ++ d'.keys)) (h : Conforms ok a d r) : ¬ Conforms ok' a' d' r := by
  intro h'
  have key : ∀ {ok ok' : PyStr → Ty → Val → Prop} {a d a' d' : TyTable} {k : PyStr}, Conforms ok a d r →
      Conforms ok' a' d' r → k ∈ a.keys ++ d.keys → k ∉ a'.keys ++ d'.keys → False := by
    intro ok ok' a d a' d' k h h' hk hk'
    apply h'.known k
    refine ⟨?_, fun hl => hk' ?_⟩
    · apply Classical.byContradiction
      intro hn
      refine h.complete k ⟨?_, hn⟩
      rcases List.mem_append.1 hk with hk | hk
      · exact .inl (listed_iff.2 hk)
      · exact .inr (listed_iff.2 hk)
    · rcases hl with hl | hl
      · exact List.mem_append_left _ (listed_iff.1 hl)
      · exact List.mem_append_right _ (listed_iff.1 hl)
  rcases hn with ⟨k, hk, hk'⟩ | ⟨k, hk, hk'⟩
  · exact key h h' hk hk'
  · exact key h' h hk hk'

/-- **C62.** A record that passes the check of one file type passes that of no other.  Missing: bfiq and antennas_iq of v0.7,
see `C62_violation`. -/
theorem C62_record_partial (v : Version) {t t' : FType} (h : t ≠ t') (ht : t ≠ .rawrf) (ht' : t' ≠ .rawrf)
    (hs : ¬ SameFormats v t t') {r : Rec}
    (hc : checkRecord (formatOf v t).siteSingleTypes (formatOf v t).siteArrayTypes r = .ok ()) :
    ∃ e, checkRecord (formatOf v t').siteSingleTypes (formatOf v t').siteArrayTypes r = .error e := by
  cases hc' : checkRecord (formatOf v t').siteSingleTypes (formatOf v t').siteArrayTypes r with
  | error e => exact ⟨e, rfl⟩
  | ok u =>
    exact absurd ((checkRecord_ok_iff (C34_site_tables v t' ht') r).1 hc')
      (conforms_apart (formats_apart v t t' h ht ht' hs).1 ((checkRecord_ok_iff (C34_site_tables v t ht) r).1 hc))

/-- **C62.** Arrays that pass the check of one file type pass that of no other. -/
theorem C62_arrays_partial (v : Version) {t t' : FType} (h : t ≠ t') (ht : t ≠ .rawrf) (ht' : t' ≠ .rawrf)
    (hs : ¬ SameFormats v t t') {r : Rec}
    (hc : checkArrays (formatOf v t).arraySingleTypes (formatOf v t).arrayArrayTypes (formatOf v t).unshared r = .ok ()) :
    ∃ e, checkArrays (formatOf v t').arraySingleTypes (formatOf v t').arrayArrayTypes (formatOf v t').unshared r = .error e := by
  cases hc' : checkArrays (formatOf v t').arraySingleTypes (formatOf v t').arrayArrayTypes (formatOf v t').unshared r with
  | error e => exact ⟨e, rfl⟩
  | ok u =>
    obtain ⟨g, hu⟩ := C34_array_tables v t ht
    obtain ⟨g', hu'⟩ := C34_array_tables v t' ht'
    exact absurd ((checkArrays_ok_iff g' hu' r).1 hc').1
      (conforms_apart (formats_apart v t t' h ht ht' hs).2 ((checkArrays_ok_iff g hu r).1 hc).1)

/-! ## Readers -/

theorem readNames_keys {f : H5} : ∀ {l : List PyStr} {rs : Records}, readNames f l = .ok rs → rs.keys = l
  | [], rs, h => by cases h; rfl
  | n :: l, rs, h => by
    rw [readNames] at h
    split at h
    · cases h
    · obtain ⟨r, -, h⟩ := bind_ok h
      obtain ⟨rs', h', h⟩ := bind_ok h
      cases h
      show n :: Dict.keys rs' = _
      rw [readNames_keys h']

/-- What an accepted site file holds: depends on the file only, except for the type. -/
theorem siteRead_content {fs : FSys} {p : PyStr} {t : FType} {rd : Reader Records} (h : siteRead fs p t.name = .ok rd) :
    ∃ f s rs, fs.openR p = .ok f ∧ siteHash f = .ok s ∧ selectVersion s = .ok rd.version ∧ readRecords f = .ok rs ∧
      ppoSiteFix rs = .ok rd.content ∧ rd = ⟨t, rd.version, sortStrs f.keys, rd.content⟩ ∧
      checkRecords (formatOf rd.version t).siteSingleTypes (formatOf rd.version t).siteArrayTypes rd.content = .ok () ∧
      t ≠ .rawrf ∧ ∃ n r, (n, r) ∈ rd.content := by
  have hne : t ≠ .rawrf := by
    rintro rfl
    exact (C59_rawrf_read_violation fs p none).1 _ h
  unfold siteRead at h
  rw [parseFType_iff.2 rfl] at h
  obtain ⟨f, hf, h⟩ := bind_ok h
  obtain ⟨s, hs, h⟩ := bind_ok h
  obtain ⟨v, hv, h⟩ := bind_ok h
  obtain ⟨_, _, h⟩ := bind_ok h
  obtain ⟨rs0, hr0, h⟩ := bind_ok h
  obtain ⟨rs, hr, h⟩ := bind_ok h
  obtain ⟨_, hc, h⟩ := bind_ok h
  cases h
  refine ⟨f, s, rs0, hf, hs, hv, hr0, hr, rfl, hc, hne, ?_⟩
  have hk := readNames_keys hr0
  have hall := ppoSiteFix_all hr
  cases hall with
  | nil =>
    exfalso
    unfold siteHash at hs
    rw [asStructure_ok] at hs
    rw [← hk] at hs
    cases hs
  | cons _ _ => exact ⟨_, _, List.mem_cons_self⟩

theorem arrayRead_content {fs : FSys} {p : PyStr} {t : FType} {rd : Reader Rec} (h : arrayRead fs p t.name = .ok rd) :
    ∃ f s r, fs.openR p = .ok f ∧ hashOf f.root.attrs = .ok s ∧ selectVersion s = .ok rd.version ∧ readArrays f = .ok r ∧
      ppoArrayFix r = .ok rd.content ∧ rd = ⟨t, rd.version, [], rd.content⟩ ∧
      checkArrays (formatOf rd.version t).arraySingleTypes (formatOf rd.version t).arrayArrayTypes (formatOf rd.version t).unshared
        rd.content = .ok () ∧ t ≠ .rawrf := by
  have hne : t ≠ .rawrf := by
    rintro rfl
    exact (C59_rawrf_read_violation fs p none).2.1 _ h
  unfold arrayRead at h
  rw [parseFType_iff.2 rfl] at h
  obtain ⟨f, hf, h⟩ := bind_ok h
  obtain ⟨s, hs, h⟩ := bind_ok h
  obtain ⟨v, hv, h⟩ := bind_ok h
  obtain ⟨_, _, h⟩ := bind_ok h
  obtain ⟨rs0, hr0, h⟩ := bind_ok h
  obtain ⟨rs, hr, h⟩ := bind_ok h
  obtain ⟨_, hc, h⟩ := bind_ok h
  cases h
  exact ⟨f, s, rs0, hf, asStructure_ok.1 hs, hv, hr0, hr, rfl, hc, hne⟩

/-- The version of what `BorealisRead` holds. -/
def Handler.version : Handler → Version
  | .array r => r.version
  | .site r => r.version

theorem borealisRead_ok {fs : FSys} {p ft : PyStr} {st : Option PyStr} {x : Handler} (h : borealisRead fs p ft st = .ok x) :
    (∃ a, x = .array a ∧ arrayRead fs p ft = .ok a) ∨ ∃ s, x = .site s ∧ siteRead fs p ft = .ok s := by
  unfold borealisRead at h
  split at h
  · cases h
  · split at h
    · unfold returnReader at h
      split at h
      · cases h; exact .inl ⟨_, rfl, by assumption⟩
      · split at h
        · split at h
          · cases h; exact .inr ⟨_, rfl, by assumption⟩
          · cases h
        · cases h
    · split at h
      · obtain ⟨s, hs, h⟩ := bind_ok h
        cases h
        exact .inr ⟨_, rfl, hs⟩
      · split at h
        · obtain ⟨s, hs, h⟩ := bind_ok h
          cases h
          exact .inl ⟨_, rfl, hs⟩
        · cases h

/-- **C62.** A file that `BorealisRead` accepts as one type, in whatever structure, is not accepted as another one.  Missing:
bfiq and antennas_iq of v0.7. -/
theorem C62_reader_partial {fs : FSys} {p : PyStr} {t t' : FType} {st st' : Option PyStr} {x : Handler}
    (h : borealisRead fs p t.name st = .ok x) (hne : t ≠ t') (hs : ¬ SameFormats x.version t t') :
    ∃ e, borealisRead fs p t'.name st' = .error e := by
  cases h' : borealisRead fs p t'.name st' with
  | error e => exact ⟨e, rfl⟩
  | ok y =>
    exfalso
    rcases borealisRead_ok h with ⟨a, rfl, ha⟩ | ⟨a, rfl, ha⟩ <;> rcases borealisRead_ok h' with ⟨b, rfl, hb⟩ | ⟨b, rfl, hb⟩
    · obtain ⟨f, s, r, h1, h2, h3, h4, h5, -, h6, h7⟩ := arrayRead_content ha
      obtain ⟨f', s', r', g1, g2, g3, g4, g5, -, g6, g7⟩ := arrayRead_content hb
      rw [h1] at g1; cases g1
      rw [h2] at g2; cases g2
      rw [h3] at g3
      have hv : a.version = b.version := by injection g3
      rw [h4] at g4; cases g4
      rw [h5] at g5
      have hc : a.content = b.content := by injection g5
      rw [← hv, ← hc] at g6
      obtain ⟨e, he⟩ := C62_arrays_partial a.version hne h7 g7 hs h6
      rw [he] at g6
      cases g6
    · obtain ⟨f, s, r, h1, h2, h3, h4, -⟩ := arrayRead_content ha
      obtain ⟨f', s', r', g1, g2, -⟩ := siteRead_content hb
      rw [h1] at g1; cases g1
      exact siteHash_groups g2 (readArrays_groups h4)
    · obtain ⟨f, s, r, h1, h2, h3, h4, -⟩ := arrayRead_content hb
      obtain ⟨f', s', r', g1, g2, -⟩ := siteRead_content ha
      rw [h1] at g1; cases g1
      exact siteHash_groups g2 (readArrays_groups h4)
    · obtain ⟨f, s, r, h1, h2, h3, h4, h5, -, h6, h7, n, r0, h8⟩ := siteRead_content ha
      obtain ⟨f', s', r', g1, g2, g3, g4, g5, -, g6, g7, -⟩ := siteRead_content hb
      rw [h1] at g1; cases g1
      rw [h2] at g2; cases g2
      rw [h3] at g3
      have hv : a.version = b.version := by injection g3
      rw [h4] at g4; cases g4
      rw [h5] at g5
      have hc : a.content = b.content := by injection g5
      rw [← hv, ← hc] at g6
      obtain ⟨e, he⟩ := C62_record_partial a.version hne h7 g7 hs (checkRecords_ok_iff.1 h6 n r0 h8)
      rw [checkRecords_ok_iff.1 g6 n r0 h8] at he
      cases he

/-! ## The two types of v0.7 -/

/-- Tables that list the same fields. -/
def SameLists (a b : TyTable) : Prop := (∀ p ∈ a, p ∈ b) ∧ ∀ p ∈ b, p ∈ a

instance (a b : TyTable) : Decidable (SameLists a b) := by unfold SameLists; infer_instance

theorem conforms_table {ok : PyStr → Ty → Val → Prop} {a d a' d' : TyTable} {r : Rec} (ha : SameLists a a') (hd : SameLists d d')
    (h : Conforms ok a d r) : Conforms ok a' d' r := by
  have key : ∀ {x y : TyTable}, SameLists x y → ∀ k, Listed x k ↔ Listed y k :=
    fun hs k => ⟨fun ⟨t, ht⟩ => ⟨t, hs.1 _ ht⟩, fun ⟨t, ht⟩ => ⟨t, hs.2 _ ht⟩⟩
  refine ⟨fun k hk => h.complete k ?_, fun k hk => h.known k ?_, fun k t hk => h.typed k t ?_⟩
  · unfold Missing at hk ⊢
    rw [key ha, key hd]
    exact hk
  · unfold Extra at hk ⊢
    rw [key ha, key hd]
    exact hk
  · rcases hk with ⟨hm, hk⟩ | ⟨hm, hk⟩
    · exact .inl ⟨ha.2 _ hm, hk⟩
    · exact .inr ⟨hd.2 _ hm, hk⟩

theorem same7 : SameLists Format.bfiq7.siteSingleTypes Format.antennasIq7.siteSingleTypes ∧
    SameLists Format.bfiq7.siteArrayTypes Format.antennasIq7.siteArrayTypes ∧
    SameLists Format.bfiq7.arraySingleTypes Format.antennasIq7.arraySingleTypes ∧
    SameLists Format.bfiq7.arrayArrayTypes Format.antennasIq7.arrayArrayTypes ∧
    ∀ k ∈ Format.bfiq7.unshared ++ Format.antennasIq7.unshared, k ∈ Format.bfiq7.unshared ∧ k ∈ Format.antennasIq7.unshared := by
  decide +kernel

/-- The tables of the two types list the same fields. -/
theorem sameFormats_tables {v : Version} {t t' : FType} (h : SameFormats v t t') :
    SameLists (formatOf v t).siteSingleTypes (formatOf v t').siteSingleTypes ∧
    SameLists (formatOf v t).siteArrayTypes (formatOf v t').siteArrayTypes ∧
    SameLists (formatOf v t).arraySingleTypes (formatOf v t').arraySingleTypes ∧
    SameLists (formatOf v t).arrayArrayTypes (formatOf v t').arrayArrayTypes ∧
    ∀ k, k ∈ (formatOf v t).unshared ↔ k ∈ (formatOf v t').unshared := by
  obtain ⟨h1, h2, h3, h4, h5⟩ := same7
  have h5 : ∀ k, k ∈ Format.bfiq7.unshared ↔ k ∈ Format.antennasIq7.unshared :=
    fun k => ⟨fun h => (h5 k (List.mem_append_left _ h)).2, fun h => (h5 k (List.mem_append_right _ h)).1⟩
  obtain ⟨rfl, ⟨rfl, rfl⟩ | ⟨rfl, rfl⟩⟩ := h
  · exact ⟨h1, h2, h3, h4, h5⟩
  · exact ⟨⟨h1.2, h1.1⟩, ⟨h2.2, h2.1⟩, ⟨h3.2, h3.1⟩, ⟨h4.2, h4.1⟩, fun k => (h5 k).symm⟩

/-- **C62** violated: every antennas_iq file of v0.7 is read as a bfiq file, and every bfiq file as an antennas_iq file, in both
structures. -/
theorem C62_violation {fs : FSys} {p : PyStr} {t t' : FType} :
    (∀ rd, siteRead fs p t.name = .ok rd → SameFormats rd.version t t' →
      siteRead fs p t'.name = .ok ⟨t', rd.version, rd.names, rd.content⟩) ∧
    ∀ rd, arrayRead fs p t.name = .ok rd → SameFormats rd.version t t' →
      arrayRead fs p t'.name = .ok ⟨t', rd.version, rd.names, rd.content⟩ := by
  constructor
  · intro rd h hs
    obtain ⟨f, s, rs, h1, h2, h3, h4, h5, h6, h7, ht, -⟩ := siteRead_content h
    obtain ⟨k1, k2, -, -, -⟩ := sameFormats_tables hs
    have ht' : t' ≠ .rawrf := by
      obtain ⟨-, ⟨-, rfl⟩ | ⟨-, rfl⟩⟩ := hs <;> decide
    have hb : tables (formatOf rd.version t') = .ok () := by
      obtain ⟨hv, ⟨-, rfl⟩ | ⟨-, rfl⟩⟩ := hs <;> rw [hv] <;> rfl
    have hc : checkRecords (formatOf rd.version t').siteSingleTypes (formatOf rd.version t').siteArrayTypes rd.content = .ok () := by
      rw [checkRecords_ok_iff]
      intro n r hr
      rw [checkRecord_ok_iff (C34_site_tables _ _ ht')]
      exact conforms_table k1 k2 ((checkRecord_ok_iff (C34_site_tables _ _ ht) r).1 (checkRecords_ok_iff.1 h7 n r hr))
    unfold siteRead
    rw [parseFType_iff.2 rfl]
    simp only
    rw [bind_of_ok h1, bind_of_ok h2, bind_of_ok h3, bind_of_ok hb, bind_of_ok h4, bind_of_ok h5, bind_of_ok hc]
    rw [h6]
  · intro rd h hs
    obtain ⟨f, s, rs, h1, h2, h3, h4, h5, h6, h7, ht⟩ := arrayRead_content h
    obtain ⟨-, -, k1, k2, k3⟩ := sameFormats_tables hs
    have ht' : t' ≠ .rawrf := by
      obtain ⟨-, ⟨-, rfl⟩ | ⟨-, rfl⟩⟩ := hs <;> decide
    have hb : tables (formatOf rd.version t') = .ok () := by
      obtain ⟨hv, ⟨-, rfl⟩ | ⟨-, rfl⟩⟩ := hs <;> rw [hv] <;> rfl
    have hc : checkArrays (formatOf rd.version t').arraySingleTypes (formatOf rd.version t').arrayArrayTypes
        (formatOf rd.version t').unshared rd.content = .ok () := by
      obtain ⟨g, hu⟩ := C34_array_tables rd.version t ht
      obtain ⟨g', hu'⟩ := C34_array_tables rd.version t' ht'
      obtain ⟨m1, n, m2⟩ := (checkArrays_ok_iff g hu _).1 h7
      exact (checkArrays_ok_iff g' hu' _).2 ⟨conforms_table k1 k2 m1, n, fun k hk => m2 k ((k3 k).2 hk)⟩
    unfold arrayRead
    rw [parseFType_iff.2 rfl]
    simp only
    rw [bind_of_ok h1, bind_of_ok (asStructure_ok.2 h2), bind_of_ok h3, bind_of_ok hb, bind_of_ok h4, bind_of_ok h5, bind_of_ok hc]
    rw [h6]

/-- Files of two antennas_iq records, read as bfiq. -/
example : ∃ fs p, (∃ rd, siteRead fs p (py! "antennas_iq") = .ok rd ∧ rd.content ≠ []) ∧ ∃ rd, siteRead fs p (py! "bfiq") = .ok rd := by
  obtain ⟨_, _, p, _, fs, _, rd, h1, h2, h3⟩ := (C59_partial .v07 .antennasIq (by decide)).1
  obtain ⟨_, _, _, _, _, _, _, _, _, _, _, n, r, hr⟩ := siteRead_content h1
  exact ⟨fs, p, ⟨rd, h1, List.ne_nil_of_mem hr⟩, _, C62_violation.1 rd h1 ⟨h3, .inr ⟨rfl, rfl⟩⟩⟩

/-- A bfiq file of v0.6 is not read as an antennas_iq, rawacf or rawrf file. -/
example : ∃ fs p, (∃ x, borealisRead fs p (py! "bfiq") (some (py! "site")) = .ok x) ∧
    ∀ t st, t ≠ .bfiq → ∃ e, borealisRead fs p (FType.name t) st = .error e := by
  obtain ⟨_, _, p, _, fs, _, rd, h1, h2, h3⟩ := (C59_partial .v06 .bfiq (by decide)).1
  have h : borealisRead fs p (FType.name .bfiq) (some (py! "site")) = .ok (.site rd) := by
    show (do Except.ok (Handler.site (← siteRead fs p (FType.name .bfiq)))) = _
    rw [h1]
    rfl
  refine ⟨fs, p, ⟨_, h⟩, fun t st hne => C62_reader_partial h (Ne.symm hne) ?_⟩
  rintro ⟨hv, -⟩
  rw [show (Handler.site rd).version = rd.version from rfl, h3] at hv
  cases hv

end Verif.Bor
