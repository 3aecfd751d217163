import Verif.Borealis.Props.Files
/-!
# C59: the file types that can be read and written
-/
namespace Verif.Bor
open Verif

/-- The sample records can be written and read. -/
def siteSampleOK (v : Version) (t : FType) : Bool :=
  let w := siteWrite sampleH5 noFiles (py! "f") (.records (sampleFileRecords v t)) t.name none
  w.1 == .ok () &&
  (match siteRead w.2 (py! "f") t.name with
   | .ok rd => rd.ftype == t && rd.version == v
   | .error _ => false)

/-- The sample arrays can be written and read. -/
def arraySampleOK (v : Version) (t : FType) : Bool :=
  let w := arrayWrite sampleH5 noFiles (py! "f") (.arrays (sampleFileArrays v t)) t.name none
  w.1 == .ok () &&
  (match arrayRead w.2 (py! "f") t.name with
   | .ok rd => rd.ftype == t && rd.version == v
   | .error _ => false)

theorem siteSample_ok (v : Version) (t : FType) (ht : t ≠ .rawrf) : siteSampleOK v t = true := by
  cases t with
  | rawrf => exact absurd rfl ht
  | _ => cases v <;> decide +kernel

theorem arraySample_ok (v : Version) (t : FType) (ht : t ≠ .rawrf) : arraySampleOK v t = true := by
  cases t with
  | rawrf => exact absurd rfl ht
  | _ => cases v <;> decide +kernel

/-- **C59** For every version and every type but rawrf there are records and arrays that can be written,
and the files can be read. -/
theorem C59_partial (v : Version) (t : FType) (ht : t ≠ .rawrf) :
    (∃ h fs p rs fs', siteWrite h fs p (.records rs) t.name none = (.ok (), fs') ∧
      ∃ rd, siteRead fs' p t.name = .ok rd ∧ rd.ftype = t ∧ rd.version = v) ∧
    ∃ h fs p r fs', arrayWrite h fs p (.arrays r) t.name none = (.ok (), fs') ∧
      ∃ rd, arrayRead fs' p t.name = .ok rd ∧ rd.ftype = t ∧ rd.version = v := by
  constructor
  · have h := siteSample_ok v t ht
    unfold siteSampleOK at h
    refine ⟨sampleH5, noFiles, py! "f", sampleFileRecords v t, ?_⟩
    generalize siteWrite sampleH5 noFiles (py! "f") (.records (sampleFileRecords v t)) t.name none = w at h ⊢
    obtain ⟨res, fs⟩ := w
    simp only [Bool.and_eq_true, beq_iff_eq] at h
    obtain ⟨rfl, h⟩ := h
    refine ⟨fs, rfl, ?_⟩
    split at h
    · rename_i rd hrd
      simp only [Bool.and_eq_true, beq_iff_eq] at h
      exact ⟨rd, hrd, h⟩
    · cases h
  · have h := arraySample_ok v t ht
    unfold arraySampleOK at h
    refine ⟨sampleH5, noFiles, py! "f", sampleFileArrays v t, ?_⟩
    generalize arrayWrite sampleH5 noFiles (py! "f") (.arrays (sampleFileArrays v t)) t.name none = w at h ⊢
    obtain ⟨res, fs⟩ := w
    simp only [Bool.and_eq_true, beq_iff_eq] at h
    obtain ⟨rfl, h⟩ := h
    refine ⟨fs, rfl, ?_⟩
    split at h
    · rename_i rd hrd
      simp only [Bool.and_eq_true, beq_iff_eq] at h
      exact ⟨rd, hrd, h⟩
    · cases h

theorem siteWriteCheck_rawrf (d : Data) (x : Format × Records) : siteWriteCheck d (py! "rawrf") ≠ .ok x := by
  intro h
  cases d with
  | arrays r => exact siteWriteCheck_arrays r _ x h
  | records rs =>
    obtain ⟨t, v, ht, hn, _⟩ := siteWriteCheck_ok (fmt := x.1) (rs' := x.2) h
    exact ht (ftype_name_inj (u := .rawrf) hn.symm)

theorem arrayWriteCheck_rawrf (d : Data) (x : Format × Rec) : arrayWriteCheck d (py! "rawrf") ≠ .ok x := by
  intro h
  cases d with
  | records rs => exact arrayWriteCheck_records rs _ x h
  | arrays r =>
    obtain ⟨t, v, ht, hn, _⟩ := arrayWriteCheck_ok (fmt := x.1) (r' := x.2) h
    exact ht (ftype_name_inj (u := .rawrf) hn.symm)

/-- **C59** violated: no rawrf file can be read, in either structure. -/
theorem C59_rawrf_read_violation (fs : FSys) (p : PyStr) (st : Option PyStr) :
    (∀ rd, siteRead fs p (py! "rawrf") ≠ .ok rd) ∧ (∀ rd, arrayRead fs p (py! "rawrf") ≠ .ok rd) ∧
    ∀ rd, borealisRead fs p (py! "rawrf") st ≠ .ok rd := by
  have h0 : parseFType (py! "rawrf") = some .rawrf := rfl
  have hs : ∀ rd, siteRead fs p (py! "rawrf") ≠ .ok rd := by
    intro rd h
    unfold siteRead at h
    rw [h0] at h
    obtain ⟨f, _, h⟩ := bind_ok h
    obtain ⟨s, hs, h⟩ := bind_ok h
    obtain ⟨v, _, h⟩ := bind_ok h
    obtain ⟨_, ht, h⟩ := bind_ok h
    obtain ⟨rs, hr, h⟩ := bind_ok h
    obtain ⟨rs', hp, h⟩ := bind_ok h
    obtain ⟨_, hc, _⟩ := bind_ok h
    rcases rawrf_tables v with hb | ⟨h2, h3, _⟩
    · unfold tables at ht; rw [hb] at ht; cases ht
    · rw [h2, h3, checkRecords_ok_iff] at hc
      have empty : rs' = [] := by
        cases rs' with
        | nil => rfl
        | cons x l => exact absurd (hc x.1 x.2 (by simp)) (by rw [checkRecord_empty]; nofun)
      subst empty
      have : rs = [] := by
        cases rs with
        | nil => rfl
        | cons x l =>
          obtain ⟨n, r⟩ := x
          rw [ppoSiteFix] at hp
          obtain ⟨_, _, hp⟩ := bind_ok hp
          obtain ⟨_, _, hp⟩ := bind_ok hp
          cases hp
      subst this
      unfold siteHash at hs
      rw [asStructure_ok] at hs
      unfold readRecords at hr
      cases hk : sortStrs f.keys with
      | nil => rw [hk] at hs; cases hs
      | cons n l =>
        rw [hk, readNames] at hr
        split at hr
        · cases hr
        · obtain ⟨_, _, hr⟩ := bind_ok hr
          obtain ⟨_, _, hr⟩ := bind_ok hr
          cases hr
  have ha : ∀ rd, arrayRead fs p (py! "rawrf") ≠ .ok rd := by
    intro rd h
    unfold arrayRead at h
    rw [h0] at h
    obtain ⟨f, _, h⟩ := bind_ok h
    obtain ⟨s, _, h⟩ := bind_ok h
    obtain ⟨v, _, h⟩ := bind_ok h
    obtain ⟨_, ht, h⟩ := bind_ok h
    obtain ⟨r, _, h⟩ := bind_ok h
    obtain ⟨r', _, h⟩ := bind_ok h
    obtain ⟨_, hc, _⟩ := bind_ok h
    rcases rawrf_tables v with hb | ⟨_, _, h2, h3⟩
    · unfold tables at ht; rw [hb] at ht; cases ht
    · rw [h2, h3, checkArrays_empty] at hc; cases hc
  refine ⟨hs, ha, fun rd h => ?_⟩
  unfold borealisRead at h
  rw [h0] at h
  simp only at h
  split at h
  · unfold returnReader at h
    split at h
    · rename_i r hr; exact ha r hr
    · split at h
      · split at h
        · rename_i r hr; exact hs r hr
        · cases h
      · cases h
  · split at h
    · obtain ⟨r, hr, _⟩ := bind_ok h; exact hs r hr
    · split at h
      · obtain ⟨r, hr, _⟩ := bind_ok h; exact ha r hr
      · cases h

/-- **C59** violated: no data can be written to a rawrf file, in either structure; nothing is written. -/
theorem C59_rawrf_write_violation (h : H5Cfg) (fs : FSys) (p : PyStr) (d : Data) (st : Option PyStr)
    (comp : Option (Option PyStr)) :
    (∀ c, ∃ e, siteWrite h fs p d (py! "rawrf") c = (.error e, fs)) ∧
    (∀ c, ∃ e, arrayWrite h fs p d (py! "rawrf") c = (.error e, fs)) ∧
    ∃ e, borealisWrite h fs p d (py! "rawrf") st comp = (.error e, fs) := by
  have hs : ∀ c, ∃ e, siteWrite h fs p d (py! "rawrf") c = (.error e, fs) :=
    fun c => siteWrite_refused (siteWriteCheck_rawrf d)
  have ha : ∀ c, ∃ e, arrayWrite h fs p d (py! "rawrf") c = (.error e, fs) :=
    fun c => arrayWrite_refused (arrayWriteCheck_rawrf d)
  refine ⟨hs, ha, ?_⟩
  obtain ⟨e1, h1⟩ := hs (comp.getD siteCompression)
  obtain ⟨e2, h2⟩ := ha (comp.getD arrayCompression)
  unfold borealisWrite
  cases st with
  | none =>
    unfold returnWriter
    simp only [h2, h1]
    split
    · exact ⟨e1, rfl⟩
    · exact ⟨e2, rfl⟩
  | some s =>
    simp only [h1, h2]
    split
    · exact ⟨e1, rfl⟩
    · split
      · exact ⟨e2, rfl⟩
      · exact ⟨_, rfl⟩

example : ∃ e, borealisWrite sampleH5 noFiles (py! "f") (.records (sampleFileRecords .v06 .rawrf)) (py! "rawrf")
    none none = (.error e, noFiles) := (C59_rawrf_write_violation ..).2.2

end Verif.Bor
