import Verif.Borealis.Lemmas.ArgumentMessages
import Verif.Borealis.SpecArguments
import Verif.Borealis.Props.Arguments
/-!
# C79: a refused argument is reported as such
-/
namespace Verif.Bor
open Verif

/-- **C79** The texts do not change what happens: without them, the outcome of each constructor is the one of the model
without texts. -/
theorem C79_agrees (h : H5Cfg) (cfg : NpCfg) (ops : Ops) (tkey : Elt → Except Err PyStr) (fs : FSys) (p q ft : PyStr) (d : Data)
    (st : Option PyStr) (s : PyStr) (slice : Option Int) (factor : Int) (comp : Option PyStr) (c : Option (Option PyStr)) :
    dropText (siteReadM fs p ft) = siteRead fs p ft ∧ dropText (arrayReadM fs p ft) = arrayRead fs p ft ∧
    dropText (borealisReadM fs p ft st) = borealisRead fs p ft st ∧
    dropTextW (siteWriteM h fs p d ft comp) = siteWrite h fs p d ft comp ∧
    dropTextW (arrayWriteM h fs p d ft comp) = arrayWrite h fs p d ft comp ∧
    dropTextW (borealisWriteM h fs p d ft st c) = borealisWrite h fs p d ft st c ∧
    dropTextW (borealisRestructureM h tkey fs p q ft s comp) = borealisRestructure h tkey fs p q ft s comp ∧
    dropText (convertPrepareM cfg ops tkey fs p ft q slice st factor) = convertPrepare cfg ops tkey fs p ft q slice st factor :=
  ⟨siteReadM_drop .., arrayReadM_drop .., borealisReadM_drop .., siteWriteM_drop .., arrayWriteM_drop .., borealisWriteM_drop ..,
    borealisRestructureM_drop .., convertPrepareM_drop ..⟩

theorem parseFType_unlisted {ft : PyStr} (h : ft ∉ fileTypes) : parseFType ft = none := by
  cases hp : parseFType ft with
  | none => rfl
  | some t =>
    exfalso
    rw [parseFType_iff.1 hp] at h
    revert h
    cases t <;> decide

theorem fileTypeText_words (fn ft : PyStr) : fileTypeText fn ft = (typeWords fn ft).flatten := by
  simp [fileTypeText, typeWords]

theorem unknownStructure_words (st : PyStr) :
    unknownStructure st = (structureWords (py! "Unknown structure type: " ++ st)).flatten := by
  simp [unknownStructure, structureText, structureWords]

theorem versionText_words (fn v : PyStr) : versionText fn v = (versionWords fn v).flatten := by
  simp [versionText, versionWords]

theorem conversionTypesText_words (out ft : PyStr) : conversionTypesText out ft = (conversionWords out ft).flatten := by
  simp [conversionTypesText, conversionWords]

theorem overwriteText_words (fn : PyStr) : overwriteText fn = (overwriteWords fn).flatten := by
  simp [overwriteText, overwriteWords]

/-- **C79** A type of file that is not listed is refused by every class but `BorealisSiteWrite`, whatever files there are and
whatever the data is, with a `BorealisFileTypeError` that tells type and file; no file is changed.  `BorealisSiteWrite`:
`C79_site_violation`. -/
theorem C79_type_partial (fs : FSys) (p ft : PyStr) (hf : ft ∉ fileTypes) :
    let said : Said := ⟨.fileType, some (typeWords p ft).flatten⟩
    siteReadM fs p ft = .error said ∧ arrayReadM fs p ft = .error said ∧ (∀ st, borealisReadM fs p ft st = .error said) ∧
    (∀ h d comp, arrayWriteM h fs p d ft comp = (.error said, fs)) ∧
    (∀ h d c, borealisWriteM h fs p d ft none c = (.error said, fs)) ∧
    (∀ h d c, borealisWriteM h fs p d ft (some (py! "array")) c = (.error said, fs)) ∧
    ∀ cfg ops tkey out slice st factor, convertPrepareM cfg ops tkey fs p ft out slice st factor = .error said := by
  intro said
  have hp := parseFType_unlisted hf
  have hb : ∀ st, borealisReadM fs p ft st = .error said := by
    intro st
    unfold borealisReadM
    rw [hp]
    show Except.error _ = Except.error _
    rw [fileTypeText_words]
  have ha : ∀ h d comp, arrayWriteM h fs p d ft comp = (.error said, fs) := by
    intro h d comp
    unfold arrayWriteM arrayWriteCheckM
    rw [hp]
    show (Except.error _, fs) = _
    rw [fileTypeText_words]
  refine ⟨?_, ?_, hb, ha, fun h d c => ?_, fun h d c => ?_, fun cfg ops tkey out slice st factor => ?_⟩
  · unfold siteReadM
    rw [hp]
    show Except.error _ = Except.error _
    rw [fileTypeText_words]
  · unfold arrayReadM
    rw [hp]
    show Except.error _ = Except.error _
    rw [fileTypeText_words]
  · unfold borealisWriteM returnWriterM
    rw [ha]
    rfl
  · unfold borealisWriteM
    simp only
    rw [if_neg (by decide), if_pos trivial, ha]
    rfl
  · unfold convertPrepareM
    rw [hb]
    rfl

/-- **C79** A type that is not restructured is refused by `BorealisRestructure` in the same way. -/
theorem C79_restructure_type (h : H5Cfg) (tkey : Elt → Except Err PyStr) (fs : FSys) (inp out ft st : PyStr) (comp : Option PyStr)
    (hf : ft ∉ restructureTypes) :
    borealisRestructureM h tkey fs inp out ft st comp = (.error ⟨.fileType, some (typeWords inp ft).flatten⟩, fs) := by
  unfold borealisRestructureM
  rw [restructureType_none hf]
  show (Except.error _, fs) = _
  rw [fileTypeText_words]

/-- **C79**, violated: `BorealisSiteWrite` refuses a type that is not listed with an `AttributeError` that tells neither type nor
file, because the name of the file is not set yet; so does `BorealisWrite` for the structure `site`. -/
theorem C79_site_violation (h : H5Cfg) (fs : FSys) (p ft : PyStr) (d : Data) (hf : ft ∉ fileTypes) :
    let said : Said := ⟨.attributeError, some (py! "'BorealisSiteWrite' object has no attribute 'filename'")⟩
    (∀ comp, siteWriteM h fs p d ft comp = (.error said, fs)) ∧
    ∀ c, borealisWriteM h fs p d ft (some (py! "site")) c = (.error said, fs) := by
  intro said
  have hs : ∀ comp, siteWriteM h fs p d ft comp = (.error said, fs) := by
    intro comp
    unfold siteWriteM siteWriteCheckM
    rw [parseFType_unlisted hf]
    rfl
  refine ⟨hs, fun c => ?_⟩
  unfold borealisWriteM
  simp only
  rw [if_pos trivial, hs]
  rfl

example : py! "rawcf" ∉ fileTypes ∧ py! "rawrf" ∉ restructureTypes ∧
    (typeWords (py! "a.hdf5") (py! "rawcf")).flatten =
      py! "rawcf is not a Borealis file format or has not been implemented yet. a.hdf5 was not used. Please check the spelling of rawcf." := by
  decide +kernel

/-- **C79** A structure that is not listed is refused by the classes that take one, with a `BorealisStructureError` that tells
it; no file is changed.  `BorealisWrite` looks at the structure first, the others at the type. -/
theorem C79_structure (fs : FSys) (p st : PyStr) (hs : st ∉ structures) :
    let said : Said := ⟨.structure, some (structureWords (py! "Unknown structure type: " ++ st)).flatten⟩
    (∀ ft ∈ fileTypes, borealisReadM fs p ft (some st) = .error said) ∧
    (∀ h d ft c, borealisWriteM h fs p d ft (some st) c = (.error said, fs)) ∧
    (∀ h tkey out comp, ∀ ft ∈ restructureTypes, borealisRestructureM h tkey fs p out ft st comp = (.error said, fs)) ∧
    ∀ cfg ops tkey out slice factor, ∀ ft ∈ fileTypes,
      convertPrepareM cfg ops tkey fs p ft out slice (some st) factor = .error said := by
  intro said
  obtain ⟨h1, h2⟩ : ¬ st = py! "site" ∧ ¬ st = py! "array" := by
    simp only [structures, List.mem_cons, List.not_mem_nil, or_false, not_or] at hs
    exact hs
  have hsaid : (⟨.structure, some (unknownStructure st)⟩ : Said) = said := by rw [unknownStructure_words]
  have hb : ∀ ft ∈ fileTypes, borealisReadM fs p ft (some st) = .error said := by
    intro ft hf
    have : ∃ t, parseFType ft = some t := by
      simp only [fileTypes, List.mem_cons, List.not_mem_nil, or_false] at hf
      rcases hf with rfl | rfl | rfl | rfl <;> exact ⟨_, rfl⟩
    obtain ⟨t, ht⟩ := this
    unfold borealisReadM
    rw [ht]
    simp only
    rw [if_neg h1, if_neg h2, hsaid]
  refine ⟨hb, fun h d ft c => ?_, fun h tkey out comp ft hf => ?_, fun cfg ops tkey out slice factor ft hf => ?_⟩
  · unfold borealisWriteM
    simp only
    rw [if_neg h1, if_neg h2, hsaid]
  · have : ∃ t, restructureType ft = some t := by
      simp only [restructureTypes, List.mem_cons, List.not_mem_nil, or_false] at hf
      rcases hf with rfl | rfl | rfl <;> exact ⟨_, rfl⟩
    obtain ⟨t, ht⟩ := this
    have hr : restructureTo st = none := by
      unfold restructureTo
      rw [if_neg h1, if_neg h2]
    unfold borealisRestructureM
    rw [ht, hr, hsaid]
  · unfold convertPrepareM
    rw [hb ft hf]
    rfl

/-- **C79**, violated: the text about a structure does not tell the file. -/
theorem C79_structure_violation (fs : FSys) (p p' st : PyStr) (hs : st ∉ structures) :
    ∀ ft ∈ fileTypes, borealisReadM fs p ft (some st) = borealisReadM fs p' ft (some st) :=
  fun ft hf => ((C79_structure fs p st hs).1 ft hf).trans ((C79_structure fs p' st hs).1 ft hf).symm

example : py! "Site" ∉ structures ∧ py! "rawacf" ∈ fileTypes ∧ py! "rawacf" ∈ restructureTypes := by decide

/-- **C79** Equal names of input and output are refused by `BorealisRestructure` with a `ConvertFileOverWriteError` that tells the
name, whatever files there are; no file is changed. -/
theorem C79_overwrite (h : H5Cfg) (tkey : Elt → Except Err PyStr) (fs : FSys) (p ft st : PyStr) (comp : Option PyStr)
    (hf : ft ∈ restructureTypes) (hs : st ∈ structures) :
    borealisRestructureM h tkey fs p p ft st comp = (.error ⟨.overwrite, some (overwriteWords p).flatten⟩, fs) := by
  have : ∃ t, restructureType ft = some t := by
    simp only [restructureTypes, List.mem_cons, List.not_mem_nil, or_false] at hf
    rcases hf with rfl | rfl | rfl <;> exact ⟨_, rfl⟩
  obtain ⟨t, ht⟩ := this
  have : ∃ s, restructureTo st = some s := by
    simp only [structures, List.mem_cons, List.not_mem_nil, or_false] at hs
    rcases hs with rfl | rfl <;> exact ⟨_, rfl⟩
  obtain ⟨s, hs⟩ := this
  unfold borealisRestructureM
  rw [ht, hs]
  simp only
  rw [if_pos trivial, overwriteText_words]

example : py! "bfiq" ∈ restructureTypes ∧ py! "site" ∈ structures := by decide

/-! ## Versions -/

theorem versionPart_of (s : PyStr) : VersionPart s (versionOf s) := by
  rw [versionOf_eq]
  have hsplit : s = s.takeWhile (· ≠ '-') ++ s.dropWhile (· ≠ '-') := List.takeWhile_append_dropWhile.symm
  have hno : '-' ∉ s.takeWhile (· ≠ '-') := by
    intro hm
    have : ∀ c ∈ s.takeWhile (· ≠ '-'), (decide (c ≠ '-')) = true := fun c hc => by
      have := List.all_takeWhile (p := fun c => decide (c ≠ '-')) (l := s)
      exact List.all_eq_true.1 this c hc
    exact absurd (this _ hm) (by decide)
  have hrest : s.dropWhile (· ≠ '-') = [] ∨ ∃ t, s.dropWhile (· ≠ '-') = '-' :: t := by
    cases hd : s.dropWhile (· ≠ '-') with
    | nil => exact .inl rfl
    | cons c t =>
      have := dropWhile_head hd
      simp only [ne_eq, decide_not, Bool.not_eq_false', decide_eq_true_eq] at this
      exact .inr ⟨t, by rw [this]⟩
  generalize s.takeWhile (· ≠ '-') = a at hsplit hno
  generalize s.dropWhile (· ≠ '-') = b at hsplit hrest
  subst hsplit
  have hdots : ∀ x : PyStr, '.' ∉ x.takeWhile (· ≠ '.') := by
    intro x hm
    have := List.all_eq_true.1 (List.all_takeWhile (p := fun c => decide (c ≠ '.')) (l := x)) _ hm
    exact absurd this (by decide)
  cases hd : a.dropWhile (· ≠ '.') with
  | nil =>
    have ha : '.' ∉ a := fun hm => absurd (dropWhile_nil hd _ hm) (by decide)
    refine ⟨b, ?_, ?_, ?_, ?_⟩
    · unfold cut2; rw [hd]
    · unfold cut2; rw [hd]; exact hno
    · unfold cut2; rw [hd]; rw [List.count_eq_zero.2 ha]; exact Nat.zero_le _
    · rcases hrest with h | h
      · exact .inl h
      · exact .inr (.inl h)
  | cons c t =>
    have hc : c = '.' := by
      have := dropWhile_head hd
      simpa only [ne_eq, decide_not, Bool.not_eq_false', decide_eq_true_eq] using this
    subst hc
    have ha : a = a.takeWhile (· ≠ '.') ++ '.' :: t := by
      rw [← hd]; exact List.takeWhile_append_dropWhile.symm
    have ht : t = t.takeWhile (· ≠ '.') ++ t.dropWhile (· ≠ '.') := List.takeWhile_append_dropWhile.symm
    have hcut : cut2 a = a.takeWhile (· ≠ '.') ++ '.' :: t.takeWhile (· ≠ '.') := by unfold cut2; rw [hd]
    have hcount : (cut2 a).count '.' = 1 := by
      rw [hcut, List.count_append, List.count_cons, List.count_eq_zero.2 (hdots _), List.count_eq_zero.2 (hdots _)]
      rfl
    refine ⟨t.dropWhile (· ≠ '.') ++ b, ?_, ?_, by rw [hcount]; exact Nat.le_refl _, ?_⟩
    · rw [hcut]
      have : a ++ b = (a.takeWhile (· ≠ '.') ++ '.' :: (t.takeWhile (· ≠ '.') ++ t.dropWhile (· ≠ '.'))) ++ b := by
        rw [← ht, ← ha]
      rw [this]
      simp only [List.append_assoc, List.cons_append]
    · intro hm
      apply hno
      rw [ha, ht]
      rw [hcut] at hm
      simp only [List.mem_append, List.mem_cons] at hm ⊢
      rcases hm with hm | hm | hm
      · exact .inl hm
      · exact .inr (.inl hm)
      · exact .inr (.inr (.inl hm))
    · cases hd' : t.dropWhile (· ≠ '.') with
      | nil =>
        rcases hrest with h | h
        · exact .inl (by rw [h]; rfl)
        · exact .inr (.inl h)
      | cons c u =>
        have := dropWhile_head hd'
        simp only [ne_eq, decide_not, Bool.not_eq_false', decide_eq_true_eq] at this
        subst this
        exact .inr (.inr ⟨hcount, _, rfl⟩)

theorem selectVersionM_unlisted (p : PyStr) {s : PyStr} (h : Unlisted s) :
    ∃ v, VersionPart s v ∧ selectVersionM p s = .error ⟨.version v, some (versionWords p v).flatten⟩ := by
  refine ⟨versionOf s, versionPart_of s, ?_⟩
  have hs : selectVersion s = .error (.version (versionOf s)) := by
    cases hs : selectVersion s with
    | ok v => exact absurd (selectVersion_names.1 hs) (h v)
    | error e =>
      unfold selectVersion at hs
      split at hs
      · cases hs
      · cases hs; rfl
  unfold selectVersion at hs
  unfold selectVersionM
  cases hl : lookupVersion (versionOf s) with
  | some v => rw [hl] at hs; cases hs
  | none => simp only; rw [versionText_words]

theorem bindE {α β : Type} {x : Except Said α} {f : α → Except Said β} {e : Said} (h : x = .error e) : (x >>= f) = .error e := by
  rw [h]; rfl

/-- **C79** A version that is not listed is refused by readers and writers of both structures with a `BorealisVersionError` that
tells the version, up to the second dot or the first dash, and the file; no file is changed. -/
theorem C79_version (fs : FSys) (p : PyStr) (t : FType) {s : PyStr} (hu : Unlisted s) :
    ∃ v, VersionPart s v ∧
      let said : Said := ⟨.version v, some (versionWords p v).flatten⟩
      (∀ f, fs.at p = some (.h5 f) → VersionAttr f.root s → arrayReadM fs p t.name = .error said) ∧
      (∀ f n g, fs.at p = some (.h5 f) → f.groups.get? n = some g → (∀ m ∈ f.keys, ¬ m < n) → VersionAttr g s →
        siteReadM fs p t.name = .error said) ∧
      (∀ h comp r, Holds r (py! "borealis_git_hash") (.py .str (.str s)) →
        arrayWriteM h fs p (.arrays r) t.name comp = (.error said, fs)) ∧
      ∀ h comp rs n r, Dict.get? rs n = some r → (∀ m ∈ Dict.keys rs, ¬ m < n) →
        Holds r (py! "borealis_git_hash") (.py .str (.str s)) → siteWriteM h fs p (.records rs) t.name comp = (.error said, fs) := by
  obtain ⟨v, hv, hsel⟩ := selectVersionM_unlisted p hu
  refine ⟨v, hv, ?_⟩
  intro said
  have ht : parseFType t.name = some t := parseFType_iff.2 rfl
  refine ⟨fun f hf ha => ?_, fun f n g hf hg hm ha => ?_, fun h comp r hr => ?_, fun h comp rs n r hn hm hr => ?_⟩
  · unfold arrayReadM
    rw [ht]
    show (untoldE (fs.openR p) >>= _) = _
    have : asStructure [.keyError] (hashOf f.root.attrs) = .ok s := by rw [hashOf_of ha]; rfl
    rw [bindS (untoldE_ok (openR_iff.2 hf)), bindS (untoldE_ok this), bindE hsel]
  · have hh : siteHash f = .ok s := by
      unfold siteHash
      rw [asStructure_ok]
      obtain ⟨l, hl⟩ := sortStrs_first_of (mem_H5keys.2 (.inl (Dict.mem_keys_iff.2 ⟨g, hg⟩))) hm
      rw [hl]
      simp only [hg]
      exact hashOf_of ha
    unfold siteReadM
    rw [ht]
    show (untoldE (fs.openR p) >>= _) = _
    rw [bindS (untoldE_ok (openR_iff.2 hf)), bindS (untoldE_ok hh), bindE hsel]
  · have : arrayDataHash (.arrays r) = .ok s := by
      unfold arrayDataHash
      rw [asStructure_ok]
      simp only
      rw [field_iff.2 hr]
      rfl
    have : arrayWriteCheckM p (.arrays r) t.name = .error said := by
      unfold arrayWriteCheckM
      rw [ht]
      show (untoldE (arrayDataHash _) >>= _) = _
      rw [bindS (untoldE_ok this), bindE hsel]
    unfold arrayWriteM
    rw [this]
  · have : siteDataHash (.records rs) = .ok s := by
      unfold siteDataHash
      rw [asStructure_ok]
      obtain ⟨l, hl⟩ := sortStrs_first_of (Dict.mem_keys_iff.2 ⟨r, hn⟩) hm
      simp only [hl]
      rw [field_iff.2 hn]
      show (field r (py! "borealis_git_hash") >>= splitText) = _
      rw [field_iff.2 hr]
      rfl
    have : siteWriteCheckM p (.records rs) t.name = .error said := by
      unfold siteWriteCheckM
      rw [ht]
      show (untoldE (siteDataHash _) >>= _) = _
      rw [bindS (untoldE_ok this), bindE hsel]
    unfold siteWriteM
    rw [this]

example : Unlisted (py! "v0.70.1-3-gabc") ∧ VersionPart (py! "v0.70.1-3-gabc") (py! "v0.70") ∧ VersionPart (py! "v1-3") (py! "v1") := by
  refine ⟨?_, ⟨py! ".1-3-gabc", rfl, by decide, by decide, .inr (.inr ⟨by decide, _, rfl⟩)⟩,
    ⟨py! "-3", rfl, by decide, by decide, .inr (.inl ⟨_, rfl⟩)⟩⟩
  rintro v ⟨tail, h1, h2⟩
  cases v <;> (
    simp only [Version.name, List.cons_append, List.nil_append, List.cons.injEq, true_and] at h1
    first
    | exact absurd h1.1 (by decide)
    | (obtain ⟨_, rfl⟩ := h1
       rcases h2 with h | ⟨_, h | h⟩ <;> cases h))

/-- **C79**, violated: `BorealisRestructure` refuses a version that is not listed with a `KeyError` instead. -/
theorem C79_version_violation (h : H5Cfg) (tkey : Elt → Except Err PyStr) (fs : FSys) (inp out st st' s : PyStr) (ft : PyStr)
    (comp : Option PyStr) (f : H5) (ht : ft ∈ restructureTypes) (hne : inp ≠ out) (hst : st' ∈ structures)
    (hf : fs.at inp = some (.h5 f)) (hs : HasStructure f st s) (hv : Unlisted s) :
    dropTextW (borealisRestructureM h tkey fs inp out ft st' comp) = (.error .keyError, fs) := by
  rw [borealisRestructureM_drop]
  simp only [restructureTypes, List.mem_cons, List.not_mem_nil, or_false] at ht
  rcases ht with rfl | rfl | rfl
  · exact C36_restructure_unlisted h tkey fs inp out st st' s .antennasIq comp f (by decide) hne hst hf hs hv
  · exact C36_restructure_unlisted h tkey fs inp out st st' s .bfiq comp f (by decide) hne hst hf hs hv
  · exact C36_restructure_unlisted h tkey fs inp out st st' s .rawacf comp f (by decide) hne hst hf hs hv

example : HasStructure ⟨⟨[(py! "borealis_git_hash", .bytes (utf8Encode (py! "v0.70")))], []⟩, []⟩ (py! "array") (py! "v0.70") ∧
    py! "bfiq" ∈ restructureTypes ∧ py! "site" ∈ structures ∧ py! "a" ≠ py! "b" :=
  ⟨.array ⟨_, rfl, by decide +kernel⟩, by decide, by decide, by decide⟩

theorem field_none {α : Type} {r : Dict PyStr α} {k : PyStr} (h : k ∉ Dict.keys r) : field r k = .error .keyError := by
  cases hf : field r k with
  | ok v => exact absurd (Dict.mem_keys_iff.2 ⟨v, field_iff.1 hf⟩) h
  | error e =>
    unfold field at hf
    split at hf
    · cases hf
    · cases hf; rfl

/-- **C79** A file or data without a version is refused with a `BorealisStructureError` by the readers and by the writer of array
files; no file is changed.  The writer of site files: `C79_no_version_violation`. -/
theorem C79_no_version_partial (fs : FSys) (p : PyStr) (t : FType) :
    (∀ f, fs.at p = some (.h5 f) → py! "borealis_git_hash" ∉ f.root.attrs.keys → arrayRead fs p t.name = .error .structure) ∧
    (∀ f n g, fs.at p = some (.h5 f) → f.groups.get? n = some g → (∀ m ∈ f.keys, ¬ m < n) →
      py! "borealis_git_hash" ∉ g.attrs.keys → siteRead fs p t.name = .error .structure) ∧
    ∀ h comp r, py! "borealis_git_hash" ∉ Dict.keys r → arrayWrite h fs p (.arrays r) t.name comp = (.error .structure, fs) := by
  have ht : parseFType t.name = some t := parseFType_iff.2 rfl
  have hh : ∀ g : Dict PyStr Attr, py! "borealis_git_hash" ∉ Dict.keys g → hashOf g = .error .keyError := by
    intro g hg
    unfold hashOf
    rw [field_none hg]
    rfl
  refine ⟨fun f hf ha => ?_, fun f n g hf hg hm ha => ?_, fun h comp r hr => ?_⟩
  · unfold arrayRead
    rw [ht]
    simp only
    rw [openR_iff.2 hf]
    show (asStructure [.keyError] (hashOf f.root.attrs) >>= fun _ => _) = _
    rw [hh _ ha]
    rfl
  · have hs : siteHash f = .error .structure := by
      unfold siteHash
      obtain ⟨l, hl⟩ := sortStrs_first_of (mem_H5keys.2 (.inl (Dict.mem_keys_iff.2 ⟨g, hg⟩))) hm
      rw [hl]
      simp only [hg]
      rw [hh _ ha]
      rfl
    unfold siteRead
    rw [ht]
    simp only
    rw [openR_iff.2 hf]
    show (siteHash f >>= fun _ => _) = _
    rw [hs]
    rfl
  · have : arrayWriteCheck (.arrays r) t.name = .error .structure := by
      unfold arrayWriteCheck
      rw [ht]
      simp only
      have : arrayDataHash (.arrays r) = .error .structure := by
        unfold arrayDataHash
        simp only
        rw [field_none hr]
        rfl
      rw [this]
      rfl
    unfold arrayWrite
    rw [this]

/-- **C79**, violated: the writer of site files refuses records without a version with a `KeyError`, which it does not catch. -/
theorem C79_no_version_violation (h : H5Cfg) (fs : FSys) (p : PyStr) (t : FType) (comp : Option PyStr) (rs : Records) (n : PyStr)
    (r : Rec) (hn : rs.get? n = some r) (hm : ∀ m ∈ rs.keys, ¬ m < n) (hr : py! "borealis_git_hash" ∉ Dict.keys r) :
    siteWrite h fs p (.records rs) t.name comp = (.error .keyError, fs) := by
  have : siteWriteCheck (.records rs) t.name = .error .keyError := by
    unfold siteWriteCheck
    rw [parseFType_iff.2 rfl]
    simp only
    have : siteDataHash (.records rs) = .error .keyError := by
      unfold siteDataHash
      obtain ⟨l, hl⟩ := sortStrs_first_of (Dict.mem_keys_iff.2 ⟨r, hn⟩) hm
      simp only [hl]
      rw [field_iff.2 hn]
      show asStructure _ (field r (py! "borealis_git_hash") >>= splitText) = _
      rw [field_none hr]
      rfl
    rw [this]
    rfl
  unfold siteWrite
  rw [this]

/-- Records without a version. -/
example : Dict.get? ([(py! "1", [])] : Records) (py! "1") = some [] ∧ (∀ m ∈ Dict.keys ([(py! "1", [])] : Records), ¬ m < py! "1") ∧
    py! "borealis_git_hash" ∉ Dict.keys ([] : Rec) := by
  refine ⟨rfl, ?_, by decide⟩
  intro m hm
  simp only [Dict.keys, List.map_cons, List.map_nil, List.mem_cons, List.not_mem_nil, or_false] at hm
  subst hm
  decide

/-! ## Conversion -/

set_option maxRecDepth 8000 in
/-- **C79** What `BorealisConvert` says of a file that it can read: without a number of the slice, for a type that it does not
convert, and for equal names.  The number comes first, then the type. -/
theorem C79_convert (cfg : NpCfg) (ops : Ops) (tkey : Elt → Except Err PyStr) (fs : FSys) (inp ft out : PyStr) (slice : Option Int)
    (st : Option PyStr) (factor : Int) {rd : Handler} {n : PyStr} {r : Rec} {rs : Records}
    (hr : borealisRead fs inp ft st = .ok rd) (hrs : rd.records tkey = .ok ((n, r) :: rs)) :
    let run := convertPrepareM cfg ops tkey fs inp ft out slice st factor
    (py! "slice_id" ∉ r.keys → slice = none →
      run = .error ⟨.structure, some (structureWords noSlice).flatten⟩) ∧
    (py! "slice_id" ∈ r.keys ∨ slice ≠ none → ft ∉ convertTypes →
      run = .error ⟨.conversionTypes, some (conversionWords out ft).flatten⟩) ∧
    (py! "slice_id" ∈ r.keys ∨ slice ≠ none → ft ∈ convertTypes → inp = out →
      run = .error ⟨.overwrite, some (overwriteWords inp).flatten⟩) := by
  intro run
  have hsl : sliceIdOfM ((n, r) :: rs) slice = (match r.get? (py! "slice_id") with
      | some v => .ok v
      | none => match (generalizing := false) slice with
        | some i => .ok (.py .pyInt (.int i))
        | none => .error ⟨.structure, some noSliceText⟩) := rfl
  have hr' : borealisReadM fs inp ft st = .ok rd := ok_of_drop ((borealisReadM_drop ..).trans hr)
  have hrun : run = (sliceIdOfM ((n, r) :: rs) slice >>= fun sl =>
      match (parseFType ft).bind allowedConversion with
      | none => .error ⟨.conversionTypes, some (conversionTypesText out ft)⟩
      | some t =>
        if inp = out then .error ⟨.overwrite, some (overwriteText inp)⟩
        else do .ok (t, ← untoldE (convertToDmap cfg ops t sl inp factor ((n, r) :: rs)))) := by
    show convertPrepareM cfg ops tkey fs inp ft out slice st factor = _
    unfold convertPrepareM
    rw [bindS hr', bindS (untoldE_ok hrs)]
    rfl
  have hsome : py! "slice_id" ∈ r.keys ∨ slice ≠ none → ∃ sl, sliceIdOfM ((n, r) :: rs) slice = .ok sl := by
    intro hs
    rw [hsl]
    cases hg : r.get? (py! "slice_id") with
    | some v => exact ⟨v, rfl⟩
    | none =>
      cases slice with
      | some i => exact ⟨_, rfl⟩
      | none =>
        rcases hs with hs | hs
        · obtain ⟨v, hv⟩ := Dict.mem_keys_iff.1 hs
          rw [hg] at hv; cases hv
        · exact absurd rfl hs
  refine ⟨fun hk hn => ?_, fun hs hf => ?_, fun hs hf he => ?_⟩
  · have hg : r.get? (py! "slice_id") = none := by
      cases hg : r.get? (py! "slice_id") with
      | none => rfl
      | some v => exact absurd (Dict.mem_keys_iff.2 ⟨v, hg⟩) hk
    rw [hrun, hsl, hg, hn]
    rfl
  · obtain ⟨sl, hsl⟩ := hsome hs
    have : (parseFType ft).bind allowedConversion = none := by
      cases hp : parseFType ft with
      | none => rfl
      | some t =>
        rw [parseFType_iff.1 hp] at hf
        cases t <;> first | rfl | exact absurd (by decide) hf
    rw [hrun, bindS hsl, this, ← conversionTypesText_words]
  · obtain ⟨sl, hsl⟩ := hsome hs
    have : ∃ t, (parseFType ft).bind allowedConversion = some t := by
      simp only [convertTypes, List.mem_cons, List.not_mem_nil, or_false] at hf
      rcases hf with rfl | rfl <;> exact ⟨_, rfl⟩
    obtain ⟨t, ht⟩ := this
    rw [hrun, bindS hsl, ht]
    simp only
    rw [if_pos he, overwriteText_words]

/-- The exception. -/
def saidBy {α : Type} : Except Said α → Option Said
  | .ok _ => none
  | .error e => some e

/-- A file before v0.5, a file of a type that is not converted, and equal names. -/
example :
    saidBy (convertPrepareM numpy2 sampleOps sampleKey (oneFile (siteFile .v04 .rawacf (sampleFileRecords .v04 .rawacf)))
      (py! "in") (py! "rawacf") (py! "in") none none 1) = some ⟨.structure, some (structureWords noSlice).flatten⟩ ∧
    saidBy (convertPrepareM numpy2 sampleOps sampleKey (oneFile (siteFile .v05 .antennasIq (sampleFileRecords .v05 .antennasIq)))
      (py! "in") (py! "antennas_iq") (py! "out") none none 1) =
        some ⟨.conversionTypes, some (conversionWords (py! "out") (py! "antennas_iq")).flatten⟩ ∧
    saidBy (convertPrepareM numpy2 sampleOps sampleKey (oneFile convertibleFile) (py! "in") (py! "rawacf") (py! "in") none none 1) =
      some ⟨.overwrite, some (overwriteWords (py! "in")).flatten⟩ := by
  decide +kernel

/-! ## Reading the texts -/

theorem word_inj {a a' x x' : PyStr} (ha : ' ' ∉ a) (ha' : ' ' ∉ a') (h : a ++ ' ' :: x = a' ++ ' ' :: x') : a = a' ∧ x = x' := by
  induction a generalizing a' with
  | nil =>
    cases a' with
    | nil => exact ⟨rfl, (List.cons.inj h).2⟩
    | cons c a' => exact absurd (by rw [(List.cons.inj h).1]; exact List.mem_cons_self ..) ha'
  | cons c a ih =>
    cases a' with
    | nil => exact absurd (by rw [(List.cons.inj h).1]; exact List.mem_cons_self ..) ha
    | cons c' a' =>
      obtain ⟨h1, h2⟩ := List.cons.inj h
      obtain ⟨h3, h4⟩ := ih (fun hm => ha (List.mem_cons_of_mem _ hm)) (fun hm => ha' (List.mem_cons_of_mem _ hm)) h2
      exact ⟨by rw [h1, h3], h4⟩

/-- **C79** The argument, and the file where the text has it, can be read from the text: types, versions without spaces; any
structure, any name of a file. -/
theorem C79_telling :
    (∀ fn fn' ft ft' : PyStr, ' ' ∉ ft → ' ' ∉ ft' → (typeWords fn ft).flatten = (typeWords fn' ft').flatten →
      fn = fn' ∧ ft = ft') ∧
    (∀ fn fn' v v' : PyStr, ' ' ∉ v → ' ' ∉ v' → (versionWords fn v).flatten = (versionWords fn' v').flatten →
      fn = fn' ∧ v = v') ∧
    (∀ why why' : PyStr, (structureWords why).flatten = (structureWords why').flatten → why = why') ∧
    ∀ fn fn' : PyStr, (overwriteWords fn).flatten = (overwriteWords fn').flatten → fn = fn' := by
  refine ⟨fun fn fn' ft ft' h1 h2 h => ?_, fun fn fn' v v' h1 h2 h => ?_, fun why why' h => ?_, fun fn fn' h => ?_⟩
  · simp only [typeWords, List.flatten_cons, List.flatten_nil, List.append_nil] at h
    obtain ⟨rfl, hx⟩ := word_inj h1 h2 h
    exact ⟨List.append_cancel_right (List.append_cancel_left hx), rfl⟩
  · simp only [versionWords, List.flatten_cons, List.flatten_nil, List.append_nil] at h
    have h := List.append_cancel_left h
    obtain ⟨rfl, hx⟩ := word_inj h1 h2 h
    exact ⟨List.append_cancel_right (List.append_cancel_left hx), rfl⟩
  · simp only [structureWords, List.flatten_cons, List.flatten_nil, List.append_nil] at h
    exact List.append_cancel_left (List.append_cancel_left h)
  · simp only [overwriteWords, List.flatten_cons, List.flatten_nil, List.append_nil] at h
    exact List.append_cancel_right (List.append_cancel_left h)

example : ' ' ∉ py! "rawcf" ∧ ' ' ∉ py! "v0.70" := by decide

end Verif.Bor
