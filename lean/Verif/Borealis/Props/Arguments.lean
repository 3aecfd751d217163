import Verif.Borealis.Props.Dispatch
import Verif.Borealis.SampleRestructure
import Verif.Borealis.SampleConvert
/-!
# C47: the arguments of `BorealisRestructure` and `BorealisConvert`
-/
namespace Verif.Bor
open Verif

/-! ## Restructuring -/

theorem restructureType_iff {s : PyStr} {t : FType} : restructureType s = some t ↔ s = t.name ∧ t ≠ .rawrf := by
  constructor
  · intro h
    have h1 := List.find?_some h
    have h2 := List.mem_of_find?_eq_some h
    simp only [decide_eq_true_eq] at h1
    refine ⟨h1.symm, ?_⟩
    rintro rfl
    revert h2
    decide
  · rintro ⟨rfl, h⟩
    cases t <;> first | exact absurd rfl h | decide

theorem restructureType_none {s : PyStr} (h : s ∉ [py! "antennas_iq", py! "bfiq", py! "rawacf"]) :
    restructureType s = none := by
  cases hr : restructureType s with
  | none => rfl
  | some t =>
    exfalso
    obtain ⟨rfl, ht⟩ := restructureType_iff.1 hr
    revert h
    cases t <;> first | exact absurd rfl ht | decide

/-- **C47** `BorealisRestructure` raises before it reads or writes anything if the file type or the structure is
not one it knows, or if input and output have the same name. -/
theorem C47_restructure_arguments (h : H5Cfg) (tkey : Elt → Except Err PyStr) (fs : FSys) (inp out ft st : PyStr)
    (comp : Option PyStr) :
    (ft ∉ [py! "antennas_iq", py! "bfiq", py! "rawacf"] →
      borealisRestructure h tkey fs inp out ft st comp = (.error .fileType, fs)) ∧
    (ft ∈ [py! "antennas_iq", py! "bfiq", py! "rawacf"] → st ∉ [py! "site", py! "array"] →
      borealisRestructure h tkey fs inp out ft st comp = (.error .structure, fs)) ∧
    (ft ∈ [py! "antennas_iq", py! "bfiq", py! "rawacf"] → st ∈ [py! "site", py! "array"] → inp = out →
      borealisRestructure h tkey fs inp out ft st comp = (.error .overwrite, fs)) := by
  have hk : ft ∈ [py! "antennas_iq", py! "bfiq", py! "rawacf"] → ∃ t, restructureType ft = some t := by
    intro hm
    simp only [List.mem_cons, List.not_mem_nil, or_false] at hm
    rcases hm with rfl | rfl | rfl <;> exact ⟨_, rfl⟩
  refine ⟨fun hf => ?_, fun hf hs => ?_, fun hf hs he => ?_⟩
  · unfold borealisRestructure
    rw [restructureType_none hf]
  · obtain ⟨t, ht⟩ := hk hf
    have : restructureTo st = none := by
      simp only [List.mem_cons, List.not_mem_nil, or_false, not_or] at hs
      unfold restructureTo
      rw [if_neg hs.1, if_neg hs.2]
    unfold borealisRestructure
    rw [ht, this]
  · obtain ⟨t, ht⟩ := hk hf
    have : ∃ s, restructureTo st = some s := by
      simp only [List.mem_cons, List.not_mem_nil, or_false] at hs
      rcases hs with rfl | rfl <;> exact ⟨_, rfl⟩
    obtain ⟨s, hs⟩ := this
    unfold borealisRestructure
    rw [ht, hs]
    simp only
    rw [if_pos he]

/-- A wrong type, a wrong structure, and equal names. -/
example : (borealisRestructure sampleH5 sampleKey noFiles (py! "a") (py! "b") (py! "rawrf") (py! "site") none).1 =
      .error .fileType ∧
    (borealisRestructure sampleH5 sampleKey noFiles (py! "a") (py! "b") (py! "bfiq") (py! "other") none).1 =
      .error .structure ∧
    (borealisRestructure sampleH5 sampleKey noFiles (py! "a") (py! "a") (py! "bfiq") (py! "site") none).1 =
      .error .overwrite := by
  decide +kernel

/-- The version of a file for the restructuring. -/
theorem restructureVersion_names {s : PyStr} {v : Version} : restructureVersion s = .ok v ↔ NamesVersion s v := by
  rw [← selectVersion_names]
  unfold restructureVersion selectVersion
  cases lookupVersion (versionOf s) <;> simp

/-- The structure of a file, by where it has its version: an array file has it at the root, in a site file it is in
the first record by name. -/
inductive HasStructure (f : H5) : PyStr → PyStr → Prop
  | array {s : PyStr} : VersionAttr f.root s → HasStructure f (py! "array") s
  | site {s n : PyStr} {g : Group} : py! "borealis_git_hash" ∉ f.keys →
      py! "borealis_git_hash" ∉ f.root.attrs.keys → f.groups.get? n = some g → (∀ m ∈ f.keys, ¬ m < n) →
      VersionAttr g s → HasStructure f (py! "site") s

theorem mem_recordNames {f : H5} {k : PyStr} (hk : k ∉ defaultAttrs) :
    k ∈ recordNames f ↔ k ∈ f.keys ∨ k ∈ f.root.attrs.keys := by
  unfold recordNames
  rw [List.mem_append, (sortStrs_perm f.keys).mem_iff, List.mem_filter]
  simp [hk]

theorem examine_hash {fs : FSys} {p st s : PyStr} {f : H5} (hf : fs.at p = some (.h5 f))
    (hs : HasStructure f st s) :
    ∃ s', restructureTo st = some s' ∧
      examine fs p = (restructureVersion s >>= fun v => .ok (f, s', v) : Except Err (H5 × Struct × Version)) := by
  have hd : py! "borealis_git_hash" ∉ defaultAttrs := by decide
  cases hs with
  | array ha =>
    refine ⟨.array, rfl, ?_⟩
    have hm : structureOf (recordNames f) = .array := by
      unfold structureOf
      rw [if_pos]
      rw [mem_recordNames hd]
      right
      obtain ⟨b, hb, -⟩ := ha
      exact Dict.mem_keys_iff.2 ⟨_, hb⟩
    unfold examine
    rw [openR_iff.2 hf]
    show (fileHash f (structureOf (recordNames f)) >>= _) = _
    rw [hm]
    unfold fileHash
    rw [hashOf_of ha]
    rfl
  | site h1 h2 hg hn ha =>
    refine ⟨.site, rfl, ?_⟩
    have hm : structureOf (recordNames f) = .site := by
      unfold structureOf
      rw [if_neg]
      rw [mem_recordNames hd]
      exact fun c => c.elim h1 h2
    have hk : _ ∈ f.keys := mem_H5keys.2 (.inl (Dict.mem_keys_iff.2 ⟨_, hg⟩))
    obtain ⟨l, hl⟩ := sortStrs_first_of hk hn
    unfold examine
    rw [openR_iff.2 hf]
    show (fileHash f (structureOf (recordNames f)) >>= _) = _
    rw [hm]
    unfold fileHash
    rw [hl]
    simp only [hg]
    rw [hashOf_of ha]
    rfl

theorem examine_of {fs : FSys} {p st s : PyStr} {f : H5} {v : Version} (hf : fs.at p = some (.h5 f))
    (hs : HasStructure f st s) (hv : NamesVersion s v) :
    ∃ s', restructureTo st = some s' ∧ examine fs p = .ok (f, s', v) := by
  obtain ⟨s', h1, h2⟩ := examine_hash hf hs
  refine ⟨s', h1, ?_⟩
  rw [h2, restructureVersion_names.2 hv]
  rfl

/-- **C47** Restructuring a file to the structure it has succeeds and writes nothing. -/
theorem C47_same_structure (h : H5Cfg) (tkey : Elt → Except Err PyStr) (fs : FSys) (inp out st s : PyStr) (t : FType)
    (comp : Option PyStr) (f : H5) (v : Version) (ht : t ≠ .rawrf) (hne : inp ≠ out)
    (hf : fs.at inp = some (.h5 f)) (hs : HasStructure f st s) (hv : NamesVersion s v) :
    borealisRestructure h tkey fs inp out t.name st comp = (.ok (), fs) := by
  obtain ⟨s', h1, h2⟩ := examine_of hf hs hv
  unfold borealisRestructure
  rw [restructureType_iff.2 ⟨rfl, ht⟩, h1]
  simp only
  rw [if_neg hne, h2]
  simp only
  unfold restructure
  rw [if_pos rfl]

/-- A site file and an array file. -/
example (v : Version) : HasStructure (siteFile v .rawacf (typedRecords v .rawacf .none 1 2)) (py! "site")
      (v.name ++ py! ".1-2-gabc") ∧
    HasStructure (stackedFile v .rawacf (typedRecords v .rawacf .none 1 2)) (py! "array") (v.name ++ py! ".1-2-gabc") ∧
    NamesVersion (v.name ++ py! ".1-2-gabc") v := by
  refine ⟨.site (n := List.replicate 5 '0')
    (g := ((siteFile v .rawacf (typedRecords v .rawacf .none 1 2)).groups.get? (List.replicate 5 '0')).getD ⟨[], []⟩)
    (by cases v <;> decide +kernel) (by cases v <;> decide +kernel) (by cases v <;> decide +kernel)
    (by cases v <;> decide +kernel)
    ⟨utf8Encode (v.name ++ py! ".1-2-gabc"), by cases v <;> decide +kernel, by cases v <;> decide +kernel⟩,
    .array ⟨utf8Encode (v.name ++ py! ".1-2-gabc"), by cases v <;> decide +kernel, by cases v <;> decide +kernel⟩,
    ⟨_, rfl, .inr ⟨_, .inl rfl⟩⟩⟩

/-- **C36** `BorealisRestructure` rejects a file of a version that is not listed and writes nothing; the exception is
a `KeyError`. -/
theorem C36_restructure_unlisted (h : H5Cfg) (tkey : Elt → Except Err PyStr) (fs : FSys) (inp out st st' s : PyStr)
    (t : FType) (comp : Option PyStr) (f : H5) (ht : t ≠ .rawrf) (hne : inp ≠ out)
    (hst : st' ∈ [py! "site", py! "array"]) (hf : fs.at inp = some (.h5 f)) (hs : HasStructure f st s)
    (hv : Unlisted s) : borealisRestructure h tkey fs inp out t.name st' comp = (.error .keyError, fs) := by
  have : ∃ s', restructureTo st' = some s' := by
    simp only [List.mem_cons, List.not_mem_nil, or_false] at hst
    rcases hst with rfl | rfl <;> exact ⟨_, rfl⟩
  obtain ⟨s', hs'⟩ := this
  obtain ⟨s'', -, he⟩ := examine_hash hf hs
  have : restructureVersion s = .error .keyError := by
    cases hr : restructureVersion s with
    | ok v => exact absurd (restructureVersion_names.1 hr) (hv v)
    | error e =>
      unfold restructureVersion at hr
      split at hr
      · cases hr
      · cases hr; rfl
  rw [this] at he
  replace he : examine fs inp = .error .keyError := he
  unfold borealisRestructure
  rw [restructureType_iff.2 ⟨rfl, ht⟩, hs']
  simp only
  rw [if_neg hne, he]

/-- A file of a version that is not listed. -/
example : HasStructure ⟨⟨[(py! "borealis_git_hash", .bytes (utf8Encode (py! "v0.70")))], []⟩, []⟩ (py! "array")
    (py! "v0.70") := .array ⟨_, rfl, by decide +kernel⟩

theorem writeRows_only (h : H5Cfg) (tkey : Elt → Except Err PyStr) (fmt : Format) (root : Group) (ts : NdArr)
    (same : Bool) (out : PyStr) (comp : Option PyStr) (is : List Nat) (fs : FSys) :
    OnlyFile fs (writeRows h tkey fmt root ts same out comp is fs).2 out := by
  induction is generalizing fs with
  | nil => exact onlyFile_refl ..
  | cons i is ih =>
    unfold writeRows
    split
    · exact onlyFile_refl ..
    · rename_i p _
      split
      · exact onlyFile_refl ..
      · have hw := writing_only fs out fun o => writeRecords h comp fmt o [p]
        split
        · rename_i e fs' he
          rw [he] at hw
          exact hw
        · rename_i fs' he
          rw [he] at hw
          exact hw.trans (ih fs')

/-- **C47** Restructuring changes no file but the output file: the input file stays as it is unless both names are
names of the same file. -/
theorem C47_restructure_input (h : H5Cfg) (tkey : Elt → Except Err PyStr) (fs : FSys) (inp out ft st : PyStr)
    (comp : Option PyStr) : OnlyFile fs (borealisRestructure h tkey fs inp out ft st comp).2 out ∧
      (fs.node inp ≠ fs.node out → (borealisRestructure h tkey fs inp out ft st comp).2.at inp = fs.at inp) := by
  have key : OnlyFile fs (borealisRestructure h tkey fs inp out ft st comp).2 out := by
    unfold borealisRestructure
    split
    · exact onlyFile_refl ..
    split
    · exact onlyFile_refl ..
    split
    · exact onlyFile_refl ..
    split
    · exact onlyFile_refl ..
    unfold restructure
    split
    · exact onlyFile_refl ..
    split
    · split
      · unfold arrayFileToSite
        split
        · exact onlyFile_refl ..
        · split
          · rename_i he
            have := congrArg Prod.snd he
            exact this ▸ writeRows_only ..
          · rename_i he
            have := congrArg Prod.snd he
            exact this ▸ writeRows_only ..
      · unfold siteFileToArray
        simp only
        split
        · exact onlyFile_refl ..
        · exact writing_only ..
    · exact onlyFile_refl ..
  exact ⟨key, fun hn => key.2 inp hn⟩

/-- Restructuring a sample writes the other file and keeps the input. -/
example :
    let fs := oneFile (siteFile .v04 .rawacf (typedRecords .v04 .rawacf .none 2 1))
    outcome (borealisRestructure sampleH5 sampleKey fs (py! "in") (py! "out") (py! "rawacf") (py! "array") none).1 =
      none ∧
    ((borealisRestructure sampleH5 sampleKey fs (py! "in") (py! "out") (py! "rawacf") (py! "array") none).2.at
      (py! "out")).isSome = true ∧ fs.node (py! "in") ≠ fs.node (py! "out") := by
  decide +kernel

/-- **C47** violated: a second name of the input file is not recognised.  A site file restructured to `./in` is the
input file with the arrays in it. -/
theorem C47_alias_violation : ∃ fs : FSys, ∃ inp out : PyStr, ∃ f : H5, inp ≠ out ∧ fs.node inp = fs.node out ∧
    fs.at inp = some (.h5 f) ∧
    (borealisRestructure sampleH5 sampleKey fs inp out (py! "rawacf") (py! "array") none).1 = .ok () ∧
    (borealisRestructure sampleH5 sampleKey fs inp out (py! "rawacf") (py! "array") none).2.at inp ≠ fs.at inp := by
  refine ⟨aliasFile (siteFile .v04 .rawacf (typedRecords .v04 .rawacf .none 2 1)), py! "in", py! "./in", _,
    by decide, by decide, rfl, by decide +kernel, by decide +kernel⟩

/-! ## Converting -/

theorem convertPrepare_ok {cfg : NpCfg} {ops : Ops} {tkey : Elt → Except Err PyStr} {fs : FSys} {inp ft out : PyStr}
    {slice : Option Int} {st : Option PyStr} {factor : Int} {x : Target × List Verif.Rec}
    (h : convertPrepare cfg ops tkey fs inp ft out slice st factor = .ok x) :
    inp ≠ out ∧ ft ∈ [py! "rawacf", py! "bfiq"] := by
  unfold convertPrepare at h
  obtain ⟨rd, -, h⟩ := bind_ok h
  obtain ⟨rs, -, h⟩ := bind_ok h
  obtain ⟨sl, -, h⟩ := bind_ok h
  split at h
  · cases h
  · rename_i t ht
    split at h
    · cases h
    · rename_i hne
      refine ⟨hne, ?_⟩
      cases hp : parseFType ft with
      | none => rw [hp] at ht; cases ht
      | some t' =>
        rw [parseFType_iff.1 hp]
        rw [hp] at ht
        cases t' <;> first | decide | (cases ht)

/-- **C47** `BorealisConvert` raises and leaves every file as it is if the file type is not one that it converts or
if input and output have the same name. -/
theorem C47_convert_arguments (cfg : NpCfg) (ops : Ops) (tkey : Elt → Except Err PyStr) (fs : FSys)
    (inp ft out : PyStr) (slice : Option Int) (st : Option PyStr) (factor : Int)
    (h : ft ∉ [py! "rawacf", py! "bfiq"] ∨ inp = out) :
    ∃ e, borealisConvert cfg ops tkey fs inp ft out slice st factor = (.error (.bor e), fs) := by
  unfold borealisConvert
  cases hp : convertPrepare cfg ops tkey fs inp ft out slice st factor with
  | error e => exact ⟨e, rfl⟩
  | ok x =>
    obtain ⟨h1, h2⟩ := convertPrepare_ok hp
    rcases h with h | h
    · exact absurd h2 h
    · exact absurd h h1

/-- **C47** Of a file that can be read and has a slice number, the exception names the reason: the conversion is not
supported, or the names are equal. -/
theorem C47_convert_reasons (cfg : NpCfg) (ops : Ops) (tkey : Elt → Except Err PyStr) (fs : FSys)
    (inp ft out : PyStr) (slice : Option Int) (st : Option PyStr) (factor : Int) {rd : Handler} {n : PyStr} {r : Rec}
    {rs : Records} (hr : borealisRead fs inp ft st = .ok rd) (hrs : rd.records tkey = .ok ((n, r) :: rs))
    (hs : py! "slice_id" ∈ r.keys ∨ slice.isSome = true) :
    (ft ∉ [py! "rawacf", py! "bfiq"] →
      borealisConvert cfg ops tkey fs inp ft out slice st factor = (.error (.bor .conversionTypes), fs)) ∧
    (ft ∈ [py! "rawacf", py! "bfiq"] → inp = out →
      borealisConvert cfg ops tkey fs inp ft out slice st factor = (.error (.bor .overwrite), fs)) := by
  have hsl : ∃ sl, sliceIdOf ((n, r) :: rs) slice = .ok sl := by
    unfold sliceIdOf
    show ∃ sl, (match r.get? (py! "slice_id") with
      | some v => (.ok v : Except Err Val)
      | none => match slice with
        | some i => .ok (.py .pyInt (.int i))
        | none => .error .structure) = .ok sl
    cases hg : r.get? (py! "slice_id") with
    | some v => exact ⟨v, rfl⟩
    | none =>
      cases slice with
      | some i => exact ⟨_, rfl⟩
      | none =>
        rcases hs with hs | hs
        · obtain ⟨v, hv⟩ := Dict.mem_keys_iff.1 hs
          rw [hg] at hv; cases hv
        · cases hs
  obtain ⟨sl, hsl⟩ := hsl
  have hp : convertPrepare cfg ops tkey fs inp ft out slice st factor =
      (match (parseFType ft).bind allowedConversion with
      | none => .error .conversionTypes
      | some t =>
        if inp = out then .error .overwrite
        else do .ok (t, ← convertToDmap cfg ops t sl inp factor ((n, r) :: rs))) := by
    unfold convertPrepare
    rw [hr]
    show (rd.records tkey >>= _) = _
    rw [hrs]
    show (sliceIdOf _ slice >>= _) = _
    rw [hsl]
    rfl
  constructor
  · intro hf
    have : (parseFType ft).bind allowedConversion = none := by
      cases hp : parseFType ft with
      | none => rfl
      | some t =>
        rw [parseFType_iff.1 hp] at hf
        cases t <;> first | rfl | exact absurd (by decide) hf
    unfold borealisConvert
    rw [hp, this]
  · intro hf he
    have : ∃ t, (parseFType ft).bind allowedConversion = some t := by
      simp only [List.mem_cons, List.not_mem_nil, or_false] at hf
      rcases hf with rfl | rfl <;> exact ⟨_, rfl⟩
    obtain ⟨t, ht⟩ := this
    unfold borealisConvert
    rw [hp, ht]
    simp only
    rw [if_pos he]

/-- **C47** Converting changes no file but the output file, and that only if it succeeds. -/
theorem C47_convert_input (cfg : NpCfg) (ops : Ops) (tkey : Elt → Except Err PyStr) (fs : FSys)
    (inp ft out : PyStr) (slice : Option Int) (st : Option PyStr) (factor : Int) :
    OnlyFile fs (borealisConvert cfg ops tkey fs inp ft out slice st factor).2 out ∧
    ((borealisConvert cfg ops tkey fs inp ft out slice st factor).1 ≠ .ok () →
      (borealisConvert cfg ops tkey fs inp ft out slice st factor).2 = fs) := by
  unfold borealisConvert
  split
  · exact ⟨onlyFile_refl .., fun _ => rfl⟩
  split
  · exact ⟨onlyFile_refl .., fun _ => rfl⟩
  · exact ⟨onlyFile_refl .., fun _ => rfl⟩
  · exact ⟨onlyFile_put .., fun h => absurd rfl h⟩

/-- A site file with a rawacf record that can be converted. -/
def convertibleFile : H5 :=
  siteFile .v05 .rawacf [(py! "1577836800000", Dict.set (sampleRawacf .v05 (py! ".1")) (py! "correlation_descriptors")
    (.arr ⟨.npStr, [3], [.str (py! "num_beams"), .str (py! "num_ranges"), .str (py! "num_lags")]⟩))]

/-- It can be read; then equal names are refused, and with another name it is converted. -/
example :
    (borealisConvert numpy2 sampleOps sampleKey (oneFile convertibleFile) (py! "in") (py! "rawacf") (py! "in") none
      none 1).1 = .error (.bor .overwrite) ∧
    (borealisConvert numpy2 sampleOps sampleKey (oneFile convertibleFile) (py! "in") (py! "rawacf") (py! "out") none
      none 1).1 = .ok () := by
  decide +kernel

/-- **C47** violated: converting to a second name of the input file replaces it. -/
theorem C47_convert_alias_violation : ∃ fs : FSys, ∃ inp out : PyStr, ∃ f : H5, inp ≠ out ∧
    fs.node inp = fs.node out ∧ fs.at inp = some (.h5 f) ∧
    (borealisConvert numpy2 sampleOps sampleKey fs inp (py! "rawacf") out none none 1).1 = .ok () ∧
    (borealisConvert numpy2 sampleOps sampleKey fs inp (py! "rawacf") out none none 1).2.at inp ≠ fs.at inp := by
  refine ⟨aliasFile convertibleFile, py! "in", py! "./in", _, by decide, by decide, rfl, by decide +kernel,
    by decide +kernel⟩

end Verif.Bor
