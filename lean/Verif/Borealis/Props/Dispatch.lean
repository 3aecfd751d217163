import Verif.Borealis.Props.FileAppend
import Verif.Borealis.Props.FileTypes
/-!
# C48, C36: detection of the structure and of the version
-/
namespace Verif.Bor
open Verif

/-- Errors after which the other structure is tried. -/
def OtherStructure (e : Err) : Prop := e = .structure ∨ (∃ x, e = .fieldMissing x) ∨ ∃ x, e = .extraField x

theorem fallsBack_iff {e : Err} : fallsBack e = true ↔ OtherStructure e := by
  unfold OtherStructure
  cases e <;> simp [fallsBack]

/-! ## Readers -/

theorem siteRead_ok {fs : FSys} {p : PyStr} {t : FType} {rd : Reader Records} (h : siteRead fs p t.name = .ok rd) :
    ∃ f s, fs.openR p = .ok f ∧ t = rd.ftype ∧ siteHash f = .ok s ∧ selectVersion s = .ok rd.version ∧
      checkRecords (formatOf rd.version rd.ftype).siteSingleTypes (formatOf rd.version rd.ftype).siteArrayTypes
        rd.content = .ok () ∧ rd.names = sortStrs f.keys ∧ rd.ftype ≠ .rawrf := by
  have hne : t ≠ .rawrf := by
    rintro rfl
    exact (C59_rawrf_read_violation fs p none).1 _ h
  unfold siteRead at h
  rw [parseFType_iff.2 rfl] at h
  obtain ⟨f, hf, h⟩ := bind_ok h
  obtain ⟨s, hs, h⟩ := bind_ok h
  obtain ⟨v, hv, h⟩ := bind_ok h
  obtain ⟨_, ht, h⟩ := bind_ok h
  obtain ⟨rs0, hrs0, h⟩ := bind_ok h
  obtain ⟨rs, hrs, h⟩ := bind_ok h
  obtain ⟨_, hc, h⟩ := bind_ok h
  cases h
  exact ⟨f, s, hf, rfl, hs, hv, hc, rfl, hne⟩

theorem arrayRead_ok {fs : FSys} {p : PyStr} {t : FType} {rd : Reader Rec} (h : arrayRead fs p t.name = .ok rd) :
    ∃ f s r0, fs.openR p = .ok f ∧ t = rd.ftype ∧ hashOf f.root.attrs = .ok s ∧ selectVersion s = .ok rd.version ∧
      readArrays f = .ok r0 ∧
      checkArrays (formatOf rd.version rd.ftype).arraySingleTypes (formatOf rd.version rd.ftype).arrayArrayTypes
        (formatOf rd.version rd.ftype).unshared rd.content = .ok () ∧ rd.ftype ≠ .rawrf := by
  have hne : t ≠ .rawrf := by
    rintro rfl
    exact (C59_rawrf_read_violation fs p none).2.1 _ h
  unfold arrayRead at h
  rw [parseFType_iff.2 rfl] at h
  obtain ⟨f, hf, h⟩ := bind_ok h
  obtain ⟨s, hs, h⟩ := bind_ok h
  obtain ⟨v, hv, h⟩ := bind_ok h
  obtain ⟨_, ht, h⟩ := bind_ok h
  obtain ⟨r0, hr0, h⟩ := bind_ok h
  obtain ⟨r, hr, h⟩ := bind_ok h
  obtain ⟨_, hc, h⟩ := bind_ok h
  cases h
  exact ⟨f, s, r0, hf, rfl, asStructure_ok.1 hs, hv, hr0, hc, hne⟩

/-- The file type is one of the four. -/
theorem read_named {fs : FSys} {p ft : PyStr} :
    (∀ rd, siteRead fs p ft = .ok rd → ∃ t : FType, ft = t.name) ∧
    ∀ rd, arrayRead fs p ft = .ok rd → ∃ t : FType, ft = t.name := by
  constructor
  · intro rd h
    unfold siteRead at h
    cases hp : parseFType ft with
    | none => rw [hp] at h; cases h
    | some t => exact ⟨t, parseFType_iff.1 hp⟩
  · intro rd h
    unfold arrayRead at h
    cases hp : parseFType ft with
    | none => rw [hp] at h; cases h
    | some t => exact ⟨t, parseFType_iff.1 hp⟩

theorem openR_iff {fs : FSys} {p : PyStr} {f : H5} : fs.openR p = .ok f ↔ fs.at p = some (.h5 f) := by
  unfold FSys.openR
  split
  · rename_i h; rw [h]; simp
  · rename_i h
    constructor
    · intro c; cases c
    · intro c; exact absurd c (h f)

/-- A site file has a group. -/
theorem siteHash_groups {f : H5} {s : PyStr} (h : siteHash f = .ok s) : f.groups ≠ [] := by
  unfold siteHash at h
  rw [asStructure_ok] at h
  split at h
  · cases h
  · split at h
    · cases h
    · rename_i g hg
      intro c
      rw [c] at hg
      cases hg

theorem readArrays_groups {f : H5} {r : Rec} (h : readArrays f = .ok r) : f.groups = [] := by
  unfold readArrays at h
  split at h
  · assumption
  · cases h

/-- **C48** No file is read in both structures. -/
theorem C48_exclusive (fs : FSys) (p ft : PyStr) (a : Reader Rec) (s : Reader Records)
    (ha : arrayRead fs p ft = .ok a) : siteRead fs p ft ≠ .ok s := by
  intro hs
  obtain ⟨t, rfl⟩ := read_named.2 a ha
  obtain ⟨f, _, h1, _, h2, _⟩ := siteRead_ok hs
  obtain ⟨f', _, _, h3, _, _, _, h4, _⟩ := arrayRead_ok ha
  rw [h1] at h3
  cases h3
  exact siteHash_groups h2 (readArrays_groups h4)

/-- **C48** The outcome of the detection: the array reader if it accepts; the site reader if the array
reader says that the structure is another or fields are missing or unknown; the error otherwise. -/
theorem C48_reader (fs : FSys) (p ft : PyStr) :
    (∀ a, arrayRead fs p ft = .ok a → returnReader fs p ft = .ok (.array a)) ∧
    (∀ e, arrayRead fs p ft = .error e → OtherStructure e →
      (∀ s, siteRead fs p ft = .ok s → returnReader fs p ft = .ok (.site s)) ∧
      ∀ e', siteRead fs p ft = .error e' → returnReader fs p ft = .error e') ∧
    (∀ e, arrayRead fs p ft = .error e → ¬ OtherStructure e → returnReader fs p ft = .error e) := by
  refine ⟨fun a ha => ?_, fun e he ho => ⟨fun s hs => ?_, fun e' hs => ?_⟩, fun e he ho => ?_⟩
  · unfold returnReader; rw [ha]
  · unfold returnReader; rw [he]; simp only; rw [if_pos (fallsBack_iff.2 ho), hs]
  · unfold returnReader; rw [he]; simp only; rw [if_pos (fallsBack_iff.2 ho), hs]
  · unfold returnReader; rw [he]; simp only; rw [if_neg fun c => ho (fallsBack_iff.1 c)]

/-- The file has no version at the root. -/
def NoRootVersion (fs : FSys) (p : PyStr) : Prop :=
  ∀ f, fs.at p = some (.h5 f) → py! "borealis_git_hash" ∉ f.root.attrs.keys

theorem arrayRead_noVersion {fs : FSys} {p : PyStr} {t : FType} {f : H5} (hf : fs.at p = some (.h5 f))
    (h : py! "borealis_git_hash" ∉ f.root.attrs.keys) : arrayRead fs p t.name = .error .structure := by
  unfold arrayRead
  rw [parseFType_iff.2 rfl]
  simp only
  rw [openR_iff.2 hf]
  show (asStructure [.keyError] (hashOf f.root.attrs) >>= fun _ => _) = _
  have : hashOf f.root.attrs = .error .keyError := by
    unfold hashOf
    have : field f.root.attrs (py! "borealis_git_hash") = .error .keyError := by
      unfold field
      rw [Dict.get?_eq_none_iff.2 h]
    rw [this]
    rfl
  rw [this]
  rfl

/-- **C48** A file without a version at the root, which is what the writer of site files leaves, and a file
without records are accepted exactly if one of the readers accepts them, and by that reader.  Missing: a
site file with a version at the root (`C48_root_version_violation`). -/
theorem C48_accepts_partial (fs : FSys) (p ft : PyStr)
    (hroot : NoRootVersion fs p ∨ ∃ f, fs.at p = some (.h5 f) ∧ f.groups = []) (x : Handler) :
    returnReader fs p ft = .ok x ↔
      (∃ a, x = .array a ∧ arrayRead fs p ft = .ok a) ∨ ∃ s, x = .site s ∧ siteRead fs p ft = .ok s := by
  obtain ⟨h1, h2, h3⟩ := C48_reader fs p ft
  constructor
  · intro hx
    cases ha : arrayRead fs p ft with
    | ok a =>
      rw [h1 a ha] at hx
      cases hx
      exact .inl ⟨a, rfl, rfl⟩
    | error e =>
      by_cases ho : OtherStructure e
      · cases hs : siteRead fs p ft with
        | ok s =>
          rw [(h2 e ha ho).1 s hs] at hx
          cases hx
          exact .inr ⟨s, rfl, rfl⟩
        | error e' =>
          rw [(h2 e ha ho).2 e' hs] at hx
          cases hx
      · rw [h3 e ha ho] at hx
        cases hx
  · rintro (⟨a, rfl, ha⟩ | ⟨s, rfl, hs⟩)
    · exact h1 a ha
    · obtain ⟨t, rfl⟩ := read_named.1 s hs
      obtain ⟨f, _, hf, _, hg, _⟩ := siteRead_ok hs
      have hf := openR_iff.1 hf
      rcases hroot with hr | ⟨f', hf', hg'⟩
      · have := arrayRead_noVersion (t := t) hf (hr f hf)
        exact (h2 _ this (.inl rfl)).1 s hs
      · rw [hf] at hf'
        cases hf'
        exact absurd hg' (siteHash_groups hg)

/-- **C48** violated: a file that the site reader accepts is not accepted without naming the structure if
it has a version at the root. -/
theorem C48_root_version_violation (fs : FSys) (p ft : PyStr) (s : Reader Records) (f : H5)
    (hs : siteRead fs p ft = .ok s) (hf : fs.at p = some (.h5 f))
    (hr : py! "borealis_git_hash" ∈ f.root.attrs.keys) : ∃ e, returnReader fs p ft = .error e := by
  obtain ⟨t, rfl⟩ := read_named.1 s hs
  obtain ⟨f', _, hf', _, hg, _, _, _, hne⟩ := siteRead_ok hs
  have hf'' := openR_iff.2 hf
  rw [hf'] at hf''
  cases hf''
  obtain ⟨a, ha⟩ := Dict.mem_keys_iff.1 hr
  have key : ∃ e, arrayRead fs p t.name = .error e ∧ ¬ OtherStructure e := by
    unfold arrayRead
    rw [parseFType_iff.2 rfl]
    simp only
    rw [hf']
    have hh : hashOf f.root.attrs = ((Except.ok a : Except Err Attr) >>= fun
        | .bytes b => decodeUtf8 b
        | _ => .error .attributeError) := by
      unfold hashOf
      rw [field_iff.2 ha]
      cases a <;> rfl
    have stop : ∀ e : Err, (e ≠ .keyError ∧ ¬ OtherStructure e) → hashOf f.root.attrs = .error e →
        ∃ e, (do
          let f ← (Except.ok f : Except Err H5)
          let v ← selectVersion (← asStructure [.keyError] (hashOf f.root.attrs))
          tables (formatOf v t)
          let r ← ppoArrayFix (← readArrays f)
          checkArrays (formatOf v t).arraySingleTypes (formatOf v t).arrayArrayTypes (formatOf v t).unshared r
          .ok (⟨t, v, [], r⟩ : Reader Rec)) = .error e ∧ ¬ OtherStructure e := by
      intro e he h1
      refine ⟨e, ?_, he.2⟩
      show (asStructure [.keyError] (hashOf f.root.attrs) >>= fun _ => _) = _
      rw [h1]
      unfold asStructure
      simp only [List.mem_singleton, he.1, if_false]
      rfl
    have att : ¬ OtherStructure .attributeError := by rintro (h | ⟨_, h⟩ | ⟨_, h⟩) <;> cases h
    have val : ¬ OtherStructure .valueError := by rintro (h | ⟨_, h⟩ | ⟨_, h⟩) <;> cases h
    cases a with
    | empty _ => exact stop .attributeError ⟨nofun, att⟩ hh
    | value _ => exact stop .attributeError ⟨nofun, att⟩ hh
    | bytes b =>
      have h0 : hashOf f.root.attrs = decodeUtf8 b := hh
      cases hd : utf8Decode b with
      | none =>
        refine stop .valueError ⟨nofun, val⟩ ?_
        rw [h0]
        unfold decodeUtf8
        rw [hd]
      | some x =>
        have h1 : hashOf f.root.attrs = .ok x := by
          rw [h0]
          unfold decodeUtf8
          rw [hd]
        show ∃ e, (asStructure [.keyError] (hashOf f.root.attrs) >>= fun _ => _) = _ ∧ _
        rw [h1]
        show ∃ e, (selectVersion x >>= fun _ => _) = _ ∧ _
        unfold selectVersion
        cases lookupVersion (versionOf x) with
        | none => exact ⟨_, rfl, by rintro (h | ⟨_, h⟩ | ⟨_, h⟩) <;> cases h⟩
        | some v =>
          show ∃ e, (tables (formatOf v t) >>= fun _ => _) = _ ∧ _
          rw [tables_ok (by
            rintro rfl
            exact (C59_rawrf_read_violation fs p none).1 _ hs)]
          show ∃ e, (readArrays f >>= fun _ => _) = _ ∧ _
          have : readArrays f = .error .typeError := by
            unfold readArrays
            split
            · rename_i hgr; exact absurd hgr (siteHash_groups hg)
            · rfl
          rw [this]
          exact ⟨_, rfl, by rintro (h | ⟨_, h⟩ | ⟨_, h⟩) <;> cases h⟩
  obtain ⟨e, h1, h2⟩ := key
  exact ⟨e, (C48_reader fs p t.name).2.2 e h1 h2⟩

/-- **C48** violated: of a file without records that has a version but lacks fields or has unknown ones, the
error does not tell the fields but that the structure is wrong. -/
theorem C48_report_violation (fs : FSys) (p : PyStr) (t : FType) (f : H5) (hf : fs.at p = some (.h5 f))
    (hg : f.groups = []) (e : Err) (he : arrayRead fs p t.name = .error e) (ho : OtherStructure e) :
    returnReader fs p t.name = .error .structure := by
  refine ((C48_reader fs p t.name).2.1 e he ho).2 _ ?_
  unfold siteRead
  rw [parseFType_iff.2 rfl]
  simp only
  rw [openR_iff.2 hf]
  show (siteHash f >>= fun _ => _) = _
  have : siteHash f = .error .structure := by
    unfold siteHash
    rw [hg]
    split
    · rfl
    · rfl
  rw [this]
  rfl

/-- A file, as bytes on disk, of arrays without a field. -/
def lackingFile : FSys :=
  noFiles.put (py! "f") (.h5 ⟨⟨[(py! "borealis_git_hash", .bytes [118, 48, 46, 54])], []⟩, []⟩)

/-- A file of arrays of v0.6 that lacks all other fields. -/
example : (∃ x, arrayRead lackingFile (py! "f") (py! "rawacf") = .error (.fieldMissing x)) ∧
    returnReader lackingFile (py! "f") (py! "rawacf") = .error .structure := by
  have h0 : arrayRead lackingFile (py! "f") (py! "rawacf") =
      .error (.fieldMissing ((formatOf .v06 .rawacf).arraySingleTypes.keys.filter (· ≠ py! "borealis_git_hash") ++
        (formatOf .v06 .rawacf).arrayArrayTypes.keys)) := by decide +kernel
  exact ⟨⟨_, h0⟩, C48_report_violation lackingFile (py! "f") .rawacf _ rfl rfl _ h0 (.inr (.inl ⟨_, rfl⟩))⟩

/-- The file of a sample. -/
def sampleSiteFile : FSys :=
  (siteWrite sampleH5 noFiles (py! "f") (.records (sampleFileRecords .v07 .bfiq)) (py! "bfiq") none).2

/-- The file with a version at the root. -/
def rootVersioned (fs : FSys) (p : PyStr) (b : Bytes) : FSys :=
  match fs.at p with
  | some (.h5 f) => fs.put p (.h5 { f with root := { f.root with attrs := [(py! "borealis_git_hash", .bytes b)] } })
  | _ => fs

/-- Whether a reader accepts, or the exception. -/
def outcome {α : Type} : Except Err α → Option Err
  | .ok _ => none
  | .error e => some e

/-- A site file is read; with a version at the root only by the reader of site files. -/
example :
    outcome (returnReader sampleSiteFile (py! "f") (py! "bfiq")) = none ∧
    outcome (siteRead (rootVersioned sampleSiteFile (py! "f") [118, 48, 46, 55]) (py! "f") (py! "bfiq")) = none ∧
    outcome (returnReader (rootVersioned sampleSiteFile (py! "f") [118, 48, 46, 55]) (py! "f") (py! "bfiq")) =
      some .typeError := by
  refine ⟨?_, ?_, ?_⟩ <;> decide +kernel

/-! ## Writers -/

theorem storeAttr_err {v : Val} {e : Err} (h : storeAttr v = .error e) : fallsBack e = false := by
  have ascii : ∀ s : PyStr, ∀ e, asciiBytes s = .error e → fallsBack e = false := by
    intro s
    induction s with
    | nil => intro e h; cases h
    | cons c s ih =>
      intro e h
      rw [asciiBytes] at h
      split at h
      · cases hs : asciiBytes s with
        | ok b => rw [hs] at h; cases h
        | error e' =>
          rw [hs] at h
          cases h
          exact ih _ hs
      · cases h; rfl
  unfold storeAttr at h
  split at h
  · rename_i s
    cases hs : asciiBytes s with
    | ok b => rw [hs] at h; cases h
    | error e' => rw [hs] at h; cases h; exact ascii _ _ hs
  · rename_i s
    cases hs : asciiBytes s with
    | ok b => rw [hs] at h; cases h
    | error e' => rw [hs] at h; cases h; exact ascii _ _ hs
  all_goals first
    | cases h
    | (split at h <;> cases h; rfl)
  all_goals rfl

theorem compressionCheck_err {h : H5Cfg} {comp : Option PyStr} {s : List Nat} {e : Err}
    (he : compressionCheck h comp s = .error e) : fallsBack e = false := by
  unfold compressionCheck at he
  split at he
  · cases he
  · split at he
    · cases he; rfl
    · split at he
      · cases he
      · cases he; rfl

theorem textBytes_err {w : Nat} {l : List Elt} {e : Err} (h : textBytes w l = .error e) : fallsBack e = false := by
  induction l with
  | nil => cases h
  | cons x l ih =>
    cases x with
    | str s =>
      rw [textBytes] at h
      cases hs : textBytes w l with
      | ok b => rw [hs] at h; cases h
      | error e' => rw [hs] at h; cases h; exact ih hs
    | _ => cases h; rfl

theorem viewBytes_err {w : Nat} {a : NdArr} {e : Err} (h : viewBytes w a = .error e) : fallsBack e = false := by
  unfold viewBytes at h
  split at h
  · cases h; rfl
  · cases hs : textBytes w a.data with
    | ok b => rw [hs] at h; cases h
    | error e' => rw [hs] at h; cases h; exact textBytes_err hs

theorem storeDset_err {h : H5Cfg} {comp : Option PyStr} {v : Val} {e : Err} (he : storeDset h comp v = .error e) :
    fallsBack e = false := by
  unfold storeDset at he
  split at he
  · cases he; rfl
  · cases he; rfl
  · cases he; rfl
  · cases hc : compressionCheck h comp [] with
    | ok u => rw [hc] at he; cases he
    | error e' => rw [hc] at he; cases he; exact compressionCheck_err hc
  · split at he
    · cases he; rfl
    · rename_i a _ _
      cases hb : viewBytes (h.width a) a with
      | error e' => rw [hb] at he; cases he; exact viewBytes_err hb
      | ok b =>
        rw [hb] at he
        cases hc : compressionCheck h comp b.shape with
        | ok u =>
          replace he : (compressionCheck h comp b.shape >>= fun _ => (.ok _ : Except Err Dset)) = .error e := he
          rw [hc] at he; cases he
        | error e' =>
          replace he : (compressionCheck h comp b.shape >>= fun _ => (.ok _ : Except Err Dset)) = .error e := he
          rw [hc] at he; cases he; exact compressionCheck_err hc
    · rename_i a _ _ _
      cases hc : compressionCheck h comp a.shape with
      | ok u => rw [hc] at he; cases he
      | error e' => rw [hc] at he; cases he; exact compressionCheck_err hc

theorem writeFields_err {h : H5Cfg} {comp : Option PyStr} {attrs : TyTable} {taken : List PyStr} {g : Group} {r : Rec}
    {e : Err} (he : (writeFields h comp attrs taken g r).1 = .error e) : fallsBack e = false := by
  induction r generalizing g with
  | nil => cases he
  | cons p r ih =>
    obtain ⟨k, v⟩ := p
    rw [writeFields] at he
    split at he
    · split at he
      · rename_i hs; cases he; exact storeAttr_err hs
      · exact ih he
    · split at he
      · rename_i hs; cases he; exact storeDset_err hs
      · split at he
        · cases he; rfl
        · exact ih he

/-- If the writer of array files fails with an error after which the other structure is tried, it has not
changed the file. -/
theorem arrayWrite_fallsBack {h : H5Cfg} {fs : FSys} {p ft : PyStr} {d : Data} {comp : Option PyStr} {e : Err}
    (he : (arrayWrite h fs p d ft comp).1 = .error e) (hb : fallsBack e = true) :
    (arrayWrite h fs p d ft comp).2 = fs := by
  unfold arrayWrite at he ⊢
  split
  · rfl
  · rename_i fmt r hc
    rw [hc] at he
    simp only at he
    unfold writing at he ⊢
    split
    · rfl
    · rename_i f ho
      rw [ho] at he
      exfalso
      have : (writeArrays h comp fmt f r).1 = .error e := he
      unfold writeArrays at this
      rw [writeFields_err this] at hb
      cases hb

/-- No record has the name of the version. -/
def NoHashRecord : Data → Prop
  | .arrays _ => True
  | .records rs => py! "borealis_git_hash" ∉ rs.keys

theorem arrayWrite_records {h : H5Cfg} {fs : FSys} {p : PyStr} {t : FType} {rs : Records} {comp : Option PyStr}
    (hn : py! "borealis_git_hash" ∉ rs.keys) :
    arrayWrite h fs p (.records rs) t.name comp = (.error .structure, fs) := by
  have : arrayWriteCheck (.records rs) t.name = .error .structure := by
    unfold arrayWriteCheck
    rw [parseFType_iff.2 rfl]
    simp only
    have : arrayDataHash (.records rs) = .error .structure := by
      unfold arrayDataHash
      simp only
      have : field rs (py! "borealis_git_hash") = .error .keyError := by
        unfold field
        rw [Dict.get?_eq_none_iff.2 hn]
      rw [this]
      rfl
    rw [this]
    rfl
  unfold arrayWrite
  rw [this]

/-- **C48** The data are written in one structure exactly if the writer of that structure writes them, and the
files are what that writer leaves.  Missing: records of which one is named like the version, which no
file of the radar has (`C48_named_violation`). -/
theorem C48_writer_partial (h : H5Cfg) (fs fs' : FSys) (p : PyStr) (d : Data) (t : FType)
    (comp : Option (Option PyStr)) (hd : NoHashRecord d) (st : Struct) :
    returnWriter h fs p d t.name comp = (.ok st, fs') ↔
      (st = .array ∧ arrayWrite h fs p d t.name (comp.getD (some (py! "zlib"))) = (.ok (), fs')) ∨
      (st = .site ∧ siteWrite h fs p d t.name (comp.getD none) = (.ok (), fs')) := by
  show _ ↔ (st = .array ∧ arrayWrite h fs p d t.name (comp.getD arrayCompression) = _) ∨
    (st = .site ∧ siteWrite h fs p d t.name (comp.getD siteCompression) = _)
  cases d with
  | arrays r =>
    have hs : ∀ fs1, ∃ e, siteWrite h fs1 p (.arrays r) t.name (comp.getD siteCompression) = (.error e, fs1) :=
      fun fs1 => siteWrite_refused (siteWriteCheck_arrays r t.name)
    obtain ⟨e0, h0⟩ := hs fs
    unfold returnWriter
    cases hx : arrayWrite h fs p (.arrays r) t.name (comp.getD arrayCompression) with
    | mk res fs1 =>
      rw [h0]
      cases res with
      | ok u =>
        simp only [Prod.mk.injEq, Except.ok.injEq, reduceCtorEq, false_and, and_false, or_false, true_and]
        constructor
        · rintro ⟨rfl, rfl⟩; exact ⟨rfl, rfl⟩
        · rintro ⟨rfl, rfl⟩; exact ⟨rfl, rfl⟩
      | error e =>
        obtain ⟨e1, h1⟩ := hs fs1
        simp only [h1]
        split <;> simp
  | records rs =>
    unfold returnWriter
    rw [arrayWrite_records hd]
    simp only [fallsBack, if_true]
    cases hx : siteWrite h fs p (.records rs) t.name (comp.getD siteCompression) with
    | mk res fs1 =>
      cases res with
      | ok u =>
        simp only [Prod.mk.injEq, Except.ok.injEq, reduceCtorEq, false_and, and_false, false_or, true_and]
        constructor
        · rintro ⟨rfl, rfl⟩; exact ⟨rfl, rfl⟩
        · rintro ⟨rfl, rfl⟩; exact ⟨rfl, rfl⟩
      | error e => simp

/-- Arrays and records are both written without naming the structure. -/
example :
    (returnWriter sampleH5 noFiles (py! "f") (.arrays (sampleFileArrays .v06 .rawacf)) (py! "rawacf")
      (some none)).1 = .ok .array ∧
    (returnWriter sampleH5 noFiles (py! "f") (.records (sampleFileRecords .v06 .rawacf)) (py! "rawacf") none).1 =
      .ok .site := by
  constructor <;> decide +kernel

/-- **C48** violated: records of which one is named `borealis_git_hash` are written by the writer of site
files but not without naming the structure. -/
theorem C48_named_violation :
    (siteWrite sampleH5 noFiles (py! "f") (named (py! "borealis_git_hash") (sampleFileRecord .v06 .rawacf))
      (py! "rawacf") none).1 = .ok () ∧
    (returnWriter sampleH5 noFiles (py! "f") (named (py! "borealis_git_hash") (sampleFileRecord .v06 .rawacf))
      (py! "rawacf") none).1 = .error .attributeError := by
  constructor <;> decide +kernel

/-- **C48** violated: the fields that arrays lack are not reported: the error is that of the writer of site
files, and for arrays of rawacf of v0.5, whose first field is a text, it is a `TypeError`. -/
theorem C48_writer_report_violation :
    (∀ v ∈ [Version.v05, .v06],
      outcome (arrayWrite sampleH5 noFiles (py! "f")
        (.arrays ((sampleFileArrays v .rawacf).filter fun p => p.1 ≠ py! "num_sequences")) (py! "rawacf") none).1 =
      some (.fieldMissing [py! "num_sequences"])) ∧
    outcome (returnWriter sampleH5 noFiles (py! "f")
      (.arrays ((sampleFileArrays .v06 .rawacf).filter fun p => p.1 ≠ py! "num_sequences")) (py! "rawacf") none).1 =
      some .structure ∧
    outcome (returnWriter sampleH5 noFiles (py! "f")
      (.arrays ((sampleFileArrays .v05 .rawacf).filter fun p => p.1 ≠ py! "num_sequences")) (py! "rawacf") none).1 =
      some .typeError := by
  refine ⟨?_, ?_, ?_⟩ <;> decide +kernel

/-! ## Writing and reading without naming the structure -/

/-- **C56** Records written to a new file without naming the structure are what is read without naming it. -/
theorem C56_records_detected_partial (h : H5Cfg) (hf : h.Fits) (fs fs' : FSys) (p : PyStr) (rs : Records)
    (comp : Option (Option PyStr)) (v : Version) (t : FType) (st : Struct) (hnew : fs.at p = none)
    (hv : FirstOfVersion v rs) (hname : py! "borealis_git_hash" ∉ rs.keys)
    (hr : ∀ n r, rs.get? n = some r →
      r.NodupKeys ∧ KeptRec (formatOf v t).siteArrayTypes r ∧ PpoLikePulses r)
    (hw0 : borealisWrite h fs p (.records rs) t.name none comp = (.ok st, fs')) :
    st = .site ∧ ∃ rd, borealisRead fs' p t.name none = .ok (.site rd) ∧ rd.version = v ∧
      SortedNames rs.keys rd.names ∧ SameRecords rs rd.content := by
  have hw : returnWriter h fs p (.records rs) t.name comp = (.ok st, fs') := hw0
  rw [C48_writer_partial h fs fs' p (.records rs) t comp hname] at hw
  rcases hw with ⟨_, hw⟩ | ⟨rfl, hw3⟩
  · rw [arrayWrite_records hname] at hw
    cases hw
  · refine ⟨rfl, ?_⟩
    obtain ⟨rd, h1, _, h3, h4, _, h6⟩ := C56_site_partial h hf fs fs' p rs _ v t hnew hv hr hw3
    refine ⟨rd, ?_, h3, h4, h6⟩
    unfold borealisRead
    rw [parseFType_iff.2 rfl]
    simp only
    refine (C48_accepts_partial fs' p t.name (.inl fun f hfile => ?_) _).2 (.inr ⟨rd, rfl, h1⟩)
    obtain ⟨fmt, rs', hc, hw1⟩ := siteWrite_ok hw3
    obtain ⟨f0, f', ho, hw2, rfl⟩ := writing_ok hw1
    have : f0 = .new := by
      unfold FSys.openA at ho
      rw [hnew] at ho
      cases ho; rfl
    subst this
    rw [at_put] at hfile
    cases hfile
    rw [(writeRecords_written hw2).root]
    exact List.not_mem_nil

/-- **C56** Arrays written to a new file without naming the structure are what is read without naming it. -/
theorem C56_arrays_detected_partial (h : H5Cfg) (hf : h.Fits) (fs fs' : FSys) (p : PyStr) (r : Rec)
    (comp : Option (Option PyStr)) (v : Version) (t : FType) (st : Struct) (hnew : fs.at p = none)
    (hv : OfVersion v r) (hn : r.NodupKeys) (hk : KeptRec (formatOf v t).arrayArrayTypes r) (hp : PpoNoPair r)
    (hw0 : borealisWrite h fs p (.arrays r) t.name none comp = (.ok st, fs')) :
    st = .array ∧ ∃ rd, borealisRead fs' p t.name none = .ok (.array rd) ∧ rd.version = v ∧
      SameFields r rd.content := by
  have hw : returnWriter h fs p (.arrays r) t.name comp = (.ok st, fs') := hw0
  rw [C48_writer_partial h fs fs' p (.arrays r) t comp trivial] at hw
  rcases hw with ⟨rfl, hw3⟩ | ⟨_, hw⟩
  · obtain ⟨rd, h1, _, h3, h4⟩ := C56_array_partial h hf fs fs' p r _ v t hnew hv hn hk hp hw3
    refine ⟨rfl, rd, ?_, h3, h4⟩
    unfold borealisRead
    rw [parseFType_iff.2 rfl]
    simp only
    exact (C48_reader fs' p t.name).1 rd h1
  · obtain ⟨e, he⟩ := siteWrite_refused (h := h) (fs := fs) (p := p) (comp := comp.getD none)
      (siteWriteCheck_arrays r t.name)
    rw [he] at hw
    cases hw

example : (borealisWrite sampleH5 noFiles (py! "f") (.records (sampleFileRecords .v07 .bfiq)) (py! "bfiq") none none).1 =
      .ok .site ∧
    (borealisWrite sampleH5 noFiles (py! "f") (.arrays (sampleFileArrays .v06 .rawacf)) (py! "rawacf") none
      (some (some (py! "gzip")))).1 = .ok .array ∧
    py! "borealis_git_hash" ∉ (sampleFileRecords .v07 .bfiq).keys := by
  refine ⟨?_, ?_, ?_⟩ <;> decide +kernel

/-! ## C36 -/

/-- The text is a listed version, possibly with a patch level or a commit. -/
def NamesVersion (s : PyStr) (v : Version) : Prop := ∃ tail, s = v.name ++ tail ∧ VersionTail tail

/-- The text is no listed version. -/
def Unlisted (s : PyStr) : Prop := ∀ v, ¬ NamesVersion s v

/-- The error is that of an unlisted version. -/
def VersionErr (e : Err) : Prop := ∃ x, e = .version x

theorem selectVersion_names {s : PyStr} {v : Version} : selectVersion s = .ok v ↔ NamesVersion s v := by
  rw [selectVersion_iff, C36_version]
  rfl

theorem selectVersion_unlisted {s : PyStr} (h : Unlisted s) : ∃ e, selectVersion s = .error e ∧ VersionErr e := by
  cases hs : selectVersion s with
  | ok v => exact absurd (selectVersion_names.1 hs) (h v)
  | error e =>
    refine ⟨e, rfl, ?_⟩
    unfold selectVersion at hs
    split at hs
    · cases hs
    · cases hs; exact ⟨_, rfl⟩

/-- The attribute of the version, as text. -/
def VersionAttr (g : Group) (s : PyStr) : Prop :=
  ∃ b, g.attrs.get? (py! "borealis_git_hash") = some (.bytes b) ∧ utf8Decode b = some s

theorem hashOf_of {g : Group} {s : PyStr} (h : VersionAttr g s) : hashOf g.attrs = .ok s := by
  obtain ⟨b, h1, h2⟩ := h
  unfold hashOf
  rw [field_iff.2 h1]
  show decodeUtf8 b = _
  unfold decodeUtf8
  rw [h2]

/-- **C36** The reader of array files takes the format from the version at the root of the file: an unlisted
version is rejected, and what is accepted is of the format of the version. -/
theorem C36_array_reader (fs : FSys) (p : PyStr) (t : FType) (f : H5) (s : PyStr) (hf : fs.at p = some (.h5 f))
    (hs : VersionAttr f.root s) :
    (Unlisted s → ∃ e, arrayRead fs p t.name = .error e ∧ VersionErr e) ∧
    ∀ rd, arrayRead fs p t.name = .ok rd → NamesVersion s rd.version ∧
      Conforms ArrayAccepted (formatOf rd.version t).arraySingleTypes (formatOf rd.version t).arrayArrayTypes
        rd.content := by
  constructor
  · intro hu
    obtain ⟨e, h1, h2⟩ := selectVersion_unlisted hu
    refine ⟨e, ?_, h2⟩
    unfold arrayRead
    rw [parseFType_iff.2 rfl]
    simp only
    rw [openR_iff.2 hf]
    show (asStructure [.keyError] (hashOf f.root.attrs) >>= fun _ => _) = _
    rw [hashOf_of hs]
    show (selectVersion s >>= fun _ => _) = _
    rw [h1]
    rfl
  · intro rd h
    obtain ⟨f', s', r0, h1, h2, h3, h4, _, h5, h6⟩ := arrayRead_ok h
    rw [openR_iff.2 hf] at h1
    cases h1
    rw [hashOf_of hs] at h3
    cases h3
    obtain ⟨good, hu⟩ := C34_array_tables rd.version rd.ftype h6
    exact ⟨selectVersion_names.1 h4, h2 ▸ ((checkArrays_ok_iff good hu _).1 h5).1⟩

/-- **C36** The reader of site files takes the format from the version of the first record. -/
theorem C36_site_reader (fs : FSys) (p : PyStr) (t : FType) (f : H5) (n : PyStr) (g : Group) (s : PyStr)
    (hf : fs.at p = some (.h5 f)) (hg : f.groups.get? n = some g) (hmin : ∀ m ∈ f.keys, ¬ m < n)
    (hs : VersionAttr g s) :
    (Unlisted s → ∃ e, siteRead fs p t.name = .error e ∧ VersionErr e) ∧
    ∀ rd, siteRead fs p t.name = .ok rd → NamesVersion s rd.version ∧
      ∀ m r, (m, r) ∈ rd.content → Conforms (fun _ => IsNumpy) (formatOf rd.version t).siteSingleTypes
        (formatOf rd.version t).siteArrayTypes r := by
  have hh : siteHash f = .ok s := by
    unfold siteHash
    rw [asStructure_ok]
    obtain ⟨l, hl⟩ := sortStrs_first_of (mem_H5keys.2 (.inl (Dict.mem_keys_iff.2 ⟨g, hg⟩))) hmin
    rw [hl]
    simp only [hg]
    exact hashOf_of hs
  constructor
  · intro hu
    obtain ⟨e, h1, h2⟩ := selectVersion_unlisted hu
    refine ⟨e, ?_, h2⟩
    unfold siteRead
    rw [parseFType_iff.2 rfl]
    simp only
    rw [openR_iff.2 hf]
    show (siteHash f >>= fun _ => _) = _
    rw [hh]
    show (selectVersion s >>= fun _ => _) = _
    rw [h1]
    rfl
  · intro rd h
    obtain ⟨f', s', h1, h2, h3, h4, h5, _, h6⟩ := siteRead_ok h
    rw [openR_iff.2 hf] at h1
    cases h1
    rw [hh] at h3
    cases h3
    subst h2
    exact ⟨selectVersion_names.1 h4, fun m r hm =>
      (checkRecord_ok_iff (C34_site_tables _ _ h6) r).1 (checkRecords_ok_iff.1 h5 m r hm)⟩

/-- **C36** Data of an unlisted version are not written, and no file changes. -/
theorem C36_writers (h : H5Cfg) (fs : FSys) (p : PyStr) (t : FType) (comp : Option PyStr) (s : PyStr) (hu : Unlisted s) :
    (∀ r, Holds r (py! "borealis_git_hash") (.py .str (.str s)) →
      ∃ e, arrayWrite h fs p (.arrays r) t.name comp = (.error e, fs) ∧ VersionErr e) ∧
    ∀ rs n r, rs.get? n = some r → (∀ m ∈ rs.keys, ¬ m < n) → Holds r (py! "borealis_git_hash") (.py .str (.str s)) →
      ∃ e, siteWrite h fs p (.records rs) t.name comp = (.error e, fs) ∧ VersionErr e := by
  obtain ⟨e, h1, h2⟩ := selectVersion_unlisted hu
  constructor
  · intro r hr
    refine ⟨e, ?_, h2⟩
    have : arrayWriteCheck (.arrays r) t.name = .error e := by
      unfold arrayWriteCheck
      rw [parseFType_iff.2 rfl]
      simp only
      have : arrayDataHash (.arrays r) = .ok s := by
        unfold arrayDataHash
        rw [asStructure_ok]
        simp only
        rw [field_iff.2 hr]
        rfl
      rw [this]
      show (selectVersion s >>= fun _ => _) = _
      rw [h1]
      rfl
    unfold arrayWrite
    rw [this]
  · intro rs n r hn hm hr
    refine ⟨e, ?_, h2⟩
    have : siteWriteCheck (.records rs) t.name = .error e := by
      unfold siteWriteCheck
      rw [parseFType_iff.2 rfl]
      simp only
      have : siteDataHash (.records rs) = .ok s := by
        unfold siteDataHash
        rw [asStructure_ok]
        obtain ⟨l, hl⟩ := sortStrs_first_of (Dict.mem_keys_iff.2 ⟨r, hn⟩) hm
        simp only [hl]
        rw [field_iff.2 hn]
        show (field r (py! "borealis_git_hash") >>= splitText) = _
        rw [field_iff.2 hr]
        rfl
      rw [this]
      show (selectVersion s >>= fun _ => _) = _
      rw [h1]
      rfl
    unfold siteWrite
    rw [this]

example : Unlisted (py! "v0.70") := by
  rintro v ⟨tail, h1, h2⟩
  cases v <;> (
    simp only [Version.name, List.cons_append, List.nil_append, List.cons.injEq, true_and] at h1
    first
    | exact absurd h1.1 (by decide)
    | (obtain ⟨_, rfl⟩ := h1
       rcases h2 with h | ⟨_, h | h⟩ <;> cases h))

example : (siteWrite sampleH5 noFiles (py! "f")
      (named (py! "1") ((sampleFileRecord .v07 .bfiq).set (py! "borealis_git_hash") (.py .str (.str (py! "v0.70")))))
      (py! "bfiq") none).1 = .error (.version (py! "v0.70")) := by decide +kernel

end Verif.Bor
