import Verif.Borealis.Props.ConvertStructure
import Verif.Borealis.Props.Kinds
import Verif.Borealis.Model.Texts
import Verif.Dmap.Props.Texts
/-!
# C69: texts and record names of the Borealis objects
-/
namespace Verif.Bor
open Verif

theorem allRec_keys {R : Rec → Rec → Prop} {rs rs' : Records} (h : AllRec R rs rs') : rs'.keys = rs.keys := by
  induction h with
  | nil => rfl
  | cons _ _ ih => simp only [Dict.keys, List.map_cons] at ih ⊢; rw [ih]

/-- **C69** The names of a site file that was read are those of the groups of the file, in order, and those of the records. -/
theorem C69_site_names {fs : FSys} {p : PyStr} {t : FType} {rd : Reader Records} (h : siteRead fs p t.name = .ok rd) :
    ∃ f, fs.openR p = .ok f ∧ SortedNames f.keys rd.names ∧ rd.content.keys = rd.names := by
  obtain ⟨f, s, rs, h1, -, -, h2, h3, h4, -⟩ := siteRead_content h
  refine ⟨f, h1, ?_, ?_⟩
  · rw [h4]; exact sortStrs_names _
  · rw [allRec_keys (ppoSiteFix_all h3), readNames_keys h2, h4]

/-- **C69** The record names of a reader of either structure are the sorted names of its records. -/
theorem C69_names (tkey : Elt → Except Err PyStr) {fs : FSys} {p : PyStr} {t : FType} {st : Option PyStr} {x : Handler}
    (h : borealisRead fs p t.name st = .ok x) {rs : Records} (hr : x.records tkey = .ok rs) :
    ∃ ns, x.recordNames tkey = .ok ns ∧ SortedNames rs.keys ns := by
  cases x with
  | array r =>
    have hr : recordsOf tkey (formatOf r.version r.ftype) r.content = .ok rs := hr
    refine ⟨sortStrs rs.keys, ?_, sortStrs_names _⟩
    show (recordsOf tkey (formatOf r.version r.ftype) r.content >>= fun rs => _) = _
    rw [bind_of_ok hr]
  | site r =>
    cases hr
    refine ⟨r.names, rfl, ?_⟩
    have hs : siteRead fs p t.name = .ok r := by
      unfold borealisRead at h
      rw [parseFType_iff.2 rfl] at h
      simp only at h
      cases st with
      | none =>
        simp only [returnReader] at h
        cases ha : arrayRead fs p t.name with
        | ok a => rw [ha] at h; cases h
        | error e =>
          rw [ha] at h
          simp only at h
          split at h
          · cases hb : siteRead fs p t.name with
            | ok b => rw [hb] at h; cases h; rfl
            | error e => rw [hb] at h; cases h
          · cases h
      | some s =>
        simp only at h
        split at h
        · obtain ⟨b, hb, h⟩ := bind_ok h
          cases h
          exact hb
        · split at h
          · obtain ⟨b, hb, h⟩ := bind_ok h
            cases h
          · cases h
    obtain ⟨f, -, h1, h2⟩ := C69_site_names hs
    rw [h2]
    refine ⟨List.Perm.refl _, h1.2⟩

/-- **C69** Arrays that were made from records have the names of these records.  Partial: for the records of C38. -/
theorem C69_array_names_partial (tkey : Elt → Except Err PyStr) (v : Version) (ft : FType) (hft : ft ≠ .rawrf)
    (o : Ppo) (c : Common) (rs : Records) (h : SiteRecords (formatOf v ft) ft o c (flatFields v ft) rs)
    (h1 : OneSlice tkey (formatOf v ft) ft rs) (hf : FlatPpoOK o c rs) {A : Rec} (hA : siteToArray (formatOf v ft) rs = .ok A)
    (names : List PyStr) {ns : List PyStr} (hn : (Handler.array ⟨ft, v, names, A⟩).recordNames tkey = .ok ns) :
    SortedNames rs.keys ns := by
  obtain ⟨A', out, h2, h3, h4, -⟩ := roundtrip (coherent v ft hft) h h1 hf
  rw [hA] at h2
  cases h2
  obtain ⟨out', h5, h6⟩ := bind_ok (show (recordsOf tkey (formatOf v ft) A >>= fun rs => _) = _ from hn)
  cases h6
  unfold recordsOf at h5
  rw [h3] at h5
  simp only [bind, Except.bind] at h5
  cases hc : checkRecords (formatOf v ft).siteSingleTypes (formatOf v ft).siteArrayTypes out with
  | error e => rw [hc] at h5; cases h5
  | ok u =>
    rw [hc] at h5
    cases h5
    rw [← h4]
    exact sortStrs_names _

/-- **C69** The text of a reader of a site file tells the number of groups of the file. -/
theorem C69_site_text {fs : FSys} {p : PyStr} {t : FType} {rd : Reader Records} (h : siteRead fs p t.name = .ok rd) :
    ∃ f, fs.openR p = .ok f ∧
      siteReadStr p rd = py! "Reading from " ++ p ++ py! " a total number of records: " ++ digitsOf f.keys.length := by
  obtain ⟨f, h1, h2, h3⟩ := C69_site_names h
  refine ⟨f, h1, ?_⟩
  unfold siteReadStr
  rw [h3, decText_nat, h2.1.length_eq]

/-- **C69** All texts but those of two writers can be made, if the attributes can be taken. -/
theorem C69_texts_partial {α : Type} (c : Cls) (hc : c ≠ .write ∧ c ≠ .arrayWrite) (value : PyStr → α) :
    takeAttributes c (fun n => .ok (value n)) c.reprNames = .ok (c.reprNames.map value) ∧
    takeAttributes c (fun n => .ok (value n)) c.strNames = .ok (c.strNames.map value) := by
  have key : ∀ ns : List PyStr, (∀ n ∈ ns, n ∈ c.attributes) → takeAttributes c (fun n => .ok (value n)) ns = .ok (ns.map value) := by
    intro ns
    induction ns with
    | nil => exact fun _ => rfl
    | cons n ns ih =>
      intro h
      rw [takeAttributes, if_pos (h n (by simp))]
      simp only [bind, Except.bind, ih fun m hm => h m (by simp [hm]), List.map_cons]
  have hall : ∀ c ∈ Cls.all, c ≠ .write ∧ c ≠ .arrayWrite →
    (∀ n ∈ c.reprNames, n ∈ c.attributes) ∧ ∀ n ∈ c.strNames, n ∈ c.attributes := by decide +kernel
  have hm : c ∈ Cls.all := by cases c <;> decide
  exact ⟨key _ (hall c hm hc).1, key _ (hall c hm hc).2⟩

/-- **C69** violated by `BorealisWrite` and `BorealisArrayWrite`: `repr` and `str` always raise `AttributeError`. -/
theorem C69_texts_violation {α : Type} (c : Cls) (hc : c = .write ∨ c = .arrayWrite) (value : PyStr → α) :
    takeAttributes c (fun n => .ok (value n)) c.reprNames = .error .attributeError ∧
    takeAttributes c (fun n => .ok (value n)) c.strNames = .error .attributeError := by
  rcases hc with rfl | rfl <;> exact ⟨rfl, rfl⟩

/-! ## Samples -/

/-- A site file that is read. -/
example : ∃ fs p rd f, siteRead fs p (FType.name .rawacf) = .ok rd ∧ fs.openR p = .ok f ∧ rd.names ≠ [] ∧ SortedNames f.keys rd.names := by
  obtain ⟨_, _, p, _, fs, _, rd, h1, h2, h3⟩ := (C59_partial .v06 .rawacf (by decide)).1
  obtain ⟨_, _, _, _, _, _, _, _, _, _, _, n, r, hr⟩ := siteRead_content h1
  obtain ⟨f, h4, h5, h6⟩ := C69_site_names h1
  refine ⟨fs, p, rd, f, h1, h4, ?_, h5⟩
  rw [← h6]
  exact List.ne_nil_of_mem (List.mem_map_of_mem hr)

/-- The names of the arrays of two records. -/
example : ∃ A ns, siteToArray (formatOf .v06 .rawacf) convertibleSlice = .ok A ∧
    (Handler.array ⟨.rawacf, .v06, [], A⟩).recordNames sampleKey = .ok ns ∧ SortedNames convertibleSlice.keys ns := by
  have hs := convertibleSlice_ok
  obtain ⟨A, out, hA, -⟩ := C38_partial .v06 .rawacf (by decide) .none sampleCommon convertibleSlice sampleKey hs.slice hs.one nofun
  have h : okAnd (siteToArray (formatOf .v06 .rawacf) convertibleSlice >>= fun A =>
    (Handler.array ⟨.rawacf, .v06, [], A⟩).recordNames sampleKey) (fun _ => true) = true := by decide +kernel
  rw [bind_of_ok hA] at h
  obtain ⟨ns, h1, -⟩ := okAnd_ok h
  exact ⟨A, ns, hA, h1, C69_array_names_partial sampleKey .v06 .rawacf (by decide) .none sampleCommon convertibleSlice hs.slice hs.one
    nofun hA [] h1⟩

example : takeAttributes .convert (fun n => .ok n) (Cls.strNames .convert) =
    .ok [py! "borealis_records", py! "borealis_filetype", py! "sdarn_filename"] := by decide +kernel

end Verif.Bor
