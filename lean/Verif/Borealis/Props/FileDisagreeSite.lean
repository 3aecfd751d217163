import Verif.Borealis.Props.FileDisagree
import Verif.Borealis.Props.FileRestructureSite
/-!
# C60: examples and disagreements, from array to site
-/
namespace Verif.Bor
open Verif

/-- The property `records` of a reader of the file `in`. -/
def recordsFrom (v : Version) (t : FType) (f : H5) : Except Err Records := do
  let rd ← arrayRead (oneFile f) (py! "in") t.name
  recordsOf sampleKey (formatOf v t) rd.content

/-- The content of the site file `out`. -/
def recordsOut (t : FType) (x : Except Err Unit × FSys) : Except Err Records := do
  let rd ← siteRead x.2 (py! "out") t.name
  .ok rd.content

/-- The names of records. -/
def namesIn (x : Except Err Records) : List PyStr :=
  match x with
  | .ok rs => rs.keys
  | .error _ => []

/-- The phase offsets of records. -/
def offsetsIn (x : Except Err Records) : List (Option Val) :=
  match x with
  | .ok rs => rs.map fun p => p.2.get? ppoName
  | .error _ => []

/-- The number of rows of an array file. -/
def rowsIn (f : H5) : Nat :=
  match (arraysFrom f).get? (py! "sqn_timestamps") with
  | some (.arr a) => a.shape.headD 0
  | _ => 0

/-- A file with an empty text. -/
def withoutText (k : PyStr) (f : H5) : H5 :=
  { f with root := { f.root with attrs := f.root.attrs.set k (.empty .npBytes) } }

set_option maxHeartbeats 2000000 in
/-- Two records with phase offsets for each of their sequences meet the hypotheses of `C60_to_site_partial` and
`C60_to_site_content_partial`. -/
example : ∃ F rd rs rd', arrayRead (oneFile F) (py! "in") (py! "bfiq") = .ok rd ∧
    recordsOf sampleKey (formatOf .v06 .bfiq) rd.content = .ok rs ∧ rs.length = 2 ∧
    siteRead (restructured .bfiq F (py! "site")).2 (py! "out") (py! "bfiq") = .ok rd' ∧ rd'.names.length = 2 ∧
    ∃ rs', ppoSiteFix rs = .ok rs' ∧ SameRecords rs' rd'.content := by
  obtain ⟨F, hF⟩ : ∃ F, F = stackedFile .v06 .bfiq (typedRecords .v06 .bfiq .perSeq 2 1) := ⟨_, rfl⟩
  obtain ⟨rd, hrd, h1⟩ := okAnd_ok (x := arrayRead (oneFile F) (py! "in") (py! "bfiq"))
    (p := fun rd => rd.version == .v06 && okAnd (recordsOf sampleKey (formatOf .v06 .bfiq) rd.content) fun rs =>
      rs.length == 2 && rs.all fun p => keptRecB (formatOf .v06 .bfiq).siteArrayTypes.keys p.2) (by subst hF; decide +kernel)
  simp only [Bool.and_eq_true, beq_iff_eq] at h1
  obtain ⟨hv, h2⟩ := h1
  obtain ⟨rs, hrs, hk⟩ := okAnd_ok h2
  simp only [Bool.and_eq_true, beq_iff_eq, List.all_eq_true] at hk
  obtain ⟨hl, hk⟩ := hk
  have hp : PlainArrays rd.version .bfiq F (arraysFrom F) := by
    rw [hv]
    exact plainArraysB_sound (by subst hF; decide +kernel)
  have hlen : ∀ a, (arraysFrom F).get? (py! "sqn_timestamps") = some (.arr a) → a.shape.headD 0 = rs.length := by
    intro a ha
    have hr : rowsIn F = 2 := by subst hF; decide +kernel
    rw [rowsIn, ha] at hr
    rw [hl]
    exact hr
  obtain ⟨rd', rs', h3, -, -, hs, -, -, h4, h5, -⟩ := C60_to_site_content_partial sampleH5 sampleH5_fits sampleKey
    (oneFile F) _ (py! "in") (py! "out") none .bfiq F (arraysFrom F) rd rs
    (fun h => absurd h (by subst hF; decide +kernel)) (oneFile_out F) (oneFile_in F) hrd hp (hv ▸ hrs)
    (by rintro rfl; cases hl) hlen
    (fun _ i hi => offsetsCutB_sound (by
      rw [hl] at hi
      rcases i with _ | _ | i
      · subst hF; decide +kernel
      · subst hF; decide +kernel
      · omega))
    (fun p hm => keptRecB_sound (by rw [hv]; exact hk p hm))
    (Prod.ext (show (restructured .bfiq F (py! "site")).1 = .ok () by subst hF; decide +kernel) rfl)
  exact ⟨F, rd, rs, rd', hrd, hrs, hl, h3, by rw [hs.perm.length_eq]; simpa [Dict.keys] using hl, rs', h4, h5⟩

set_option maxHeartbeats 2000000 in
/-- Likewise two records without. -/
example : ∃ F rd rs rd', arrayRead (oneFile F) (py! "in") (py! "rawacf") = .ok rd ∧
    recordsOf sampleKey (formatOf .v04 .rawacf) rd.content = .ok rs ∧ rs.length = 2 ∧
    siteRead (restructured .rawacf F (py! "site")).2 (py! "out") (py! "rawacf") = .ok rd' ∧ rd'.names.length = 2 ∧
    ∃ rs', ppoSiteFix rs = .ok rs' ∧ SameRecords rs' rd'.content := by
  obtain ⟨F, hF⟩ : ∃ F, F = stackedFile .v04 .rawacf (typedRecords .v04 .rawacf .none 2 1) := ⟨_, rfl⟩
  obtain ⟨rd, hrd, h1⟩ := okAnd_ok (x := arrayRead (oneFile F) (py! "in") (py! "rawacf"))
    (p := fun rd => rd.version == .v04 && okAnd (recordsOf sampleKey (formatOf .v04 .rawacf) rd.content) fun rs =>
      rs.length == 2 && rs.all fun p => keptRecB (formatOf .v04 .rawacf).siteArrayTypes.keys p.2) (by subst hF; decide +kernel)
  simp only [Bool.and_eq_true, beq_iff_eq] at h1
  obtain ⟨hv, h2⟩ := h1
  obtain ⟨rs, hrs, hk⟩ := okAnd_ok h2
  simp only [Bool.and_eq_true, beq_iff_eq, List.all_eq_true] at hk
  obtain ⟨hl, hk⟩ := hk
  have hp : PlainArrays rd.version .rawacf F (arraysFrom F) := by
    rw [hv]
    exact plainArraysB_sound (by subst hF; decide +kernel)
  have hlen : ∀ a, (arraysFrom F).get? (py! "sqn_timestamps") = some (.arr a) → a.shape.headD 0 = rs.length := by
    intro a ha
    have hr : rowsIn F = 2 := by subst hF; decide +kernel
    rw [rowsIn, ha] at hr
    rw [hl]
    exact hr
  obtain ⟨rd', rs', h3, -, -, hs, -, -, h4, h5, -⟩ := C60_to_site_content_partial sampleH5 sampleH5_fits sampleKey
    (oneFile F) _ (py! "in") (py! "out") none .rawacf F (arraysFrom F) rd rs
    (fun h => absurd h (by subst hF; decide +kernel)) (oneFile_out F) (oneFile_in F) hrd hp (hv ▸ hrs)
    (by rintro rfl; cases hl) hlen
    (fun h => absurd h (by rw [hv]; decide +kernel))
    (fun p hm => keptRecB_sound (by rw [hv]; exact hk p hm))
    (Prod.ext (show (restructured .rawacf F (py! "site")).1 = .ok () by subst hF; decide +kernel) rfl)
  exact ⟨F, rd, rs, rd', hrd, hrs, hl, h3, by rw [hs.perm.length_eq]; simpa [Dict.keys] using hl, rs', h4, h5⟩

/-- **C60** violated: of two records of the same time the second replaces the first in memory (C40), but
`BorealisRestructure` raises, and leaves a file with the first record. -/
theorem C60_names_violation (v : Version) : ∃ F : H5,
    (namesIn (recordsFrom v .rawacf F)).length = 1 ∧ outcome (restructured .rawacf F (py! "site")).1 = some .restructure ∧
      (namesIn (recordsOut .rawacf (restructured .rawacf F (py! "site")))).length = 1 := by
  refine ⟨stackedFile v .rawacf [namedSite v .rawacf .none 2 1 3 5, namedSite v .rawacf .none 3 1 1 5], ?_⟩
  cases v <;> decide +kernel

/-- **C60** violated: an empty text that h5py wrote as `Empty` is an empty text for the readers, but
`BorealisRestructure` raises. -/
theorem C60_text_violation (v : Version) : ∃ F : H5,
    outcome (recordsFrom v .antennasIq F) = none ∧ outcome (restructured .antennasIq F (py! "site")).1 = some .restructure := by
  refine ⟨withoutText (py! "experiment_comment") (stackedFile v .antennasIq (typedRecords v .antennasIq .none 1 1)), ?_⟩
  cases v <;> decide +kernel

/-- **C60** violated, silently: the records in memory have the phase offsets of each sequence, the file that
`BorealisRestructure` writes has zeros. -/
theorem C60_offsets_site_violation (v : Version) (t : FType)
    (h : (v, t) ∈ [(.v06, .bfiq), (.v06, .antennasIq), (.v07, .antennasIq)]) :
    ∃ F : H5, outcome (recordsFrom v t F) = none ∧ outcome (restructured t F (py! "site")).1 = none ∧
      namesIn (recordsFrom v t F) = namesIn (recordsOut t (restructured t F (py! "site"))) ∧
      offsetsIn (recordsFrom v t F) ≠ offsetsIn (recordsOut t (restructured t F (py! "site"))) := by
  refine ⟨stackedFile v t (typedRecords v t .perSeq 1 1), ?_⟩
  simp only [List.mem_cons, Prod.mk.injEq, List.not_mem_nil, or_false] at h
  rcases h with ⟨rfl, rfl⟩ | ⟨rfl, rfl⟩ | ⟨rfl, rfl⟩ <;> decide +kernel

end Verif.Bor
