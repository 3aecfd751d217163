import Verif.Borealis.Props.FileRestructure
/-!
# C60, C41: examples and disagreements, from site to array
-/
namespace Verif.Bor
open Verif

/-- The property `arrays` of a reader of the file `in`. -/
def arraysIn (v : Version) (t : FType) (f : H5) : Except Err Rec := do
  let rd ← siteRead (oneFile f) (py! "in") t.name
  arraysOf (formatOf v t) rd.content

/-- Restructure the file `in` to `out`. -/
def restructured (t : FType) (f : H5) (st : PyStr) : Except Err Unit × FSys :=
  borealisRestructure sampleH5 sampleKey (oneFile f) (py! "in") (py! "out") t.name st none

/-- The content of the array file `out`. -/
def arraysOut (t : FType) (x : Except Err Unit × FSys) : Except Err Rec := do
  let rd ← arrayRead x.2 (py! "out") t.name
  .ok rd.content

/-- The phase offsets of arrays. -/
def ppoIn (x : Except Err Rec) : Option Val :=
  match x with
  | .ok r => r.get? ppoName
  | .error _ => none

/-- A file with another attribute. -/
def commented (f : H5) : H5 := { f with root := { f.root with attrs := f.root.attrs.set (py! "comment") (.bytes []) } }

theorem oneFile_in (F : H5) : (oneFile F).at (py! "in") = some (.h5 F) := rfl

theorem oneFile_out (F : H5) : (oneFile F).at (py! "out") = none := rfl

/-- Whether there is a result, and it is so. -/
def okAnd {α : Type} (x : Except Err α) (p : α → Bool) : Bool :=
  match x with
  | .ok a => p a
  | .error _ => false

theorem okAnd_ok {α : Type} {x : Except Err α} {p : α → Bool} (h : okAnd x p = true) : ∃ a, x = .ok a ∧ p a = true := by
  cases x with
  | ok a => exact ⟨a, rfl, h⟩
  | error _ => cases h

/-- Whether a file keeps these fields. -/
def keptRecB (names : List PyStr) (r : Rec) : Bool := r.all fun p => keptB p.2 && (!names.contains p.1 || p.2.isArr)

theorem keptRecB_sound {dsets : Dict PyStr Ty} {r : Rec} (h : keptRecB dsets.keys r = true) : KeptRec dsets r := by
  refine keptRec_of fun p hp => ?_
  have := List.all_eq_true.1 h p hp
  simp only [Bool.and_eq_true, Bool.or_eq_true, Bool.not_eq_true', List.contains_eq_mem, decide_eq_false_iff_not] at this
  exact ⟨this.1, fun hk => this.2.resolve_left fun hn => hn hk⟩

/-- Two records with phase offsets for each of their sequences meet the hypotheses of `C60_to_array_partial` and
`C60_to_array_content_partial`. -/
example : ∃ F rd A rd', siteRead (oneFile F) (py! "in") (py! "bfiq") = .ok rd ∧ rd.names.length = 2 ∧
    arraysOf (formatOf .v06 .bfiq) rd.content = .ok A ∧
    arrayRead (restructured .bfiq F (py! "array")).2 (py! "out") (py! "bfiq") = .ok rd' ∧
    ∀ k w, k ≠ ppoName → (Holds A k w ↔ Holds rd'.content k w) := by
  obtain ⟨F, hF⟩ : ∃ F, F = siteFile .v06 .bfiq (typedRecords .v06 .bfiq .perSeq 2 1) := ⟨_, rfl⟩
  obtain ⟨rd, hrd, h1⟩ := okAnd_ok (x := siteRead (oneFile F) (py! "in") (py! "bfiq"))
    (p := fun rd => rd.version == .v06 && (rd.names.length == 2 && okAnd (arraysOf (formatOf .v06 .bfiq) rd.content)
      (keptRecB (formatOf .v06 .bfiq).arrayArrayTypes.keys))) (by subst hF; decide +kernel)
  simp only [Bool.and_eq_true, beq_iff_eq] at h1
  obtain ⟨hv, hn, h2⟩ := h1
  obtain ⟨A, hA, hk⟩ := okAnd_ok h2
  have hp : PlainSite rd.version .bfiq .perSeq sampleCommon F (recordsIn F) := by
    rw [hv]
    exact plainSiteB_sound (by subst hF; decide +kernel)
  rw [← hv] at hA hk
  obtain ⟨rd', h3, -, -, h4, -⟩ := C60_to_array_content_partial sampleH5 sampleH5_fits sampleKey (oneFile F) _ (py! "in")
    (py! "out") none .bfiq .perSeq sampleCommon F (recordsIn F) rd A (oneFile_out F) (oneFile_in F) hrd hp hA (keptRecB_sound hk)
    (fun h => absurd (by rw [hv]; decide +kernel) h)
    (Prod.ext (show (restructured .bfiq F (py! "array")).1 = .ok () by subst hF; decide +kernel) rfl)
  exact ⟨F, rd, A, rd', hrd, hn, hv ▸ hA, h3, h4⟩

/-- Likewise two records of a version in which phase offsets are no fields of their own, and they are all kept. -/
example : ∃ F rd A rd', siteRead (oneFile F) (py! "in") (py! "rawacf") = .ok rd ∧ rd.names.length = 2 ∧
    arraysOf (formatOf .v04 .rawacf) rd.content = .ok A ∧
    arrayRead (restructured .rawacf F (py! "array")).2 (py! "out") (py! "rawacf") = .ok rd' ∧ SameFields A rd'.content := by
  obtain ⟨F, hF⟩ : ∃ F, F = siteFile .v04 .rawacf (typedRecords .v04 .rawacf .none 2 1) := ⟨_, rfl⟩
  obtain ⟨rd, hrd, h1⟩ := okAnd_ok (x := siteRead (oneFile F) (py! "in") (py! "rawacf"))
    (p := fun rd => rd.version == .v04 && (rd.names.length == 2 && (decide (rd.content = recordsIn F) &&
      okAnd (arraysOf (formatOf .v04 .rawacf) rd.content)
      (keptRecB (formatOf .v04 .rawacf).arrayArrayTypes.keys)))) (by subst hF; decide +kernel)
  simp only [Bool.and_eq_true, beq_iff_eq, decide_eq_true_eq] at h1
  obtain ⟨hv, hn, he, h2⟩ := h1
  obtain ⟨A, hA, hk⟩ := okAnd_ok h2
  have hp : PlainSite rd.version .rawacf .none sampleCommon F (recordsIn F) := by
    rw [hv]
    exact plainSiteB_sound (by subst hF; decide +kernel)
  rw [← hv] at hA hk
  have hno : ∀ p ∈ recordsIn F, p.2.get? ppoName = none := by subst hF; decide +kernel
  obtain ⟨rd', h3, -, -, -, h4⟩ := C60_to_array_content_partial sampleH5 sampleH5_fits sampleKey (oneFile F) _ (py! "in")
    (py! "out") none .rawacf .none sampleCommon F (recordsIn F) rd A (oneFile_out F) (oneFile_in F) hrd hp hA (keptRecB_sound hk)
    (fun _ p hm a ha => by rw [hno p hm] at ha; cases ha)
    (Prod.ext (show (restructured .rawacf F (py! "array")).1 = .ok () by subst hF; decide +kernel) rfl)
  exact ⟨F, rd, A, rd', hrd, hn, hv ▸ hA, h3, h4 he⟩

/-- **C60** violated, in every version: a second record with more beams than the first is no problem in memory, but
`BorealisRestructure` raises `ValueError`. -/
theorem C60_beams_violation (v : Version) (t : FType) (ht : t = .bfiq ∨ t = .rawacf) :
    ∃ F : H5, outcome (arraysIn v t F) = none ∧ outcome (restructured t F (py! "array")).1 = some .valueError := by
  refine ⟨siteFile v t (typedRecords v t .none 1 2), ?_⟩
  rcases ht with rfl | rfl <;> cases v <;> decide +kernel

/-- **C60** violated: phase offsets for each pulse, as the readers want them, raise `ValueError` in the versions in
which the records have their own. -/
theorem C60_offsets_violation (v : Version) (t : FType) (hv : v = .v06 ∨ v = .v07) (ht : t = .bfiq ∨ t = .antennasIq) :
    ∃ F : H5, outcome (arraysIn v t F) = none ∧ outcome (restructured t F (py! "array")).1 = some .valueError := by
  refine ⟨siteFile v t (typedRecords v t .flat 1 1), ?_⟩
  rcases ht with rfl | rfl <;> rcases hv with rfl | rfl <;> decide +kernel

/-- **C60** violated, silently: the phase offsets of each sequence are replaced by zeros in the reader, so that the
arrays in memory have zeros where the restructured file has the offsets. -/
theorem C60_offsets_content_violation (v : Version) (t : FType) (hv : v = .v06 ∨ v = .v07)
    (ht : t = .bfiq ∨ t = .antennasIq) : ∃ F : H5, outcome (arraysIn v t F) = none ∧
      outcome (restructured t F (py! "array")).1 = none ∧
      outcome (arraysOut t (restructured t F (py! "array"))) = none ∧
      ppoIn (arraysIn v t F) ≠ ppoIn (arraysOut t (restructured t F (py! "array"))) := by
  refine ⟨siteFile v t (typedRecords v t .perSeq 1 1), ?_⟩
  rcases ht with rfl | rfl <;> rcases hv with rfl | rfl <;> decide +kernel

/-- **C60** violated: an attribute of the file that is not one of those left out does not disturb the readers, but
`BorealisRestructure` takes it for the name of a record and raises `KeyError`. -/
theorem C60_root_violation (v : Version) : ∃ F : H5, outcome (arraysIn v .antennasIq F) = none ∧
    outcome (restructured .antennasIq F (py! "array")).1 = some .keyError := by
  refine ⟨commented (siteFile v .antennasIq (typedRecords v .antennasIq .none 1 1)), ?_⟩
  cases v <;> decide +kernel

/-- **C60** violated the other way: when some records have blanked samples and others have none,
`BorealisRestructure` succeeds where the property `arrays` raises. -/
theorem C60_blanked_violation (v : Version) (t : FType) (hv : v = .v05 ∨ v = .v06 ∨ v = .v07) (ht : t ≠ .rawrf) :
    ∃ F : H5, outcome (arraysIn v t F) = some .restructure ∧ outcome (restructured t F (py! "array")).1 = none := by
  refine ⟨siteFile v t [namedSite v t .none 2 1 0 5, namedSite v t .none 3 1 1 9], ?_⟩
  rcases hv with rfl | rfl | rfl <;> cases t <;> first | exact absurd rfl ht | decide +kernel

/-! ## C41 for files -/

/-- **C41 (partial)** The dimensions that restructuring computes from a file are bounds of those of every record, and
each is reached, unless a record has more beams than the first one (`C41_file_violation`). -/
theorem C41_file_partial (v : Version) (t : FType) (o : Ppo) (c : Common) (F : H5) (rs : Records) (ht : t ≠ .rawrf)
    (hp : PlainSite v t o c F rs) : ∃ m, maxDims F (formatOf v t).unshared (mainDims v t) = .ok m ∧
      ∀ k ∈ (formatOf v t).unshared, (formatOf v t).single.get? k = none → ∃ d, m.dims.get? k = some d ∧
        d.length = (shapeOf o t k).length ∧
        (∀ p ∈ rs, DimsLe ((shapeOf o t k).map (Q.size c p.2)) d) ∧
        ∀ n ∈ d, ∃ p ∈ rs, n ∈ (shapeOf o t k).map (Q.size c p.2) := by
  have hf := hp.fromFile
  have hne := hp.records.nonempty
  have hb := hp.beams
  cases rs with
  | nil => exact absurd rfl hne
  | cons p rs =>
    obtain ⟨n0, r0⟩ := p
    obtain ⟨m, hm, hd⟩ := maxDims_ok (coherent v t ht) (tabled v t ht) (mainOK v t ht) hp.offsets hf fun hq =>
      first_max (p := (n0, r0)) fun q hq' => hb (beams_antennas t hq) _ q rfl hq'
    refine ⟨m, hm, fun k hk hs => ⟨_, hd k hk, ?_, ?_, ?_⟩⟩
    · unfold maxShape
      rw [hs]
      simp
    · intro p hp'
      unfold maxShape
      rw [hs]
      generalize shapeOf o t k = l
      simp only [Option.isSome_none, Bool.false_eq_true, if_false]
      induction l with
      | nil => constructor
      | cons q l ih => exact ⟨size_le_max hp', ih⟩
    · intro n hn
      unfold maxShape at hn
      rw [hs] at hn
      simp only [Option.isSome_none, Bool.false_eq_true, if_false, List.mem_map] at hn
      obtain ⟨q, hq, rfl⟩ := hn
      obtain ⟨p, hp', e⟩ := max_attained (c := c) (q := q) hne
      exact ⟨p, hp', List.mem_map.2 ⟨q, hq, e.symm⟩⟩

/-- The beams that restructuring counts in a file, and those of its records. -/
def beamsCounted (v : Version) (t : FType) (f : H5) : Option Int × List Nat :=
  (match maxDims f (formatOf v t).unshared (mainDims v t) with
    | .ok m => some m.beams
    | .error _ => none, (recordsIn f).map fun p => beamsOf p.2)

/-- **C41** violated for files: only the beams of the first record are counted. -/
theorem C41_file_violation (v : Version) (t : FType) (ht : t = .bfiq ∨ t = .rawacf) :
    ∃ F : H5, beamsCounted v t F = (some 1, [1, 2]) := by
  refine ⟨siteFile v t (typedRecords v t .none 1 2), ?_⟩
  rcases ht with rfl | rfl <;> cases v <;> decide +kernel

end Verif.Bor
