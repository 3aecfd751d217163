import Verif.Borealis.Props.Arguments
import Verif.Borealis.Props.FileDisagreeSite
/-!
# C77: how a failed restructuring is reported, and what it leaves behind
-/
namespace Verif.Bor
open Verif

/-- **C77.** In memory every failure is a `BorealisRestructureError`. -/
theorem C77_memory (tkey : Elt → Except Err PyStr) (fmt : Format) (rs : Records) (r : Rec) :
    (∀ e, arraysOf fmt rs = .error e → e = .restructure) ∧ (∀ e, recordsOf tkey fmt r = .error e → e = .restructure) := by
  constructor
  · intro e h
    unfold arraysOf at h
    dsimp only at h
    split at h
    · cases h
    · exact (Except.error.inj h).symm
  · intro e h
    unfold recordsOf at h
    dsimp only at h
    split at h
    · cases h
    · exact (Except.error.inj h).symm

/-- **C77.** From array to site, every failure after the version was found is a `BorealisRestructureError`. -/
theorem C77_to_site (h : H5Cfg) (tkey : Elt → Except Err PyStr) {fs : FSys} {inp out s : PyStr} {t : FType} (comp : Option PyStr)
    {f : H5} {v : Version} (ht : t ≠ .rawrf) (hne : inp ≠ out) (hf : fs.at inp = some (.h5 f)) (hs : HasStructure f (py! "array") s)
    (hv : NamesVersion s v) {e : Err} (he : (borealisRestructure h tkey fs inp out t.name (py! "site") comp).1 = .error e) :
    e = .restructure := by
  obtain ⟨s', h1, h2⟩ := examine_of hf hs hv
  cases h1
  unfold borealisRestructure at he
  rw [restructureType_iff.2 ⟨rfl, ht⟩, show restructureTo (py! "site") = some .site from rfl] at he
  dsimp only at he
  rw [if_neg hne, h2] at he
  dsimp only at he
  unfold restructure at he
  rw [if_neg (by decide)] at he
  split at he
  · dsimp only at he
    unfold arrayFileToSite at he
    split at he
    · exact (Except.error.inj he).symm
    · split at he
      · cases he
      · exact (Except.error.inj he).symm
  · exact (Except.error.inj he).symm

/-- The arrays of a site file, or why there are none. -/
def arraysMade (v : Version) (t : FType) (f : H5) : Except Err Rec := do
  let r ← arraysOfFile (formatOf v t) (mainDims v t) f
  checkArrays (formatOf v t).arraySingleTypes (formatOf v t).arrayArrayTypes (formatOf v t).unshared r
  .ok r

/-- **C77.** From site to array, a failure before the arrays are complete and checked writes nothing, and is a
`BorealisRestructureError` if it was a `TypeError`; other exceptions are passed on as they are. -/
theorem C77_to_array_partial (h : H5Cfg) (tkey : Elt → Except Err PyStr) {fs : FSys} {inp out s : PyStr} {t : FType} (comp : Option PyStr)
    {f : H5} {v : Version} (ht : t ≠ .rawrf) (hne : inp ≠ out) (hf : fs.at inp = some (.h5 f)) (hs : HasStructure f (py! "site") s)
    (hv : NamesVersion s v) {e : Err} (he : arraysMade v t f = .error e) :
    borealisRestructure h tkey fs inp out t.name (py! "array") comp = (.error (if e = .typeError then .restructure else e), fs) := by
  obtain ⟨s', h1, h2⟩ := examine_of hf hs hv
  cases h1
  unfold borealisRestructure
  rw [restructureType_iff.2 ⟨rfl, ht⟩, show restructureTo (py! "array") = some .array from rfl]
  dsimp only
  rw [if_neg hne, h2]
  dsimp only
  unfold restructure
  rw [if_neg (by decide), if_pos (by cases v <;> cases t <;> first | rfl | exact absurd rfl ht)]
  dsimp only
  unfold siteFileToArray
  dsimp only
  unfold arraysMade at he
  rw [he]
  dsimp only [asRestructure]
  by_cases h : e = .typeError
  · rw [if_pos h, if_pos (by simpa using h)]
  · rw [if_neg h, if_neg (by simpa using h)]

/-- A site file whose records have a number for a text. -/
def numberForText (k : PyStr) (f : H5) : H5 :=
  { f with groups := f.groups.map fun p => (p.1, { p.2 with attrs := p.2.attrs.set k (.value (.np .i64 (.int 5))) }) }

/-- Files of which no arrays can be made: a number where a text should be, and fewer beams in the first record. -/
example : arraysMade .v06 .rawacf (numberForText (py! "experiment_comment") (siteFile .v06 .rawacf (typedRecords .v06 .rawacf .none 1 1))) =
      .error .typeError ∧
    arraysMade .v06 .rawacf (siteFile .v06 .rawacf (typedRecords .v06 .rawacf .none 1 2)) = .error .valueError ∧
    outcome (restructured .rawacf (numberForText (py! "experiment_comment") (siteFile .v06 .rawacf (typedRecords .v06 .rawacf .none 1 1)))
      (py! "array")).1 = some .restructure := by
  decide +kernel

/-- **C77** is violated in every version: other exceptions than `BorealisRestructureError` come from `BorealisRestructure`. -/
theorem C77_to_array_violation (v : Version) :
    (∃ F : H5, outcome (restructured .rawacf F (py! "array")).1 = some .valueError) ∧
    ∃ F : H5, outcome (restructured .antennasIq F (py! "array")).1 = some .keyError := by
  obtain ⟨F, -, h⟩ := C60_beams_violation v .rawacf (.inr rfl)
  obtain ⟨G, -, h'⟩ := C60_root_violation v
  exact ⟨⟨F, h⟩, G, h'⟩

/-- A loop over records of which one cannot be made. -/
theorem writeRows_stop (h : H5Cfg) (tkey : Elt → Except Err PyStr) (fmt : Format) (root : Group) (ts : NdArr)
    (out : PyStr) (comp : Option PyStr) {is : List Nat} {rs : Records} {j : Nat} {rest : List Nat} {e : Err}
    (hrs : RowsOf (rowOfFile tkey fmt root ts) is rs) (hj : rowOfFile tkey fmt root ts j = .error e) : ∀ fs,
    writeRows h tkey fmt root ts false out comp (is ++ j :: rest) fs =
      match writeRows h tkey fmt root ts false out comp is fs with
      | (.ok (), fs') => (.error e, fs')
      | (.error e', fs') => (.error e', fs') := by
  induction hrs with
  | nil =>
    intro fs
    simp only [List.nil_append, writeRows, hj]
  | @cons i is p ps hp hps ih =>
    intro fs
    rw [List.cons_append, writeRows, writeRows, hp]
    simp only [Bool.false_eq_true, if_false]
    generalize writing fs out _ = x
    obtain ⟨res, fs'⟩ := x
    cases res with
    | error e => rfl
    | ok u => exact ih fs'

/-- **C77.** What a restructuring to site leaves behind when a record cannot be made: the records before it, as `BorealisSiteWrite` writes
them, and nothing of the records after it; nothing at all if it is the first record. -/
theorem C77_left (h : H5Cfg) (tkey : Elt → Except Err PyStr) {fs : FSys} {inp out s : PyStr} {t : FType} (comp : Option PyStr)
    {f o : H5} {v : Version} (ht : t ≠ .rawrf) (hne : fs.node inp ≠ fs.node out) (hf : fs.at inp = some (.h5 f))
    (hs : HasStructure f (py! "array") s) (hv : NamesVersion s v) (ho : fs.openA out = .ok o) {ts : NdArr}
    (hts : loadOnce (formatOf v t) f.root = .ok ts) {n : Nat} (hn : n < ts.shape.headD 0) {rs : Records}
    (hrs : RowsOf (rowOfFile tkey (formatOf v t) f.root ts) (List.range n) rs) {e : Err}
    (he : rowOfFile tkey (formatOf v t) f.root ts n = .error e) :
    borealisRestructure h tkey fs inp out t.name (py! "site") comp =
      (.error .restructure, if n = 0 then fs else (writing fs out fun o => writeRecords h comp (formatOf v t) o rs).2) := by
  obtain ⟨s', h1, h2⟩ := examine_of hf hs hv
  cases h1
  unfold borealisRestructure
  rw [restructureType_iff.2 ⟨rfl, ht⟩, show restructureTo (py! "site") = some .site from rfl]
  dsimp only
  rw [if_neg fun c => hne (by rw [c]), h2]
  dsimp only
  unfold restructure
  rw [if_neg (by decide), if_pos (by cases v <;> cases t <;> first | rfl | exact absurd rfl ht)]
  dsimp only
  unfold arrayFileToSite
  rw [hts, decide_eq_false hne]
  dsimp only
  obtain ⟨rest, hr⟩ : ∃ rest, List.range (ts.shape.headD 0) = List.range n ++ n :: rest := by
    obtain ⟨m, hm⟩ := Nat.exists_eq_add_of_lt hn
    rw [hm, show n + m + 1 = n + (m + 1) by omega, List.range_add, List.range_succ_eq_map, List.map_cons]
    exact ⟨_, rfl⟩
  rw [hr, writeRows_stop h tkey _ _ ts out comp hrs he]
  by_cases hz : n = 0
  · subst hz
    cases hrs
    rfl
  · rw [if_neg hz, writeRows_eq h tkey _ _ ts out comp hrs fs o ho (by
      rintro rfl
      generalize hl : List.range n = l at hrs
      cases hrs
      exact hz (List.range_eq_nil.1 hl))]
    generalize writing fs out _ = x
    obtain ⟨res, fs'⟩ := x
    cases res <;> rfl

/-- An array file of two records with one integration time. -/
def oneTime : H5 :=
  let f := stackedFile .v06 .rawacf (typedRecords .v06 .rawacf .none 1 1)
  match (stackedFile .v06 .rawacf [namedSite .v06 .rawacf .none 2 1 3 5]).root.dsets.get? (py! "int_time") with
  | some d => { f with root := { f.root with dsets := f.root.dsets.set (py! "int_time") d } }
  | none => f

/-- The first record of this file can be made and the second cannot; the first is left behind. -/
example : (loadOnce (formatOf .v06 .rawacf) oneTime.root).toOption.map (fun ts => (ts.shape.headD 0,
        ([0, 1].map fun i => outcome (rowOfFile sampleKey (formatOf .v06 .rawacf) oneTime.root ts i)))) =
      some (2, [none, some .indexError]) ∧
    (match (restructured .rawacf oneTime (py! "site")).2.at (py! "out") with
      | some (.h5 f) => f.groups.keys.length
      | _ => 0) = 1 := by
  decide +kernel

/-- **C77.** If all records can be made, a restructuring to site leaves what `BorealisSiteWrite` writes for them, failed or not. -/
theorem C77_left_written (h : H5Cfg) (tkey : Elt → Except Err PyStr) {fs : FSys} {inp out s : PyStr} {t : FType} (comp : Option PyStr)
    {f o : H5} {v : Version} (ht : t ≠ .rawrf) (hne : fs.node inp ≠ fs.node out) (hf : fs.at inp = some (.h5 f))
    (hs : HasStructure f (py! "array") s) (hv : NamesVersion s v) (ho : fs.openA out = .ok o) {ts : NdArr}
    (hts : loadOnce (formatOf v t) f.root = .ok ts) {rs : Records}
    (hrs : RowsOf (rowOfFile tkey (formatOf v t) f.root ts) (List.range (ts.shape.headD 0)) rs) (h0 : rs ≠ []) :
    (borealisRestructure h tkey fs inp out t.name (py! "site") comp).2 =
      (writing fs out fun o => writeRecords h comp (formatOf v t) o rs).2 := by
  obtain ⟨s', h1, h2⟩ := examine_of hf hs hv
  cases h1
  unfold borealisRestructure
  rw [restructureType_iff.2 ⟨rfl, ht⟩, show restructureTo (py! "site") = some .site from rfl]
  dsimp only
  rw [if_neg fun c => hne (by rw [c]), h2]
  dsimp only
  unfold restructure
  rw [if_neg (by decide), if_pos (by cases v <;> cases t <;> first | rfl | exact absurd rfl ht)]
  dsimp only
  unfold arrayFileToSite
  rw [hts, decide_eq_false hne]
  dsimp only
  rw [writeRows_eq h tkey _ _ ts out comp hrs fs o ho h0]
  generalize writing fs out _ = x
  obtain ⟨res, fs'⟩ := x
  cases res <;> rfl

/-- All records of two with the same name can be made; only the first can be written. -/
example : (loadOnce (formatOf .v06 .rawacf)
      (stackedFile .v06 .rawacf [namedSite .v06 .rawacf .none 2 1 3 5, namedSite .v06 .rawacf .none 3 1 1 5]).root).toOption.map
        (fun ts => (ts.shape.headD 0, ([0, 1].map fun i => outcome (rowOfFile sampleKey (formatOf .v06 .rawacf)
          (stackedFile .v06 .rawacf [namedSite .v06 .rawacf .none 2 1 3 5, namedSite .v06 .rawacf .none 3 1 1 5]).root ts i)))) =
      some (2, [none, none]) := by
  decide +kernel

/-- **C77** is violated in every version: a restructuring to site that failed leaves an output file with some of the records. -/
theorem C77_left_violation (v : Version) : ∃ F : H5, outcome (restructured .rawacf F (py! "site")).1 = some .restructure ∧
    (oneFile F).at (py! "out") = none ∧ (restructured .rawacf F (py! "site")).2.at (py! "out") ≠ none := by
  refine ⟨stackedFile v .rawacf [namedSite v .rawacf .none 2 1 3 5, namedSite v .rawacf .none 3 1 1 5], ?_⟩
  cases v <;> decide +kernel

end Verif.Bor
