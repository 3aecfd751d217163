import Verif.Borealis.Lemmas.RestructureMessages
import Verif.Borealis.SpecRestructureMessages
import Verif.Borealis.Props.ArgumentMessages
import Verif.Borealis.Props.RestructureErrors
/-!
# C80: the text of a failed restructuring tells file, format, direction and cause
-/
namespace Verif.Bor
open Verif

/-- **C80** The texts do not change what happens. -/
theorem C80_agrees (cause : Err → PyStr) (side : Side) (h : H5Cfg) (tkey : Elt → Except Err PyStr) (fs : FSys) (p q ft st : PyStr)
    (v : Version) (t : FType) (rs : Records) (r : Rec) (comp : Option PyStr) :
    dropText (arraysOfM cause side p v t rs) = arraysOf (formatOf v t) rs ∧
    dropText (recordsOfM cause side p tkey v t r) = recordsOf tkey (formatOf v t) r ∧
    dropTextW (borealisRestructureT cause h tkey fs p q ft st comp) = borealisRestructure h tkey fs p q ft st comp :=
  ⟨arraysOfM_drop .., recordsOfM_drop .., borealisRestructureT_drop ..⟩

/-- **C80** The name in the text is that of the format, and formats of the same name are the same: the versions up to v0.4 have
the same formats. -/
theorem C80_format (v : Version) (t : FType) :
    IsFormat v t (formatName v t) ∧ ' ' ∉ formatName v t ∧
    ∀ v' t', IsFormat v' t' (formatName v t) → t' = t ∧ formatOf v' t' = formatOf v t := by
  refine ⟨?_, ?_, ?_⟩
  · have : ∃ x ∈ formatNames, x.1 = t ∧ v ∈ x.2.1 ∧ x.2.2 = formatName v t := by
      cases v <;> cases t <;> decide
    obtain ⟨⟨t', vs, n⟩, hm, h1, hv, h2⟩ := this
    dsimp only at h1 hv h2
    subst h1 h2
    exact ⟨vs, hm, hv⟩
  · cases v <;> cases t <;> decide
  · rintro v' t' ⟨vs, hm, hv⟩
    have : ∀ x ∈ formatNames, x.2.2 = formatName v t → x.1 = t ∧ ∀ v' ∈ x.2.1, (v' = v ∨ (v' ∈ [Version.v02, .v03, .v04] ∧
        v ∈ [Version.v02, .v03, .v04])) := by
      cases v <;> cases t <;> decide
    obtain ⟨h1, h2⟩ := this _ hm rfl
    dsimp only at h1 h2
    subst h1
    refine ⟨rfl, ?_⟩
    rcases h2 v' hv with rfl | ⟨h3, h4⟩
    · rfl
    · simp only [List.mem_cons, List.not_mem_nil, or_false] at h3 h4
      rcases h3 with rfl | rfl | rfl <;> rcases h4 with rfl | rfl | rfl <;> cases t' <;> rfl

example : IsFormat .v03 .bfiq (py! "BorealisBfiqv0_4") ∧ formatName .v07 .rawacf = py! "BorealisRawacf" :=
  ⟨⟨_, .head _, .tail _ (.head _)⟩, rfl⟩

theorem failedText_words (what : Bool) (side : Side) (fn fmt cause : PyStr) (toArray : Bool) :
    failedText (if what then py! "Arrays" else py! "Records") side fn fmt
      (if toArray then py! " from site to array" else py! " from array to site") cause =
      (Failure.words ⟨what, side == .reader, fn, fmt, toArray, cause⟩).flatten := by
  cases what <;> cases side <;> cases toArray <;> simp [failedText, restructureText, Failure.words, Side.from_]

theorem notRestructuredText_words (what : Bool) (side : Side) (fn fmt rest : PyStr) :
    notRestructuredText (if what then py! "Arrays" else py! "Records") side fn fmt rest =
      (unsupportedWords what (side == .reader) fn fmt rest).flatten := by
  cases what <;> cases side <;> simp [notRestructuredText, restructureText, unsupportedWords, Side.from_]

theorem restructureable_iff (v : Version) (t : FType) : (formatOf v t).restructureable = true ↔ t ≠ .rawrf := by
  cases v <;> cases t <;> decide

/-- **C80** In memory, from site to array: the text of every failure tells the file, the format, the direction and the exception
of the first step that failed, which is making the arrays or checking them. -/
theorem C80_arrays (cause : Err → PyStr) (side : Side) (fn : PyStr) (v : Version) (t : FType) (rs : Records) (ht : t ≠ .rawrf)
    {e : Err} (he : siteToArray (formatOf v t) rs = .error e ∨ ∃ r, siteToArray (formatOf v t) rs = .ok r ∧
      checkArrays (formatOf v t).arraySingleTypes (formatOf v t).arrayArrayTypes (formatOf v t).unshared r = .error e) :
    ∃ n, IsFormat v t n ∧ arraysOfM cause side fn v t rs =
      .error ⟨.restructure, some (Failure.words ⟨false, side == .reader, fn, n, true, cause e⟩).flatten⟩ := by
  refine ⟨_, (C80_format v t).1, ?_⟩
  rw [← failedText_words]
  unfold arraysOfM
  dsimp only
  rw [if_pos ((restructureable_iff v t).2 ht)]
  rcases he with he | ⟨r, hr, he⟩
  · rw [he]; rfl
  · rw [hr]
    show (match (checkArrays _ _ _ r >>= _ : Except Err Rec) with
      | .ok r => _
      | .error e => _) = _
    rw [he]
    rfl

/-- **C80** In memory, from array to site. -/
theorem C80_records (cause : Err → PyStr) (side : Side) (fn : PyStr) (tkey : Elt → Except Err PyStr) (v : Version) (t : FType) (r : Rec)
    (ht : t ≠ .rawrf) {e : Err} (he : arrayToSite tkey (formatOf v t) r = .error e ∨ ∃ rs, arrayToSite tkey (formatOf v t) r = .ok rs ∧
      checkRecords (formatOf v t).siteSingleTypes (formatOf v t).siteArrayTypes rs = .error e) :
    ∃ n, IsFormat v t n ∧ recordsOfM cause side fn tkey v t r =
      .error ⟨.restructure, some (Failure.words ⟨true, side == .reader, fn, n, false, cause e⟩).flatten⟩ := by
  refine ⟨_, (C80_format v t).1, ?_⟩
  rw [← failedText_words]
  unfold recordsOfM
  dsimp only
  rw [if_pos ((restructureable_iff v t).2 ht)]
  rcases he with he | ⟨rs, hr, he⟩
  · rw [he]; rfl
  · rw [hr]
    show (match (checkRecords _ _ rs >>= _ : Except Err Records) with
      | .ok r => _
      | .error e => _) = _
    rw [he]
    rfl

/-- No arrays, and no records of the format. -/
example : siteToArray (formatOf .v06 .rawacf) [(py! "1", [])] = .error .keyError ∧
    arrayToSite sampleKey (formatOf .v06 .rawacf) [] = .error .keyError := by
  decide +kernel

/-- **C80** In memory, raw samples: the text tells the file and the format. -/
theorem C80_unsupported (cause : Err → PyStr) (side : Side) (fn : PyStr) (tkey : Elt → Except Err PyStr) (v : Version) (rs : Records)
    (r : Rec) : ∃ n, IsFormat v .rawrf n ∧
    arraysOfM cause side fn v .rawrf rs =
      .error ⟨.restructure, some (unsupportedWords false (side == .reader) fn n (py! " from site to array style")).flatten⟩ ∧
    recordsOfM cause side fn tkey v .rawrf r =
      .error ⟨.restructure, some (unsupportedWords true (side == .reader) fn n
        (py! " from site to array style or vice versa.")).flatten⟩ := by
  refine ⟨_, (C80_format v .rawrf).1, ?_, ?_⟩
  · rw [← notRestructuredText_words]
    unfold arraysOfM
    dsimp only
    rw [if_neg (fun h => (restructureable_iff v .rawrf).1 h rfl)]
    rfl
  · rw [← notRestructuredText_words]
    unfold recordsOfM
    dsimp only
    rw [if_neg (fun h => (restructureable_iff v .rawrf).1 h rfl)]
    rfl

/-- **C80** From an array file to a site file: the text tells the input file, the format, the direction and the exception of
the first step that failed. -/
theorem C80_to_site (cause : Err → PyStr) (h : H5Cfg) (tkey : Elt → Except Err PyStr) {fs : FSys} {inp out s : PyStr} {t : FType}
    (comp : Option PyStr) {f : H5} {v : Version} (ht : t ≠ .rawrf) (hne : inp ≠ out) (hf : fs.at inp = some (.h5 f))
    (hs : HasStructure f (py! "array") s) (hv : NamesVersion s v) {e : Err}
    (he : loadOnce (formatOf v t) f.root = .error e ∨ ∃ ts, loadOnce (formatOf v t) f.root = .ok ts ∧
      (writeRows h tkey (formatOf v t) f.root ts (decide (fs.node inp = fs.node out)) out comp
        (List.range (ts.shape.headD 0)) fs).1 = .error e) :
    ∃ n, IsFormat v t n ∧ (borealisRestructureT cause h tkey fs inp out t.name (py! "site") comp).1 =
      .error ⟨.restructure, some (Failure.words ⟨false, false, inp, n, false, cause e⟩).flatten⟩ := by
  refine ⟨_, (C80_format v t).1, ?_⟩
  have hw := failedText_words false .writer inp (formatName v t) (cause e) false
  rw [show (Side.writer == .reader) = false from rfl] at hw
  rw [← hw]
  obtain ⟨s', h1, h2⟩ := examine_of hf hs hv
  cases h1
  unfold borealisRestructureT
  rw [restructureType_iff.2 ⟨rfl, ht⟩, show restructureTo (py! "site") = some .site from rfl]
  dsimp only
  rw [if_neg hne, h2]
  dsimp only
  unfold restructureM
  rw [if_neg (by decide), if_pos ((restructureable_iff v t).2 ht)]
  dsimp only
  unfold arrayFileToSiteM
  rcases he with he | ⟨ts, hts, he⟩
  · rw [he]; rfl
  · rw [hts]
    dsimp only
    generalize writeRows h tkey (formatOf v t) f.root ts (decide (fs.node inp = fs.node out)) out comp
      (List.range (ts.shape.headD 0)) fs = x at he
    obtain ⟨x, fs'⟩ := x
    dsimp only at he
    subst he
    rfl

/-- **C80** From a site file to an array file: what is caught, a `TypeError` while the arrays are made or written, is told in the
same way.  Other exceptions come through (`C77_to_array_violation`) and have no text of pyDARNio. -/
theorem C80_to_array_partial (cause : Err → PyStr) (h : H5Cfg) (tkey : Elt → Except Err PyStr) {fs : FSys} {inp out s : PyStr} {t : FType}
    (comp : Option PyStr) {f : H5} {v : Version} (ht : t ≠ .rawrf) (hne : inp ≠ out) (hf : fs.at inp = some (.h5 f))
    (hs : HasStructure f (py! "site") s) (hv : NamesVersion s v)
    (he : arraysMade v t f = .error .typeError ∨ ∃ r, arraysMade v t f = .ok r ∧
      (writing fs out fun o => writeArrays h comp (formatOf v t) o r).1 = .error .typeError) :
    ∃ n, IsFormat v t n ∧ (borealisRestructureT cause h tkey fs inp out t.name (py! "array") comp).1 =
      .error ⟨.restructure, some (Failure.words ⟨false, false, inp, n, true, cause .typeError⟩).flatten⟩ := by
  refine ⟨_, (C80_format v t).1, ?_⟩
  have hw := failedText_words false .writer inp (formatName v t) (cause .typeError) true
  rw [show (Side.writer == .reader) = false from rfl] at hw
  rw [← hw]
  obtain ⟨s', h1, h2⟩ := examine_of hf hs hv
  cases h1
  unfold borealisRestructureT
  rw [restructureType_iff.2 ⟨rfl, ht⟩, show restructureTo (py! "array") = some .array from rfl]
  dsimp only
  rw [if_neg hne, h2]
  dsimp only
  unfold restructureM
  rw [if_neg (by decide), if_pos ((restructureable_iff v t).2 ht)]
  dsimp only
  unfold siteFileToArrayM
  dsimp only
  unfold arraysMade at he
  rcases he with he | ⟨r, hr, he⟩
  · rw [he]
    rfl
  · rw [hr]
    dsimp only
    generalize (writing fs out fun o => writeArrays h comp (formatOf v t) o r) = x at he
    obtain ⟨x, fs'⟩ := x
    dsimp only at he
    subst he
    rfl

/-- The file with one integration time for two records, and one with a number for a text. -/
example :
    saidBy (borealisRestructureT (fun _ => py! "why") sampleH5 sampleKey (oneFile oneTime) (py! "in") (py! "out") (py! "rawacf")
      (py! "site") none).1 =
      some ⟨.restructure, some (py! "The file cannot be restructured due to the  following error: Records for in: Error restructuring BorealisRawacfv0_6 from array to site style: why")⟩ ∧
    saidBy (borealisRestructureT (fun _ => py! "why") sampleH5 sampleKey
      (oneFile (numberForText (py! "experiment_comment") (siteFile .v06 .rawacf (typedRecords .v06 .rawacf .none 1 1))))
      (py! "in") (py! "out") (py! "rawacf") (py! "array") none).1 =
      some ⟨.restructure, some (py! "The file cannot be restructured due to the  following error: Records for in: Error restructuring BorealisRawacfv0_6 from site to array style: why")⟩ := by
  decide +kernel

/-! ## Reading the texts -/

theorem upto_inj {c : Char} {a a' x x' : PyStr} (ha : c ∉ a) (ha' : c ∉ a') (h : a ++ c :: x = a' ++ c :: x') : a = a' ∧ x = x' := by
  induction a generalizing a' with
  | nil =>
    cases a' with
    | nil => exact ⟨rfl, (List.cons.inj h).2⟩
    | cons d a' => exact absurd (by rw [(List.cons.inj h).1]; exact List.mem_cons_self ..) ha'
  | cons d a ih =>
    cases a' with
    | nil => exact absurd (by rw [(List.cons.inj h).1]; exact List.mem_cons_self ..) ha
    | cons d' a' =>
      obtain ⟨h1, h2⟩ := List.cons.inj h
      obtain ⟨h3, h4⟩ := ih (fun hm => ha (List.mem_cons_of_mem _ hm)) (fun hm => ha' (List.mem_cons_of_mem _ hm)) h2
      exact ⟨by rw [h1, h3], h4⟩

theorem what_side_inj {w w' s s' : Bool} {x x' : PyStr}
    (h : (if w then py! "Arrays" else py! "Records") ++ ((if s then py! " from " else py! " for ") ++ x) =
      (if w' then py! "Arrays" else py! "Records") ++ ((if s' then py! " from " else py! " for ") ++ x')) :
    w = w' ∧ s = s' ∧ x = x' := by
  cases w <;> cases w' <;> cases s <;> cases s' <;> simp_all

theorem way_inj {w w' : Bool} {x x' : PyStr}
    (h : (if w then py! "from site to array style: " else py! "from array to site style: ") ++ x =
      (if w' then py! "from site to array style: " else py! "from array to site style: ") ++ x') : w = w' ∧ x = x' := by
  cases w <;> cases w' <;> simp_all

/-- **C80** Everything can be read from the text: what was restructured, the file, the format, the direction and the cause, if
the name of the file has no colon. -/
theorem C80_telling (a b : Failure) (ha : ':' ∉ a.file) (hb : ':' ∉ b.file) (fa : ' ' ∉ a.format) (fb : ' ' ∉ b.format)
    (h : a.words.flatten = b.words.flatten) : a = b := by
  obtain ⟨w, s, fn, fmt, d, c⟩ := a
  obtain ⟨w', s', fn', fmt', d', c'⟩ := b
  simp only [Failure.words, List.flatten_cons, List.flatten_nil, List.append_nil] at h
  obtain ⟨rfl, rfl, h⟩ := what_side_inj (List.append_cancel_left h)
  obtain ⟨h0, h⟩ := upto_inj ha hb h
  dsimp only at h0
  subst h0
  have h : fmt ++ ((if d then py! " from site to array style: " else py! " from array to site style: ") ++ c) =
    fmt' ++ ((if d' then py! " from site to array style: " else py! " from array to site style: ") ++ c') := List.append_cancel_left h
  have e : ∀ (d : Bool) (c : PyStr), (if d then py! " from site to array style: " else py! " from array to site style: ") ++ c =
      ' ' :: ((if d then py! "from site to array style: " else py! "from array to site style: ") ++ c) := by
    intro d c
    cases d <;> rfl
  rw [e, e] at h
  obtain ⟨h1, h⟩ := upto_inj fa fb h
  obtain ⟨rfl, rfl⟩ := way_inj h
  dsimp only at h1
  subst h1
  rfl

/-- A name with a colon can be taken for another. -/
example : ∃ a b : Failure, a ≠ b ∧ ' ' ∉ a.format ∧ ' ' ∉ b.format ∧ a.words.flatten = b.words.flatten :=
  ⟨⟨false, false, py! "x", py! "A", true, py! "y: Error restructuring B from site to array style: z"⟩,
    ⟨false, false, py! "x: Error restructuring A from site to array style: y", py! "B", true, py! "z"⟩, by decide +kernel⟩

example : ':' ∉ py! "20200101.rawacf.hdf5" ∧ ' ' ∉ py! "BorealisRawacf" := by decide

end Verif.Bor
