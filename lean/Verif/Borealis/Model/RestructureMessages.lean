import Verif.Borealis.Model.ArgumentMessages
/-!
# Texts of failed restructurings

The restructuring in memory and of files once more, with the texts of `BorealisRestructureError`.  The text of an exception that
is caught, which is made part of the new one, is a parameter.
-/
namespace Verif.Bor
open Verif

/-- `BorealisRestructureError(error_str)` (/repo/pydarnio/exceptions/borealis_exceptions.py:344-349); there are two spaces. -/
def restructureText (s : PyStr) : PyStr := py! "The file cannot be restructured due to the  following error: " ++ s

/-- `format.__name__`: the class of a version and a type (/repo/pydarnio/borealis/borealis_formats.py:2625-2662). -/
def formatName (v : Version) (t : FType) : PyStr :=
  (match t with
    | .bfiq => py! "BorealisBfiq"
    | .rawacf => py! "BorealisRawacf"
    | .antennasIq => py! "BorealisAntennasIq"
    | .rawrf => py! "BorealisRawrf") ++
  match v with
  | .v02 => py! "v0_4"
  | .v03 => py! "v0_4"
  | .v04 => py! "v0_4"
  | .v05 => py! "v0_5"
  | .v06 => py! "v0_6"
  | .v07 => []

/-- Who restructures: a reader, or a writer; `BorealisRestructure` has the words of a writer. -/
inductive Side
  | reader | writer
  deriving DecidableEq, Repr

/-- The preposition. -/
def Side.from_ : Side → PyStr
  | .reader => py! " from "
  | .writer => py! " for "

/-- The text about an exception within the restructuring (/repo/pydarnio/borealis/borealis_site.py:205-209, 431-435,
borealis_array.py:184-187, 393-396, borealis_restructure.py:296-299, 449-451). -/
def failedText (what : PyStr) (side : Side) (fn fmt way cause : PyStr) : PyStr :=
  restructureText (what ++ (side.from_ ++ (fn ++ (py! ": Error restructuring " ++ (fmt ++ (way ++ (py! " style: " ++ cause)))))))

/-- The text about a format that is not restructured (/repo/pydarnio/borealis/borealis_site.py:211-214, 437-440,
borealis_array.py:189-192, 398-401, borealis_restructure.py:185-188). -/
def notRestructuredText (what : PyStr) (side : Side) (fn fmt way : PyStr) : PyStr :=
  restructureText (what ++ (side.from_ ++ (fn ++ (py! ": File format " ++ (fmt ++ (py! " not recognized as restructureable" ++ way))))))

/-- The property `arrays` of a site reader or writer (/repo/pydarnio/borealis/borealis_site.py:185-217, 411-443). -/
def arraysOfM (cause : Err → PyStr) (side : Side) (fn : PyStr) (v : Version) (t : FType) (rs : Records) : Except Said Rec :=
  let fmt := formatOf v t
  if fmt.restructureable then
    match (do
      let r ← siteToArray fmt rs
      checkArrays fmt.arraySingleTypes fmt.arrayArrayTypes fmt.unshared r
      .ok r : Except Err Rec) with
    | .ok r => .ok r
    | .error e =>
      .error ⟨.restructure, some (failedText (py! "Records") side fn (formatName v t) (py! " from site to array") (cause e))⟩
  else .error ⟨.restructure, some (notRestructuredText (py! "Records") side fn (formatName v t) (py! " from site to array style"))⟩

/-- The property `records` of an array reader or writer (/repo/pydarnio/borealis/borealis_array.py:165-194, 374-403). -/
def recordsOfM (cause : Err → PyStr) (side : Side) (fn : PyStr) (tkey : Elt → Except Err PyStr) (v : Version) (t : FType) (r : Rec) :
    Except Said Records :=
  let fmt := formatOf v t
  if fmt.restructureable then
    match (do
      let rs ← arrayToSite tkey fmt r
      checkRecords fmt.siteSingleTypes fmt.siteArrayTypes rs
      .ok rs : Except Err Records) with
    | .ok rs => .ok rs
    | .error e =>
      .error ⟨.restructure, some (failedText (py! "Arrays") side fn (formatName v t) (py! " from array to site") (cause e))⟩
  else .error ⟨.restructure, some (notRestructuredText (py! "Arrays") side fn (formatName v t)
    (py! " from site to array style or vice versa."))⟩

/-- The `except` clause of `_site_to_array_restructure` (/repo/pydarnio/borealis/borealis_restructure.py:448-452): only `TypeError`
is caught. -/
def toArrayFailed (cause : Err → PyStr) (inp : PyStr) (v : Version) (t : FType) {α : Type} : Except Err α → Except Said α
  | .ok a => .ok a
  | .error e =>
    if e == .typeError then
      .error ⟨.restructure, some (failedText (py! "Records") .writer inp (formatName v t) (py! " from site to array") (cause e))⟩
    else .error ⟨e, none⟩

/-- `_site_to_array_restructure` (/repo/pydarnio/borealis/borealis_restructure.py:302-452). -/
def siteFileToArrayM (cause : Err → PyStr) (h : H5Cfg) (fs : FSys) (f : H5) (inp out : PyStr) (v : Version) (t : FType)
    (comp : Option PyStr) : Except Said Unit × FSys :=
  let fmt := formatOf v t
  match (do
    let r ← arraysOfFile fmt (mainDims v t) f
    checkArrays fmt.arraySingleTypes fmt.arrayArrayTypes fmt.unshared r
    .ok r : Except Err Rec) with
  | .error e => (toArrayFailed cause inp v t (.error e), fs)
  | .ok r =>
    match writing fs out fun o => writeArrays h comp fmt o r with
    | (res, fs') => (toArrayFailed cause inp v t res, fs')

/-- The `except` clause of `_array_to_site_restructure` (/repo/pydarnio/borealis/borealis_restructure.py:295-300). -/
def toSiteFailed (cause : Err → PyStr) (inp : PyStr) (v : Version) (t : FType) (e : Err) : Said :=
  ⟨.restructure, some (failedText (py! "Records") .writer inp (formatName v t) (py! " from array to site") (cause e))⟩

/-- `_array_to_site_restructure` (/repo/pydarnio/borealis/borealis_restructure.py:190-300). -/
def arrayFileToSiteM (cause : Err → PyStr) (h : H5Cfg) (tkey : Elt → Except Err PyStr) (fs : FSys) (f : H5) (inp out : PyStr)
    (v : Version) (t : FType) (comp : Option PyStr) : Except Said Unit × FSys :=
  match loadOnce (formatOf v t) f.root with
  | .error e => (.error (toSiteFailed cause inp v t e), fs)
  | .ok ts =>
    match writeRows h tkey (formatOf v t) f.root ts (decide (fs.node inp = fs.node out)) out comp
        (List.range (ts.shape.headD 0)) fs with
    | (.ok (), fs') => (.ok (), fs')
    | (.error e, fs') => (.error (toSiteFailed cause inp v t e), fs')

/-- `restructure` (/repo/pydarnio/borealis/borealis_restructure.py:168-188).  The last text is that of both directions. -/
def restructureM (cause : Err → PyStr) (h : H5Cfg) (tkey : Elt → Except Err PyStr) (fs : FSys) (f : H5) (s s' : Struct)
    (inp out : PyStr) (v : Version) (t : FType) (comp : Option PyStr) : Except Said Unit × FSys :=
  if s = s' then (.ok (), fs)
  else if (formatOf v t).restructureable then
    match s' with
    | .site => arrayFileToSiteM cause h tkey fs f inp out v t comp
    | .array => siteFileToArrayM cause h fs f inp out v t comp
  else (.error ⟨.restructure, some (notRestructuredText (py! "Records") .writer inp (formatName v t)
    (py! " from array to site style"))⟩, fs)

/-- `BorealisRestructure`, with all texts (/repo/pydarnio/borealis/borealis_restructure.py:78-133). -/
def borealisRestructureT (cause : Err → PyStr) (h : H5Cfg) (tkey : Elt → Except Err PyStr) (fs : FSys) (inp out ft st : PyStr)
    (comp : Option PyStr) : Except Said Unit × FSys :=
  match restructureType ft with
  | none => (.error ⟨.fileType, some (fileTypeText inp ft)⟩, fs)
  | some t =>
    match restructureTo st with
    | none => (.error ⟨.structure, some (unknownStructure st)⟩, fs)
    | some s' =>
      if inp = out then (.error ⟨.overwrite, some (overwriteText inp)⟩, fs)
      else
        match examine fs inp with
        | .error e => (.error ⟨e, none⟩, fs)
        | .ok (f, s, v) => restructureM cause h tkey fs f s s' inp out v t comp

end Verif.Bor
