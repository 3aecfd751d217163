import Verif.Borealis.SpecFiles
/-!
# What the texts of refused arguments say
-/
namespace Verif.Bor
open Verif

/-- The types of Borealis files. -/
def fileTypes : List PyStr := [py! "bfiq", py! "antennas_iq", py! "rawacf", py! "rawrf"]

/-- The types of files that are restructured. -/
def restructureTypes : List PyStr := [py! "antennas_iq", py! "bfiq", py! "rawacf"]

/-- The types of files that are converted. -/
def convertTypes : List PyStr := [py! "rawacf", py! "bfiq"]

/-- The structures of Borealis files. -/
def structures : List PyStr := [py! "site", py! "array"]

/-- The words about a type that is not listed. -/
def typeWords (fn ft : PyStr) : List PyStr :=
  [ft, py! " is not a Borealis file format or has not been implemented yet. ", fn,
    py! " was not used. Please check the spelling of ", ft, py! "."]

/-- The words about a structure. -/
def structureWords (why : PyStr) : List PyStr :=
  [py! "Structural errors found. You may be attempting to use the file as the wrong structure ",
    py! "('site' or 'array' supported). Please check if you are interested in records or arrays.", why]

/-- The words about a version that is not listed. -/
def versionWords (fn v : PyStr) : List PyStr :=
  [py! "Version ", v, py! " from the borealis_git_hash is not a recognized Borealis version or has not been implemented yet. ",
    fn, py! " was not used."]

/-- The words about a type that is not converted. -/
def conversionWords (out ft : PyStr) : List PyStr :=
  [py! "Records destined to be converted and written to ", out, py! " cannot be converted from origin filetype ", ft,
    py! " to a dmap filetype because origin filetype does not map to any currently available dmap filetypes: ",
    py! "{'rawacf': 'rawacf', 'bfiq': 'iqdat'}"]

/-- The words about equal names. -/
def overwriteWords (fn : PyStr) : List PyStr := [py! "Writing to ", fn, py! " not permitted while reading the file as source."]

/-- The words about a missing number of the slice. -/
def noSlice : PyStr :=
  [py! "The slice_id could not be found in the file: Borealis files produced before Borealis v0.5 ",
    py! "must provide the slice_id value to the BorealisConvert class."].flatten

/-- `v` is what `s` has before the first dash and before the second dot. -/
def VersionPart (s v : PyStr) : Prop :=
  ∃ tail : PyStr, s = v ++ tail ∧ '-' ∉ v ∧ v.count '.' ≤ 1 ∧
    (tail = [] ∨ (∃ t, tail = '-' :: t) ∨ (v.count '.' = 1 ∧ ∃ t, tail = '.' :: t))

end Verif.Bor
