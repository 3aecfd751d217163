import Verif.Borealis.SpecArguments
/-!
# What the text of a failed restructuring says
-/
namespace Verif.Bor
open Verif

/-- A failed restructuring. -/
structure Failure where
  /-- What is restructured is called arrays, not records. -/
  arrays : Bool
  /-- It was read from the file, and is not to be written to a file. -/
  reading : Bool
  file : PyStr
  /-- The name of the format. -/
  format : PyStr
  toArray : Bool
  /-- What went wrong. -/
  cause : PyStr
  deriving DecidableEq

/-- The words about it. -/
def Failure.words (x : Failure) : List PyStr :=
  [py! "The file cannot be restructured due to the  following error: ", if x.arrays then py! "Arrays" else py! "Records",
    if x.reading then py! " from " else py! " for ", x.file, py! ": Error restructuring ", x.format,
    if x.toArray then py! " from site to array style: " else py! " from array to site style: ", x.cause]

/-- The words about a format that is not restructured: only those of a file of raw samples. -/
def unsupportedWords (arrays reading : Bool) (file format rest : PyStr) : List PyStr :=
  [py! "The file cannot be restructured due to the  following error: ", if arrays then py! "Arrays" else py! "Records",
    if reading then py! " from " else py! " for ", file, py! ": File format ", format, py! " not recognized as restructureable",
    rest]

/-- The formats and their names. -/
def formatNames : List (FType × List Version × PyStr) :=
  [(.bfiq, [.v02, .v03, .v04], py! "BorealisBfiqv0_4"), (.bfiq, [.v05], py! "BorealisBfiqv0_5"),
    (.bfiq, [.v06], py! "BorealisBfiqv0_6"), (.bfiq, [.v07], py! "BorealisBfiq"),
    (.rawacf, [.v02, .v03, .v04], py! "BorealisRawacfv0_4"), (.rawacf, [.v05], py! "BorealisRawacfv0_5"),
    (.rawacf, [.v06], py! "BorealisRawacfv0_6"), (.rawacf, [.v07], py! "BorealisRawacf"),
    (.antennasIq, [.v02, .v03, .v04], py! "BorealisAntennasIqv0_4"), (.antennasIq, [.v05], py! "BorealisAntennasIqv0_5"),
    (.antennasIq, [.v06], py! "BorealisAntennasIqv0_6"), (.antennasIq, [.v07], py! "BorealisAntennasIq"),
    (.rawrf, [.v02, .v03, .v04], py! "BorealisRawrfv0_4"), (.rawrf, [.v05], py! "BorealisRawrfv0_5"),
    (.rawrf, [.v06], py! "BorealisRawrfv0_6"), (.rawrf, [.v07], py! "BorealisRawrf")]

/-- The name of the format of a version and a type. -/
def IsFormat (v : Version) (t : FType) (n : PyStr) : Prop := ∃ vs, (t, vs, n) ∈ formatNames ∧ v ∈ vs

end Verif.Bor
