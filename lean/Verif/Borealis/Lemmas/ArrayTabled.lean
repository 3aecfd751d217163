import Verif.Borealis.Lemmas.PpoCongr
import Verif.Borealis.Lemmas.Keys
/-!
# Facts on the tables of the formats used in making records of array files
-/
namespace Verif.Bor
open Verif

/-- The fields a dimension is computed from. -/
def DimS.fields : DimS → List PyStr
  | .elem f => [f]
  | .shape f _ => [f]
  | .lenElem _ => []
  | .ppo => [ppoName, py! "num_sequences"]

/-- The field is an array of numbers in an array file. -/
def isNumeric (f : Format) (k : PyStr) : Bool := (datasetTypes f).keys.contains k && (datasetTypes f).get? k != some .npStr

/-- A dimension is computed from arrays of numbers. -/
def goodDim (f : Format) (d : DimS) : Bool :=
  (d.fields.all fun k => isNumeric f k && f.arrayFields.contains k) &&
    match d with
    | .elem k => countFields.contains k
    | _ => true

/-- The dimensions of a generated field. -/
def GenS.dimsOf : GenS → List DimS
  | .const _ _ => []
  | .dims l => l

/-- What is needed of the tables of a format for making records of an array file. -/
structure ArrayTabled (f : Format) : Prop where
  sharedSingle : ∀ k ∈ f.shared, k ∈ f.siteSingleTypes.keys → k ∈ f.arraySingleTypes.keys
  sharedArray : ∀ k ∈ f.shared, k ∉ f.siteSingleTypes.keys → k ∈ (datasetTypes f).keys ∧
    (f.arrays.get? k = some .npStr ↔ (datasetTypes f).get? k = some .npStr)
  single : ∀ k ∈ f.unshared, k ∈ f.single.keys → k ∈ (datasetTypes f).keys ∧
    (f.single.get? k = some .str ↔ (datasetTypes f).get? k = some .npStr)
  array : ∀ k ∈ f.unshared, k ∉ f.single.keys → k ∈ f.arrays.keys ∧ isNumeric f k = true
  gen : ∀ p ∈ f.genSite, ∀ d ∈ p.2.dimsOf, goodDim f d = true
  dims : ∀ p ∈ f.dimsSite, ∀ d ∈ p.2, goodDim f d = true
  ppo : ∀ p ∈ f.dimsSite, p.1 ≠ ppoName → DimS.ppo ∉ p.2
  ppoDims : f.dimsSite.get? ppoName = none ∨ f.dimsSite.get? ppoName = some [.ppo]
  plain : ∀ k ∈ f.arraySingleTypes.keys ++ (datasetTypes f).keys, k ∉ defaultAttrs
  times : isNumeric f (py! "sqn_timestamps") = true
  same : ∀ k ∈ f.arrays.keys ++ f.siteArrayTypes.keys, f.arrays.get? k = f.siteArrayTypes.get? k
  nodup : (f.siteSingleTypes.keys ++ f.arrays.keys).Nodup
  flat : ppoName ∉ f.flatten ∧ py! "pulses" ∉ f.flatten ∧ py! "borealis_git_hash" ∉ f.flatten
  gens : ppoName ∉ f.siteSpecific ∧ py! "pulses" ∉ f.siteSpecific ∧ py! "borealis_git_hash" ∉ f.siteSpecific

theorem arrayTabled_antennasIq4 : ArrayTabled .antennasIq4 := by
  constructor <;> decide +kernel

theorem arrayTabled_antennasIq5 : ArrayTabled .antennasIq5 := by
  constructor <;> decide +kernel

theorem arrayTabled_antennasIq6 : ArrayTabled .antennasIq6 := by
  constructor <;> decide +kernel

theorem arrayTabled_antennasIq7 : ArrayTabled .antennasIq7 := by
  constructor <;> decide +kernel

theorem arrayTabled_bfiq4 : ArrayTabled .bfiq4 := by
  constructor <;> decide +kernel

theorem arrayTabled_bfiq5 : ArrayTabled .bfiq5 := by
  constructor <;> decide +kernel

theorem arrayTabled_bfiq6 : ArrayTabled .bfiq6 := by
  constructor <;> decide +kernel

theorem arrayTabled_bfiq7 : ArrayTabled .bfiq7 := by
  constructor <;> decide +kernel

theorem arrayTabled_rawacf4 : ArrayTabled .rawacf4 := by
  constructor <;> decide +kernel

theorem arrayTabled_rawacf5 : ArrayTabled .rawacf5 := by
  constructor <;> decide +kernel

theorem arrayTabled_rawacf6 : ArrayTabled .rawacf6 := by
  constructor <;> decide +kernel

theorem arrayTabled_rawacf7 : ArrayTabled .rawacf7 := by
  constructor <;> decide +kernel

theorem arrayTabled (v : Version) (t : FType) (ht : t ≠ .rawrf) : ArrayTabled (formatOf v t) := by
  cases t
  · cases v
    · exact arrayTabled_antennasIq4
    · exact arrayTabled_antennasIq4
    · exact arrayTabled_antennasIq4
    · exact arrayTabled_antennasIq5
    · exact arrayTabled_antennasIq6
    · exact arrayTabled_antennasIq7
  · cases v
    · exact arrayTabled_bfiq4
    · exact arrayTabled_bfiq4
    · exact arrayTabled_bfiq4
    · exact arrayTabled_bfiq5
    · exact arrayTabled_bfiq6
    · exact arrayTabled_bfiq7
  · cases v
    · exact arrayTabled_rawacf4
    · exact arrayTabled_rawacf4
    · exact arrayTabled_rawacf4
    · exact arrayTabled_rawacf5
    · exact arrayTabled_rawacf6
    · exact arrayTabled_rawacf7
  · exact absurd rfl ht

end Verif.Bor
