import Verif.Borealis.Lemmas.MaxDims
/-!
# Facts on the tables of the formats used in restructuring files
-/
namespace Verif.Bor
open Verif

/-- The type of a generated field of lengths. -/
def lensTyped (f : Format) (p : PyStr × GenA) : Bool :=
  match p.2 with
  | .lens _ => decide (f.single.get? p.1 = some .u32)
  | .const _ _ => true

/-- What is needed of the tables of a format for restructuring files. -/
structure Tabled (f : Format) (t : FType) : Prop where
  same : ∀ k ∈ f.shared ++ f.unshared,
    f.siteSingleTypes.get? k = f.single.get? k ∧ f.siteArrayTypes.get? k = f.arrays.get? k
  bools : ∀ k ∈ boolFields f, (k ∈ f.shared ∨ k ∈ f.unshared) ∧ f.siteSingleTypes.get? k = some .npBool
  plain : ∀ k ∈ f.siteSingleTypes.keys ++ f.siteArrayTypes.keys, k ∉ defaultAttrs
  disj : ∀ k ∈ f.single.keys, k ∉ f.arrays.keys
  total : ∀ k ∈ f.shared ++ f.unshared, k ∈ f.single.keys ∨ k ∈ f.arrays.keys
  pulses : f.siteArrayTypes.get? (py! "pulses") = some .u32
  dims : ∀ k ∈ dimFields, k ∈ f.arrays.keys → f.siteArrayTypes.get? k = some .u32
  ppo : ppoName ∈ f.unshared → (mainShape t)[1]? = some .seqs ∧ py! "data_dimensions" ∈ f.arrays.keys
  lens : ∀ p ∈ f.genArray, lensTyped f p = true
  texts : ∀ k ∈ f.unshared, f.arrays.get? k ≠ some .npStr

theorem tabled_antennasIq4 : Tabled .antennasIq4 .antennasIq := by
  constructor <;> decide +kernel

theorem tabled_antennasIq5 : Tabled .antennasIq5 .antennasIq := by
  constructor <;> decide +kernel

theorem tabled_antennasIq6 : Tabled .antennasIq6 .antennasIq := by
  constructor <;> decide +kernel

theorem tabled_antennasIq7 : Tabled .antennasIq7 .antennasIq := by
  constructor <;> decide +kernel

theorem tabled_bfiq4 : Tabled .bfiq4 .bfiq := by
  constructor <;> decide +kernel

theorem tabled_bfiq5 : Tabled .bfiq5 .bfiq := by
  constructor <;> decide +kernel

theorem tabled_bfiq6 : Tabled .bfiq6 .bfiq := by
  constructor <;> decide +kernel

theorem tabled_bfiq7 : Tabled .bfiq7 .bfiq := by
  constructor <;> decide +kernel

theorem tabled_rawacf4 : Tabled .rawacf4 .rawacf := by
  constructor <;> decide +kernel

theorem tabled_rawacf5 : Tabled .rawacf5 .rawacf := by
  constructor <;> decide +kernel

theorem tabled_rawacf6 : Tabled .rawacf6 .rawacf := by
  constructor <;> decide +kernel

theorem tabled_rawacf7 : Tabled .rawacf7 .rawacf := by
  constructor <;> decide +kernel

/-- All formats that can be restructured. -/
theorem tabled (v : Version) (t : FType) (ht : t ≠ .rawrf) : Tabled (formatOf v t) t := by
  cases t
  · cases v
    · exact tabled_antennasIq4
    · exact tabled_antennasIq4
    · exact tabled_antennasIq4
    · exact tabled_antennasIq5
    · exact tabled_antennasIq6
    · exact tabled_antennasIq7
  · cases v
    · exact tabled_bfiq4
    · exact tabled_bfiq4
    · exact tabled_bfiq4
    · exact tabled_bfiq5
    · exact tabled_bfiq6
    · exact tabled_bfiq7
  · cases v
    · exact tabled_rawacf4
    · exact tabled_rawacf4
    · exact tabled_rawacf4
    · exact tabled_rawacf5
    · exact tabled_rawacf6
    · exact tabled_rawacf7
  · exact absurd rfl ht

end Verif.Bor
