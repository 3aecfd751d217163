import Verif.Borealis.SpecShapes
/-!
# The tables of the formats agree with the shapes of the records

`Coherent` is a decidable statement on the tables of a format; it is checked for all formats.
-/
namespace Verif.Bor
open Verif

/-- The same in all records. -/
def Q.common : Q → Bool
  | .seqs | .beams | .blanked => false
  | _ => true

/-- An array field other than `pulse_phase_offset` that can differ between records. -/
def IsArr (f : Format) (k : PyStr) : Prop :=
  k ∈ f.unshared ∧ f.single.get? k = none ∧ (f.arrays.get? k).isSome = true ∧
    k ≠ py! "pulse_phase_offset"

instance (f : Format) (k : PyStr) : Decidable (IsArr f k) := by unfold IsArr; infer_instance

/-- `mapM` for `Option`. -/
def mapO {α β : Type} (g : α → Option β) : List α → Option (List β)
  | [] => some []
  | x :: l =>
    match g x, mapO g l with
    | some y, some ys => some (y :: ys)
    | _, _ => none

/-- What a dimension function counts at most. -/
def denA (f : Format) (t : FType) : DimA → Option Q
  | .maxSeqs => some .seqs
  | .maxBeams => some .beams
  | .maxLen k => if k = py! "blanked_samples" ∧ IsArr f k then some .blanked else none
  | .maxPpo => none
  | .firstElem k i =>
    if k ∈ dimFields ∧ k ∈ f.arrays.keys then ((mainShape t)[i]?).filter Q.common else none
  | .firstShape k i =>
    if IsArr f k then ((((shapeTable t).get? k).getD [])[i]?).filter Q.common else none

/-- What a dimension function counts in a record. -/
def denS (f : Format) (t : FType) : DimS → Option Q
  | .elem k =>
    if k = py! "num_sequences" then some .seqs
    else if k = py! "num_beams" then some .beams
    else if k = py! "num_blanked_samples" ∧
      f.genArray.get? k = some (.lens (py! "blanked_samples")) then some .blanked
    else none
  | .shape k (j + 1) =>
    if IsArr f k then ((((shapeTable t).get? k).getD [])[j]?).filter Q.common else none
  | _ => none

/-- The array of the type can be filled. -/
def Fillable (ty : Ty) : Prop :=
  ty = .i64 ∨ ty = .u32 ∨ ty = .u8 ∨ ty = .f32 ∨ ty = .f64 ∨ ty = .c64 ∨ ty = .npBool ∨ ty = .str

instance (ty : Ty) : Decidable (Fillable ty) := by unfold Fillable; infer_instance

/-- An entry of `unshared_fields_dims_array`. -/
def CohA (f : Format) (t : FType) (p : PyStr × List DimA) : Bool :=
  match f.single.get? p.1 with
  | some ty => decide (p.2 = [] ∧ Fillable ty)
  | none =>
    match f.arrays.get? p.1 with
    | some ty => decide (Fillable ty ∧ ty ≠ .str ∧ ty ≠ .npBool ∧
        if p.1 = py! "pulse_phase_offset" then p.2 = [.maxPpo]
        else mapO (denA f t) p.2 = some (((shapeTable t).get? p.1).getD []))
    | none => false

/-- An entry of `unshared_fields_dims_site`. -/
def CohS (f : Format) (t : FType) (p : PyStr × List DimS) : Bool :=
  match f.single.get? p.1 with
  | some _ => true
  | none =>
    decide (if p.1 = py! "pulse_phase_offset" then p.2 = [.ppo]
      else mapO (denS f t) p.2 = some (((shapeTable t).get? p.1).getD []))

/-- An entry of `array_specific_fields_generate`. -/
def CohGA (f : Format) (p : PyStr × GenA) : Bool :=
  match p.2 with
  | .lens k => decide (IsArr f k ∧ ((shapeTable .rawacf).get? k).getD [] ≠ [] ∧
      (k = py! "beam_nums" ∨ k = py! "blanked_samples"))
  | .const _ _ => true

/-- An entry of `site_specific_fields_generate`. -/
def CohGS (f : Format) (t : FType) (p : PyStr × GenS) : Bool :=
  match p.2 with
  | .dims ds => decide (p.1 ∈ dimFields ∧ p.1 ∈ f.arrays.keys ∧ mapO (denS f t) ds = some (mainShape t))
  | .const _ l => decide (p.1 ∈ descriptorFields ∧ p.1 ∈ f.arrays.keys ∧ l = dimNames t)

/-- The reshaped fields. -/
def CohR (f : Format) (t : FType) (flat : List PyStr) : Bool :=
  match f.reshape with
  | none => decide (flat = [])
  | some (df, ks) =>
    decide (ks = flat ∧ df ∈ dimFields ∧ df ∈ f.arrays.keys ∧ df ∉ f.unshared ∧ df ∉ f.shared ∧
      (∀ k ∈ ks, IsArr f k ∧ k ≠ py! "beam_nums" ∧ k ≠ py! "blanked_samples" ∧
        k ≠ py! "num_sequences" ∧ k ∉ dimFields ∧ k ∉ f.shared ∧ k ∉ descriptorFields ∧
        k ≠ py! "sqn_timestamps" ∧
        ((shapeTable t).get? k).getD [] = mainShape t))

/-- The tables of a format belong to the shapes. -/
structure Coherent (f : Format) (t : FType) (flat : List PyStr) : Prop where
  restr : f.restructureable = true
  nodupU : f.unshared.Nodup
  nodupS : f.shared.Nodup
  nodupGA : f.arraySpecific.Nodup
  nodupGS : f.siteSpecific.Nodup
  nodupD : f.dimsSite.keys.Nodup
  sub : ∀ k ∈ f.unshared, k ∈ f.dimsSite.keys
  sup : ∀ k ∈ f.dimsSite.keys, k ∈ f.unshared
  cohA : ∀ p ∈ f.dimsArray, CohA f t p = true
  cohS : ∀ p ∈ f.dimsSite, CohS f t p = true
  cohGA : ∀ p ∈ f.genArray, CohGA f p = true
  cohGS : ∀ p ∈ f.genSite, CohGS f t p = true
  beams : f.genArray.get? (py! "num_beams") = some (.lens (py! "beam_nums"))
  disjA : ∀ k ∈ f.arraySpecific, k ∉ f.unshared ∧ k ∉ f.shared
  disjS : ∀ k ∈ f.siteSpecific, k ∉ f.unshared ∧ k ∉ f.shared
  seqs : f.single.get? (py! "num_sequences") = some .i64 ∧ py! "num_sequences" ∈ f.unshared
  beamNums : IsArr f (py! "beam_nums")
  times : IsArr f (py! "sqn_timestamps")
  reshape : CohR f t flat = true
  flatten : f.flatten = flat
  nodupF : flat.Nodup
  shapes : ((shapeTable t).get? (py! "beam_nums")).getD [] = [.beams] ∧
    ((shapeTable t).get? (py! "sqn_timestamps")).getD [] = [.seqs] ∧
    ((shapeTable t).get? (py! "blanked_samples")).getD [] = [.blanked]

theorem coherent_antennasIq4 : Coherent .antennasIq4 .antennasIq (flatFields .v04 .antennasIq) := by
  constructor <;> decide +kernel

theorem coherent_bfiq4 : Coherent .bfiq4 .bfiq (flatFields .v04 .bfiq) := by
  constructor <;> decide +kernel

theorem coherent_rawacf4 : Coherent .rawacf4 .rawacf (flatFields .v04 .rawacf) := by
  constructor <;> decide +kernel

theorem coherent_antennasIq5 : Coherent .antennasIq5 .antennasIq (flatFields .v05 .antennasIq) := by
  constructor <;> decide +kernel

theorem coherent_bfiq5 : Coherent .bfiq5 .bfiq (flatFields .v05 .bfiq) := by
  constructor <;> decide +kernel

theorem coherent_rawacf5 : Coherent .rawacf5 .rawacf (flatFields .v05 .rawacf) := by
  constructor <;> decide +kernel

theorem coherent_antennasIq6 : Coherent .antennasIq6 .antennasIq (flatFields .v06 .antennasIq) := by
  constructor <;> decide +kernel

theorem coherent_bfiq6 : Coherent .bfiq6 .bfiq (flatFields .v06 .bfiq) := by
  constructor <;> decide +kernel

theorem coherent_rawacf6 : Coherent .rawacf6 .rawacf (flatFields .v06 .rawacf) := by
  constructor <;> decide +kernel

theorem coherent_antennasIq7 : Coherent .antennasIq7 .antennasIq (flatFields .v07 .antennasIq) := by
  constructor <;> decide +kernel

theorem coherent_bfiq7 : Coherent .bfiq7 .bfiq (flatFields .v07 .bfiq) := by
  constructor <;> decide +kernel

theorem coherent_rawacf7 : Coherent .rawacf7 .rawacf (flatFields .v07 .rawacf) := by
  constructor <;> decide +kernel

/-- All formats that can be restructured. -/
theorem coherent (v : Version) (t : FType) (ht : t ≠ .rawrf) :
    Coherent (formatOf v t) t (flatFields v t) := by
  cases t
  · cases v
    · exact coherent_antennasIq4
    · exact coherent_antennasIq4
    · exact coherent_antennasIq4
    · exact coherent_antennasIq5
    · exact coherent_antennasIq6
    · exact coherent_antennasIq7
  · cases v
    · exact coherent_bfiq4
    · exact coherent_bfiq4
    · exact coherent_bfiq4
    · exact coherent_bfiq5
    · exact coherent_bfiq6
    · exact coherent_bfiq7
  · cases v
    · exact coherent_rawacf4
    · exact coherent_rawacf4
    · exact coherent_rawacf4
    · exact coherent_rawacf5
    · exact coherent_rawacf6
    · exact coherent_rawacf7
  · exact absurd rfl ht

/-- The shapes with a dimension that may be zero have no other dimension. -/
theorem shapeOf_pos (o : Ppo) (t : FType) (k : PyStr) :
    shapeOf o t k = [.blanked] ∨ shapeOf o t k = [.none] ∨
      ∀ q ∈ shapeOf o t k, q ≠ .blanked ∧ q ≠ .none := by
  unfold shapeOf
  split
  · cases o <;> decide
  · cases hg : (shapeTable t).get? k with
    | none => simp
    | some s =>
      have hm := Dict.mem_of_get? hg
      have h1 : ∀ p ∈ shapeTable t, p.2 = [.blanked] ∨ p.2 = [.none] ∨
          ∀ q ∈ p.2, q ≠ .blanked ∧ q ≠ .none := by
        cases t <;> decide
      exact h1 _ hm

end Verif.Bor
