import Verif.Borealis.Spec
import Verif.Borealis.Lemmas.Versions
/-!
# C36, C37: versions and tables of the Borealis formats
-/
namespace Verif.Bor
open Verif

/-! ## C36 -/

/-- **C36** The hash selects the version `w` exactly when it is the name of `w`, possibly followed
by a patch level (from a dot on) or a commit (from a dash on), whatever they are. -/
theorem C36_version (h : PyStr) (w : Version) :
    lookupVersion (versionOf h) = some w ↔ ∃ s, h = w.name ++ s ∧ VersionTail s := by
  rw [lookupVersion_iff]
  have key : ∀ b : PyStr, (∀ c ∈ b, c ≠ '.' ∧ c ≠ '-') → (versionOf h = py! "v0" ++ '.' :: b ↔
      ∃ s : PyStr, h = py! "v0" ++ '.' :: b ++ s ∧ VersionTail s) :=
    fun b hb => versionOf_iff (py! "v0") b (by decide) hb h
  cases w
  · exact key (py! "2") (by decide)
  · exact key (py! "3") (by decide)
  · exact key (py! "4") (by decide)
  · exact key (py! "5") (by decide)
  · exact key (py! "6") (by decide)
  · exact key (py! "7") (by decide)

/-- **C36** Every other hash is rejected. -/
theorem C36_unlisted (h : PyStr) :
    lookupVersion (versionOf h) = none ↔ ∀ (w : Version) s, VersionTail s → h ≠ w.name ++ s := by
  constructor
  · intro hn w s hs he
    rw [(C36_version h w).2 ⟨s, he, hs⟩] at hn
    cases hn
  · intro hn
    cases hl : lookupVersion (versionOf h) with
    | none => rfl
    | some w =>
      obtain ⟨s, he, hs⟩ := (C36_version h w).1 hl
      exact absurd he (hn w s hs)

/-- **C36** Different versions have different names, so no hash selects two. -/
theorem C36_names (v w : Version) (h : v.name = w.name) : v = w := by
  cases v <;> cases w <;> first | rfl | exact absurd h (by decide)

/-- **C36** The four classes of v0.2 and v0.3 are those of v0.4; the later versions have their own
type tables. -/
theorem C36_formats (t : FType) :
    formatOf .v02 t = formatOf .v04 t ∧ formatOf .v03 t = formatOf .v04 t ∧
    ((formatOf .v04 t).single ≠ (formatOf .v05 t).single) ∧
    ((formatOf .v05 t).single ≠ (formatOf .v06 t).single) ∧
    ((formatOf .v06 t).arrays ≠ (formatOf .v07 t).arrays) := by
  cases t <;> exact ⟨rfl, rfl, by decide +kernel, by decide +kernel, by decide +kernel⟩

example : lookupVersion (versionOf (py! "v0.5.1-61-gc13ab34")) = some .v05 :=
  (C36_version _ _).2 ⟨py! ".1-61-gc13ab34", rfl, .inr ⟨_, .inl rfl⟩⟩

example : lookupVersion (versionOf (py! "v0.7-dirty")) = some .v07 := by decide +kernel

example : lookupVersion (versionOf (py! "v0.55-61")) = none := by decide +kernel

example : ∀ (w : Version) s, VersionTail s → py! "v1.0" ≠ w.name ++ s :=
  (C36_unlisted _).1 (by decide +kernel)

/-! ## C37 -/

/-- The fields of a format. -/
def Format.allFields (f : Format) : List PyStr := f.single.keys ++ f.arrays.keys

/-- Exactly one of four statements. -/
def ExactlyOne (a b c d : Prop) : Prop :=
  (a ∧ ¬ b ∧ ¬ c ∧ ¬ d) ∨ (¬ a ∧ b ∧ ¬ c ∧ ¬ d) ∨ (¬ a ∧ ¬ b ∧ c ∧ ¬ d) ∨ (¬ a ∧ ¬ b ∧ ¬ c ∧ d)

instance {a b c d : Prop} [Decidable a] [Decidable b] [Decidable c] [Decidable d] :
    Decidable (ExactlyOne a b c d) := by unfold ExactlyOne; infer_instance

/-- The classes of fields: shared, unshared, generated in site files only, generated in array
files (and possibly also in site files). -/
def ClassifiedOnce (f : Format) (k : PyStr) : Prop :=
  ExactlyOne (k ∈ f.shared) (k ∈ f.unshared) (k ∈ f.siteSpecific ∧ k ∉ f.arraySpecific)
    (k ∈ f.arraySpecific)

instance (f : Format) (k : PyStr) : Decidable (ClassifiedOnce f k) := by
  unfold ClassifiedOnce; infer_instance

/-- **C37** Every field of a restructurable format is in exactly one class, except
`pulse_phase_offset` of bfiq and antennas_iq from v0.6 on, which is shared and unshared
(`C37_violation`). -/
theorem C37_classes_partial (v : Version) (t : FType) (ht : t ≠ .rawrf) (k : PyStr)
    (hk : k ∈ (formatOf v t).allFields) :
    ClassifiedOnce (formatOf v t) k ∨
      k = py! "pulse_phase_offset" ∧ (v = .v06 ∨ v = .v07) ∧ (t = .bfiq ∨ t = .antennasIq) ∧
        k ∈ (formatOf v t).shared ∧ k ∈ (formatOf v t).unshared ∧
        k ∉ (formatOf v t).siteSpecific ∧ k ∉ (formatOf v t).arraySpecific := by
  have h : ∀ k ∈ (formatOf v t).allFields, ClassifiedOnce (formatOf v t) k ∨
      k = py! "pulse_phase_offset" ∧ (v = .v06 ∨ v = .v07) ∧ (t = .bfiq ∨ t = .antennasIq) ∧
        k ∈ (formatOf v t).shared ∧ k ∈ (formatOf v t).unshared ∧
        k ∉ (formatOf v t).siteSpecific ∧ k ∉ (formatOf v t).arraySpecific := by
    cases v <;> cases t <;> first | exact absurd rfl ht | decide +kernel
  exact h k hk

/-- **C37** Every field of the classes is a field of the format, and every field has one type. -/
theorem C37_types (v : Version) (t : FType) (ht : t ≠ .rawrf) :
    (formatOf v t).allFields.Nodup ∧
    ∀ k, k ∈ (formatOf v t).siteFields ∨ k ∈ (formatOf v t).arrayFields ↔ k ∈ (formatOf v t).allFields := by
  have h : (formatOf v t).allFields.Nodup ∧
      (∀ k ∈ (formatOf v t).siteFields ++ (formatOf v t).arrayFields, k ∈ (formatOf v t).allFields) ∧
      (∀ k ∈ (formatOf v t).allFields, k ∈ (formatOf v t).siteFields ++ (formatOf v t).arrayFields) := by
    cases v <;> cases t <;> first | exact absurd rfl ht | decide +kernel
  refine ⟨h.1, fun k => ⟨fun hk => h.2.1 k (List.mem_append.2 hk), fun hk => List.mem_append.1 (h.2.2 k hk)⟩⟩

/-- **C37** The unshared fields of the two dimension tables are the same.  A field has dimensions
in the array structure exactly when it is an array field, and then as many rules in both
structures. -/
theorem C37_dimensions (v : Version) (t : FType) (ht : t ≠ .rawrf) :
    (formatOf v t).dimsSite.keys = (formatOf v t).unshared ∧
    (∀ k ∈ (formatOf v t).unshared,
      (k ∈ (formatOf v t).single.keys ↔ (formatOf v t).dimsArray.get? k = some [])) ∧
    (∀ k ∈ (formatOf v t).unshared, k ∈ (formatOf v t).arrays.keys →
      ((formatOf v t).dimsArray.get? k).map List.length = ((formatOf v t).dimsSite.get? k).map List.length) := by
  cases v <;> cases t <;> first | exact absurd rfl ht | exact ⟨by decide +kernel, by decide +kernel, by decide +kernel⟩

/-- **C37** The generated fields are exactly the ones that are not copied: a field of the site
structure is copied from the arrays unless it is site specific, a field of the array structure is
copied from the records unless it is array specific, and no copied field is generated. -/
theorem C37_generated (v : Version) (t : FType) (ht : t ≠ .rawrf) (k : PyStr) :
    ((k ∈ (formatOf v t).siteFields ∧ k ∉ (formatOf v t).shared ∧ k ∉ (formatOf v t).unshared ↔
      k ∈ (formatOf v t).siteSpecific)) ∧
    ((k ∈ (formatOf v t).arrayFields ∧ k ∉ (formatOf v t).shared ∧ k ∉ (formatOf v t).unshared ↔
      k ∈ (formatOf v t).arraySpecific)) := by
  have h : (∀ k ∈ (formatOf v t).siteSpecific, k ∉ (formatOf v t).shared ∧ k ∉ (formatOf v t).unshared) ∧
      (∀ k ∈ (formatOf v t).arraySpecific, k ∉ (formatOf v t).shared ∧ k ∉ (formatOf v t).unshared) := by
    cases v <;> cases t <;> first | exact absurd rfl ht | decide +kernel
  constructor
  · constructor
    · rintro ⟨hk, h1, h2⟩
      simp only [Format.siteFields, List.mem_append] at hk
      exact (hk.resolve_left fun h => h.elim h1 h2)
    · intro hk
      exact ⟨by simp [Format.siteFields, hk], h.1 k hk⟩
  · constructor
    · rintro ⟨hk, h1, h2⟩
      simp only [Format.arrayFields, List.mem_append] at hk
      exact (hk.resolve_left fun h => h.elim h1 h2)
    · intro hk
      exact ⟨by simp [Format.arrayFields, hk], h.2 k hk⟩

/-- The type a generated site field gets. -/
def GenS.ty : GenS → Ty
  | .const t _ => t
  | .dims _ => .u32

/-- The type a generated array field gets. -/
def GenA.ty : GenA → Ty
  | .const t _ => t
  | .lens _ => .u32

/-- **C37** Every generated site field gets the type that the format lists for it, except
`data_descriptors` of bfiq in v0.7 (`C37_descriptors_violation`). -/
theorem C37_generated_types_partial (v : Version) (t : FType) (ht : t ≠ .rawrf) (k : PyStr) (g : GenS)
    (h : (k, g) ∈ (formatOf v t).genSite) :
    (formatOf v t).siteArrayTypes.get? k = some g.ty ∨ v = .v07 ∧ t = .bfiq ∧ k = py! "data_descriptors" := by
  have h' : ∀ p ∈ (formatOf v t).genSite,
      (formatOf v t).siteArrayTypes.get? p.1 = some p.2.ty ∨
        v = .v07 ∧ t = .bfiq ∧ p.1 = py! "data_descriptors" := by
    cases v <;> cases t <;> first | exact absurd rfl ht | decide +kernel
  exact h' (k, g) h

/-- **C37** Every generated array field gets the type that the format lists for it, except
`data_descriptors` of bfiq and antennas_iq in v0.7. -/
theorem C37_generated_array_types_partial (v : Version) (t : FType) (ht : t ≠ .rawrf) (k : PyStr)
    (g : GenA) (h : (k, g) ∈ (formatOf v t).genArray) :
    (formatOf v t).arrayArrayTypes.get? k = some g.ty ∨
      v = .v07 ∧ (t = .bfiq ∨ t = .antennasIq) ∧ k = py! "data_descriptors" := by
  have h' : ∀ p ∈ (formatOf v t).genArray,
      (formatOf v t).arrayArrayTypes.get? p.1 = some p.2.ty ∨
        v = .v07 ∧ (t = .bfiq ∨ t = .antennasIq) ∧ p.1 = py! "data_descriptors" := by
    cases v <;> cases t <;> first | exact absurd rfl ht | decide +kernel
  exact h' (k, g) h

/-- **C37** violated: in v0.7 bfiq the generated `data_descriptors` are strings where the format
lists bytes. -/
theorem C37_descriptors_violation : ∃ g, (py! "data_descriptors", g) ∈ Format.bfiq7.genSite ∧
    Format.bfiq7.siteArrayTypes.get? (py! "data_descriptors") = some .npBytes ∧ g.ty = .npStr :=
  ⟨.const .npStr [py! "num_antenna_arrays", py! "num_sequences", py! "num_beams", py! "num_samps"],
    by decide +kernel, by decide +kernel, rfl⟩

/-- **C37** violated: `pulse_phase_offset` is both shared and unshared. -/
theorem C37_violation (v : Version) (t : FType) (hv : v = .v06 ∨ v = .v07) (ht : t = .bfiq ∨ t = .antennasIq) :
    py! "pulse_phase_offset" ∈ (formatOf v t).allFields ∧
    ¬ ClassifiedOnce (formatOf v t) (py! "pulse_phase_offset") := by
  rcases hv with rfl | rfl <;> rcases ht with rfl | rfl <;> decide +kernel

/-- **C37** The rawrf formats can be restructured in no version; no field is classified, so the
tables of its site files are empty. -/
theorem C37_rawrf (v : Version) :
    (formatOf v .rawrf).restructureable = false ∧ (formatOf v .rawrf).siteFields = [] ∧
    (formatOf v .rawrf).siteSingleTypes = [] ∧ (formatOf v .rawrf).siteArrayTypes = [] ∧
    (formatOf v .rawrf).allFields ≠ [] := by
  cases v <;> decide +kernel

example : py! "main_acfs" ∈ Format.rawacf7.unshared ∧ py! "pulses" ∈ Format.rawacf7.shared ∧
    py! "num_beams" ∈ Format.rawacf7.arraySpecific ∧ py! "data_dimensions" ∈ Format.rawacf7.siteSpecific ∧
    (∀ k ∈ Format.rawacf7.allFields, ClassifiedOnce Format.rawacf7 k) := by decide +kernel

end Verif.Bor
