import Verif.Borealis.Lemmas.StackCongr
import Verif.Borealis.Props.FileRoundTrip
/-!
# C65: from arrays to records and back
-/
namespace Verif.Bor
open Verif

/-- Restructuring does not look at the field whose type changes (`C38_descriptors_violation`). -/
theorem descriptors_unused : ∀ v ∈ Version.all, ∀ t ∈ [FType.antennasIq, .bfiq, .rawacf],
    py! "data_descriptors" ∉ (formatOf v t).sources := by decide +kernel

/-- **C65** Arrays that were made from the records of a slice are made into records, and these into exactly the same arrays
again: same fields in the same order, same shapes, same elements, also the padding.

Partial: for the records of C38 (no zero dimension, or no blanked samples at all; `FlatPpoOK`).  Arrays that were not made
from records can change, see `C65_violation`. -/
theorem C65_partial (v : Version) (t : FType) (ht : t ≠ .rawrf) (o : Ppo) (c : Common) (rs : Records)
    (tkey : Elt → Except Err PyStr)
    (h : SiteRecords (formatOf v t) t o c (flatFields v t) rs)
    (h1 : OneSlice tkey (formatOf v t) t rs) (hf : FlatPpoOK o c rs) (A : Rec) (hA : siteToArray (formatOf v t) rs = .ok A) :
    ∃ out, arrayToSite tkey (formatOf v t) A = .ok out ∧ siteToArray (formatOf v t) out = .ok A := by
  obtain ⟨A', out, h2, h3, h4, h5⟩ := roundtrip (coherent v t ht) h h1 hf
  rw [hA] at h2
  cases h2
  refine ⟨out, h3, ?_⟩
  rw [← hA]
  refine siteToArray_agree (allRec_of_index h4 fun i hi hi' k hk => ?_)
  refine (h5 i hi' hi).2 k (kept v t ht k ?_)
  rintro ⟨-, -, rfl⟩
  refine descriptors_unused v (by cases v <;> decide) t ?_ hk
  cases t <;> first | exact absurd rfl ht | decide

/-- Any number of trips from arrays to records and back. -/
def trips (tkey : Elt → Except Err PyStr) (f : Format) : Nat → Rec → Except Err Rec
  | 0, A => .ok A
  | n + 1, A => do
    let out ← arrayToSite tkey f A
    let A' ← siteToArray f out
    trips tkey f n A'

/-- **C65** So any number of further trips changes nothing.  (Partial as above.) -/
theorem C65_stable_partial (v : Version) (t : FType) (ht : t ≠ .rawrf) (o : Ppo) (c : Common) (rs : Records)
    (tkey : Elt → Except Err PyStr)
    (h : SiteRecords (formatOf v t) t o c (flatFields v t) rs)
    (h1 : OneSlice tkey (formatOf v t) t rs) (hf : FlatPpoOK o c rs) (A : Rec) (hA : siteToArray (formatOf v t) rs = .ok A)
    (n : Nat) : trips tkey (formatOf v t) n A = .ok A := by
  obtain ⟨out, h2, h3⟩ := C65_partial v t ht o c rs tkey h h1 hf A hA
  induction n with
  | zero => rfl
  | succ n ih => rw [trips, bind_of_ok h2, bind_of_ok h3, ih]

/-- The arrays of two records with another value in the padding of the timestamps. -/
def otherPadding : Except Err Rec := do
  let A ← siteToArray (formatOf .v07 .rawacf) (twoRecords .v07 .rawacf .none)
  match A.get? (py! "sqn_timestamps") with
  | some (.arr a) => .ok (A.set (py! "sqn_timestamps") (.arr { a with data := a.data.set 2 (.flt 0) }))
  | _ => .error .keyError

/-- **C65** violated by arrays with other values outside the dimensions of the records: these are lost. -/
theorem C65_violation : ∃ A out A', otherPadding = .ok A ∧ arrayToSite sampleKey (formatOf .v07 .rawacf) A = .ok out ∧
    siteToArray (formatOf .v07 .rawacf) out = .ok A' ∧
    siteToArray (formatOf .v07 .rawacf) (twoRecords .v07 .rawacf .none) = .ok A' ∧
    A.get? (py! "sqn_timestamps") ≠ A'.get? (py! "sqn_timestamps") :=
  ⟨_, _, _, rfl, rfl, rfl, rfl, by decide +kernel⟩

example : ∃ A out, siteToArray (formatOf .v06 .bfiq) (twoRecords .v06 .bfiq .perSeq) = .ok A ∧
    arrayToSite sampleKey (formatOf .v06 .bfiq) A = .ok out ∧ siteToArray (formatOf .v06 .bfiq) out = .ok A := by
  have h : SiteRecords (formatOf .v06 .bfiq) .bfiq .perSeq sampleCommon (flatFields .v06 .bfiq)
      (twoRecords .v06 .bfiq .perSeq) := siteRecordsB_sound (by decide +kernel)
  have h1 : OneSlice sampleKey (formatOf .v06 .bfiq) .bfiq (twoRecords .v06 .bfiq .perSeq) := oneSliceB_sound (by decide +kernel)
  obtain ⟨A, _, hA, -⟩ := roundtrip (coherent .v06 .bfiq nofun) h h1 nofun
  obtain ⟨out, h2, h3⟩ := C65_partial .v06 .bfiq nofun _ _ _ _ h h1 nofun A hA
  exact ⟨A, out, hA, h2, h3⟩

end Verif.Bor
