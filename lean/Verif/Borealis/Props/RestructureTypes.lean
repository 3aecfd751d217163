import Verif.Borealis.Lemmas.ArrayFileRows
import Verif.Borealis.Props.Formats
import Verif.Borealis.Props.Restructure
/-!
# C37, C38: the fields of the two structures, types after restructuring, formats that are not restructured
-/
namespace Verif.Bor
open Verif

/-- **C37** Site files have all fields of the format but the numbers of beams and of blanked samples, array files all but
the dimensions of the data. -/
theorem C37_structures (v : Version) (t : FType) (ht : t ≠ .rawrf) (k : PyStr) :
    (k ∈ (formatOf v t).siteFields ↔ k ∈ (formatOf v t).allFields ∧ k ∉ [py! "num_beams", py! "num_blanked_samples"]) ∧
    (k ∈ (formatOf v t).arrayFields ↔ k ∈ (formatOf v t).allFields ∧
      k ∉ [py! "data_dimensions", py! "correlation_dimensions"]) := by
  have h : (∀ k ∈ (formatOf v t).siteFields, k ∈ (formatOf v t).allFields ∧ k ∉ [py! "num_beams", py! "num_blanked_samples"]) ∧
      (∀ k ∈ (formatOf v t).allFields, k ∉ [py! "num_beams", py! "num_blanked_samples"] → k ∈ (formatOf v t).siteFields) ∧
      (∀ k ∈ (formatOf v t).arrayFields, k ∈ (formatOf v t).allFields ∧
        k ∉ [py! "data_dimensions", py! "correlation_dimensions"]) ∧
      ∀ k ∈ (formatOf v t).allFields, k ∉ [py! "data_dimensions", py! "correlation_dimensions"] →
        k ∈ (formatOf v t).arrayFields := by
    cases v <;> cases t <;> first | exact absurd rfl ht | decide +kernel
  exact ⟨⟨h.1 k, fun c => h.2.1 k c.1 c.2⟩, h.2.2.1 k, fun c => h.2.2.2 k c.1 c.2⟩

/-- There is one array-only field that a version has, and one that it has not. -/
example : py! "num_blanked_samples" ∈ (formatOf .v05 .bfiq).allFields ∧
    py! "num_blanked_samples" ∉ (formatOf .v04 .bfiq).allFields := by decide +kernel

/-- **C38** Files of the type rawrf are not restructured, in no version and whatever is in them. -/
theorem C38_rawrf (v : Version) (tkey : Elt → Except Err PyStr) (rs : Records) (A : Rec) :
    siteToArray (formatOf v .rawrf) rs = .error .restructure ∧
    arrayToSite tkey (formatOf v .rawrf) A = .error .restructure := by
  have h : (formatOf v .rawrf).restructureable = false := by cases v <;> rfl
  unfold siteToArray arrayToSite
  simp [h]

theorem single_flatten (v : Version) (t : FType) : ∀ k ∈ (formatOf v t).single.keys, k ∉ (formatOf v t).flatten := by
  cases v <;> cases t <;> decide +kernel

/-- Where the records in memory come from. -/
theorem siteRows_mem {A : Rec} {tkey : Elt → Except Err PyStr} {f : Format} {ts : NdArr} :
    ∀ {is : List Nat} {rows : Records}, siteRows tkey f A ts is = .ok rows → ∀ n r, (n, r) ∈ rows →
    ∃ i ∈ is, siteRecord f A i = .ok r
  | [], rows, h, n, r, hm => by
    cases h
    cases hm
  | i :: is, rows, h, n, r, hm => by
    rw [siteRows] at h
    obtain ⟨_, -, h⟩ := bind_ok h
    obtain ⟨r0, hr, h⟩ := bind_ok h
    obtain ⟨l, hl, h⟩ := bind_ok h
    cases h
    rcases List.mem_cons.1 hm with e | hm
    · cases e
      exact ⟨i, by simp, hr⟩
    · obtain ⟨j, hj, h'⟩ := siteRows_mem hl n r hm
      exact ⟨j, by simp [hj], h'⟩

theorem mapRecords_mem {g : Rec → Except Err Rec} : ∀ {rs out : Records}, mapRecords g rs = .ok out →
    ∀ n r, (n, r) ∈ out → ∃ r0, (n, r0) ∈ rs ∧ g r0 = .ok r
  | [], out, h, n, r, hm => by
    cases h
    cases hm
  | (n', r') :: rs, out, h, n, r, hm => by
    rw [mapRecords] at h
    obtain ⟨w, hw, h⟩ := bind_ok h
    obtain ⟨l, hl, h⟩ := bind_ok h
    cases h
    rcases List.mem_cons.1 hm with e | hm
    · cases e
      exact ⟨r', by simp, hw⟩
    · obtain ⟨r0, h1, h2⟩ := mapRecords_mem hl n r hm
      exact ⟨r0, by simp [h1], h2⟩

/-- An unshared field of a record. -/
theorem siteRecord_unshared {f : Format} {A : Rec} {i : Nat} {r : Rec} (hn : f.dimsSite.keys.Nodup)
    (h : siteRecord f A i = .ok r) {k : PyStr} (hk : k ∈ f.dimsSite.keys) :
    ∃ l w, f.dimsSite.get? k = some l ∧ siteField f A i k l = .ok w ∧ r.get? k = some w := by
  unfold siteRecord at h
  obtain ⟨e1, h1, h⟩ := bind_ok h
  obtain ⟨e2, h2, h⟩ := bind_ok h
  obtain ⟨e3, h3, h⟩ := bind_ok h
  cases h
  obtain ⟨k3, g3⟩ := forFields_of h3
  have n3 : Dict.NodupKeys e3 := by
    unfold Dict.NodupKeys
    rw [k3]
    exact hn
  obtain ⟨w, hw⟩ := Dict.mem_keys_iff.1 (show k ∈ Dict.keys e3 by rw [k3]; exact hk)
  obtain ⟨l, hl, hw'⟩ := g3 k w (Dict.mem_of_get? hw)
  refine ⟨l, w, Dict.get?_of_mem hn hl, hw', ?_⟩
  rw [get?_update n3, hw]
  rfl

/-- **C38** Whatever the arrays are: an attribute of a record that `_array_to_site` makes is the element of the array in
the row of the record, as a single value of the type that the format lists, and unchanged if the array has that type. -/
theorem C38_attribute_types (v : Version) (t : FType) (tkey : Elt → Except Err PyStr) (A : Rec) (out : Records)
    (h : arrayToSite tkey (formatOf v t) A = .ok out) (n : PyStr) (r : Rec) (hr : (n, r) ∈ out) :
    ∃ i, ∀ k ty, k ∈ (formatOf v t).unshared → (formatOf v t).single.get? k = some ty →
      ∃ a e w, A.get? k = some (.arr a) ∧ a.get? [i] = some e ∧ r.get? k = some w ∧ IsScalar ty w ∧
        (ty ≠ .str → a.ty = ty → w = .np ty e) ∧ ∀ s, ty = .str → e = .str s → w = .py .str (.str s) := by
  have ht : t ≠ .rawrf := by
    rintro rfl
    rw [(C38_rawrf v tkey [] A).2] at h
    cases h
  have hc := coherent v t ht
  obtain ⟨ts, N, ds, rows, hts, hsh, hrows, hmap⟩ := arrayToSite_inv h
  obtain ⟨r0, hm, hf⟩ := mapRecords_mem hmap n r hr
  obtain ⟨i, -, hi⟩ := siteRows_mem hrows n r0 (Dict.mem_ofList hm)
  refine ⟨i, fun k ty hu hs => ?_⟩
  obtain ⟨l, w, hl, hw, hg⟩ := siteRecord_unshared hc.nodupD hi (hc.sub k hu)
  have hflat := single_flatten v t k (Dict.mem_keys_iff.2 ⟨ty, hs⟩)
  have hg' : r.get? k = some w := by
    rw [mapFieldsOf_other hf k hflat]
    exact hg
  unfold siteField at hw
  rw [hs] at hw
  simp only at hw
  obtain ⟨x, hx, hw⟩ := bind_ok hw
  have hx := field_iff.1 hx
  unfold singleOf at hw
  cases x with
  | py _ _ => cases hw
  | np _ _ => cases hw
  | arr a =>
    simp only at hw
    split at hw
    · cases he : a.get? [i] with
      | none => rw [he] at hw; cases hw
      | some e =>
        rw [he] at hw
        simp only at hw
        refine ⟨a, e, w, hx, he, hg', ?_⟩
        by_cases hty : ty = .str
        · rw [if_pos hty] at hw
          subst hty
          refine ⟨?_, fun c => absurd rfl c, fun s _ hs' => ?_⟩
          · cases e <;> cases hw <;> rfl
          · subst hs'
            cases hw
            rfl
        · rw [if_neg hty] at hw
          cases hw
          refine ⟨rfl, fun _ e => by rw [if_pos e], fun s c => absurd c hty⟩
    · cases hw

/-- Arrays of two records, and one of their attributes. -/
example : ∃ A out, siteToArray (formatOf .v05 .rawacf) (twoRecords .v05 .rawacf .none) = .ok A ∧
    arrayToSite sampleKey (formatOf .v05 .rawacf) A = .ok out ∧ out.length = 2 ∧
    py! "num_sequences" ∈ (formatOf .v05 .rawacf).unshared ∧
    (formatOf .v05 .rawacf).single.get? (py! "num_sequences") = some .i64 :=
  ⟨_, _, rfl, rfl, by decide +kernel, by decide +kernel, by decide +kernel⟩

end Verif.Bor
