import Verif.Borealis.Lemmas.Maxima
/-!
# C38–C41: restructuring records in memory
-/
namespace Verif.Bor
open Verif

/-- Two records with 2 and 3 sequences, 1 and 2 beams, 3 and 1 blanked samples. -/
def twoRecords (v : Version) (t : FType) (o : Ppo) : Records :=
  [(List.replicate 5 '0', sampleSite v t o 2 1 3 5), (List.replicate 9 '0', sampleSite v t o 3 2 1 9)]

/-! ## C38 -/

/-- A generated field of the listed type. -/
def genListed (f : Format) (k : PyStr) : GenS → Bool
  | .const ty _ => f.arrays.get? k == some ty
  | .dims _ => true

/-- The generated text of every format has the listed type, except that of bfiq v0.7. -/
theorem kept (v : Version) (t : FType) (ht : t ≠ .rawrf) (k : PyStr)
    (h : ¬ (v = .v07 ∧ t = .bfiq ∧ k = py! "data_descriptors")) : Kept (formatOf v t) k := by
  have h1 : (∀ p ∈ (formatOf v t).genSite, ¬ (v = .v07 ∧ t = .bfiq ∧ p.1 = py! "data_descriptors") →
      genListed (formatOf v t) p.1 p.2 = true) := by
    cases v <;> cases t <;> first | exact absurd rfl ht | (intro p hp; revert p; decide +kernel)
  intro ty l hg
  have := h1 _ (Dict.mem_of_get? hg) h
  simpa [genListed] using this

/-- **C38** Records of one slice come back from the array structure: the same names in the same
order, and every field with its value.  The numbers of sequences, beams and blanked samples of the
records are arbitrary.

Partial: `data_descriptors` of bfiq v0.7 is left out (see `C38_descriptors_violation`), phase
offsets per pulse need the bounds of `FlatPpoOK` (see `C38_ppo_violation`), no dimension is zero
except that all records may lack blanked samples (see `C39_violation`), and texts have at most
256 characters (see `C38_text_violation`). -/
theorem C38_partial (v : Version) (t : FType) (ht : t ≠ .rawrf) (o : Ppo) (c : Common) (rs : Records)
    (tkey : Elt → Except Err PyStr)
    (h : SiteRecords (formatOf v t) t o c (flatFields v t) rs)
    (h1 : OneSlice tkey (formatOf v t) t rs) (hf : FlatPpoOK o c rs) :
    ∃ A out, siteToArray (formatOf v t) rs = .ok A ∧ arrayToSite tkey (formatOf v t) A = .ok out ∧
      out.keys = rs.keys ∧
      ∀ n r r', rs.get? n = some r → out.get? n = some r' →
        ∀ k, ¬ (v = .v07 ∧ t = .bfiq ∧ k = py! "data_descriptors") → r'.get? k = r.get? k := by
  obtain ⟨A, out, h2, h3, h4, h5⟩ := roundtrip (coherent v t ht) h h1 hf
  refine ⟨A, out, h2, h3, h4, ?_⟩
  intro n r r' hr hr' k hk
  obtain ⟨i, hi, hie⟩ := List.getElem_of_mem (Dict.mem_of_get? hr)
  have hlen : out.length = rs.length := by
    have := congrArg List.length h4
    simpa [Dict.keys] using this
  have hi' : i < out.length := by omega
  have hn' : out[i].1 = n := by
    have e := congrArg (fun l => l[i]?) h4
    simp only [Dict.keys, List.getElem?_map, List.getElem?_eq_getElem hi, List.getElem?_eq_getElem hi',
      Option.map_some, Option.some.injEq, hie] at e
    exact e
  have hno : out.NodupKeys := by unfold Dict.NodupKeys; rw [h4]; exact h1.names
  have := get?_of_index hno hi'
  rw [hn', hr'] at this
  cases this
  have := (h5 i hi hi').2 k (kept v t ht k hk)
  rw [this, hie]

/-- The hypotheses hold of records with different numbers of everything. -/
example : SiteRecords (formatOf .v06 .bfiq) .bfiq .perSeq sampleCommon (flatFields .v06 .bfiq)
      (twoRecords .v06 .bfiq .perSeq) ∧
    OneSlice sampleKey (formatOf .v06 .bfiq) .bfiq (twoRecords .v06 .bfiq .perSeq) ∧
    FlatPpoOK .perSeq sampleCommon (twoRecords .v06 .bfiq .perSeq) :=
  ⟨siteRecordsB_sound (by decide +kernel), oneSliceB_sound (by decide +kernel), nofun⟩

example : SiteRecords (formatOf .v07 .rawacf) .rawacf .none sampleCommon (flatFields .v07 .rawacf)
      (twoRecords .v07 .rawacf .none) ∧
    OneSlice sampleKey (formatOf .v07 .rawacf) .rawacf (twoRecords .v07 .rawacf .none) ∧
    FlatPpoOK .none sampleCommon (twoRecords .v07 .rawacf .none) :=
  ⟨siteRecordsB_sound (by decide +kernel), oneSliceB_sound (by decide +kernel), nofun⟩

example : SiteRecords (formatOf .v04 .antennasIq) .antennasIq .none sampleCommon
      (flatFields .v04 .antennasIq) (twoRecords .v04 .antennasIq .none) ∧
    OneSlice sampleKey (formatOf .v04 .antennasIq) .antennasIq (twoRecords .v04 .antennasIq .none) :=
  ⟨siteRecordsB_sound (by decide +kernel), oneSliceB_sound (by decide +kernel)⟩

/-- Phase offsets for every pulse (2 pulses, 2 and 3 sequences, 2 records). -/
example : SiteRecords (formatOf .v06 .antennasIq) .antennasIq .flat sampleCommon
      (flatFields .v06 .antennasIq) (twoRecords .v06 .antennasIq .flat) ∧
    FlatPpoOK .flat sampleCommon (twoRecords .v06 .antennasIq .flat) :=
  ⟨siteRecordsB_sound (by decide +kernel), fun _ => by decide +kernel⟩

/-- The value of a field after a round trip. -/
def afterTrip (f : Format) (rs : Records) (n k : PyStr) : Except Err (Option Val) := do
  let A ← siteToArray f rs
  let out ← arrayToSite sampleKey f A
  match out.get? n with
  | some r => .ok (r.get? k)
  | none => .error .keyError

/-- **C38** violated: bfiq v0.7 records come back with `data_descriptors` of another type than the
format lists. -/
theorem C38_descriptors_violation :
    ∃ rs n r, SiteRecords (formatOf .v07 .bfiq) .bfiq .perSeq sampleCommon (flatFields .v07 .bfiq) rs ∧
      OneSlice sampleKey (formatOf .v07 .bfiq) .bfiq rs ∧ rs.get? n = some r ∧
      afterTrip (formatOf .v07 .bfiq) rs n (py! "data_descriptors") =
        .ok (some (vec .npStr ((dimNames .bfiq).map .str))) ∧
      r.get? (py! "data_descriptors") = some (vec .npBytes ((dimNames .bfiq).map (constElt .npBytes))) := by
  refine ⟨twoRecords .v07 .bfiq .perSeq, List.replicate 5 '0', sampleSite .v07 .bfiq .perSeq 2 1 3 5,
    siteRecordsB_sound (by decide +kernel), oneSliceB_sound (by decide +kernel), by decide +kernel,
    by decide +kernel, by decide +kernel⟩

/-- One record with one sequence and the phase offsets of two pulses. -/
def ppoRecord (n : Nat) : Records := [(List.replicate 5 '0', sampleSite .v06 .bfiq .flat n 1 3 5)]

/-- **C38** violated: phase offsets per pulse lose elements, both when there are fewer sequences
than pulses and when there are more than pulses in all records. -/
theorem C38_ppo_violation :
    (SiteRecords (formatOf .v06 .bfiq) .bfiq .flat sampleCommon (flatFields .v06 .bfiq) (ppoRecord 1) ∧
      (sampleSite .v06 .bfiq .flat 1 1 3 5).get? (py! "pulse_phase_offset") =
        some (vec .f32 [.int 0, .int 1]) ∧
      afterTrip (formatOf .v06 .bfiq) (ppoRecord 1) (List.replicate 5 '0') (py! "pulse_phase_offset") =
        .ok (some (vec .f32 [.int 0]))) ∧
    (SiteRecords (formatOf .v06 .bfiq) .bfiq .flat sampleCommon (flatFields .v06 .bfiq) (ppoRecord 3) ∧
      (sampleSite .v06 .bfiq .flat 3 1 3 5).get? (py! "pulse_phase_offset") =
        some (vec .f32 [.int 0, .int 1]) ∧
      afterTrip (formatOf .v06 .bfiq) (ppoRecord 3) (List.replicate 5 '0') (py! "pulse_phase_offset") =
        .ok (some (vec .f32 [.int 0]))) := by
  refine ⟨⟨siteRecordsB_sound (by decide +kernel), by decide +kernel, by decide +kernel⟩,
    ⟨siteRecordsB_sound (by decide +kernel), by decide +kernel, by decide +kernel⟩⟩

/-- **C38** violated: a text of more than 256 characters is cut (v0.5 and later, field
`slice_interfacing`). -/
theorem C38_text_violation :
    ∃ rs n r, rs.get? n = some r ∧
      r.get? (py! "slice_interfacing") = some (.py .str (.str (List.replicate 257 'x'))) ∧
      afterTrip (formatOf .v05 .rawacf) rs n (py! "slice_interfacing") =
        .ok (some (.py .str (.str (List.replicate 256 'x')))) := by
  refine ⟨[(List.replicate 5 '0', (sampleSite .v05 .rawacf .none 2 1 3 5).set (py! "slice_interfacing")
      (.py .str (.str (List.replicate 257 'x'))))], List.replicate 5 '0', _, rfl, by decide +kernel,
    by decide +kernel⟩

/-! ## C39 -/

/-- **C39** The array of an array field has one row per record and the maximum of each dimension.
An element inside the dimensions of the record is the element of the record at the same index, in
row-major order; an element outside is the fill value of the type.

Partial: for records of a slice as in C38 (no zero dimension, or no blanked samples at all). -/
theorem C39_arrays_partial (v : Version) (t : FType) (ht : t ≠ .rawrf) (o : Ppo) (c : Common) (rs : Records)
    (h : SiteRecords (formatOf v t) t o c (flatFields v t) rs) :
    ∃ A, siteToArray (formatOf v t) rs = .ok A ∧
      ∀ k ty, k ∈ (formatOf v t).unshared → (formatOf v t).single.get? k = none →
        (formatOf v t).arrays.get? k = some ty →
        ∃ a, A.get? k = some (.arr a) ∧ a.ty = ty ∧
          a.shape = rs.length :: (shapeOf o t k).map (Q.max c rs) ∧
          ∀ j (hj : j < rs.length), ∃ b, rs[j].2.get? k = some (.arr b) ∧
            ∀ is, inBounds ((shapeOf o t k).map (Q.max c rs)) is = true →
              a.get? (j :: is) =
                if inBounds ((shapeOf o t k).map (Q.size c rs[j].2)) is = true then
                  b.data[ravel ((shapeOf o t k).map (Q.size c rs[j].2)) is]?
                else some (padding ty) := by
  obtain ⟨rs', A, hA, hall, hrs', hst⟩ := siteToArray_ok (coherent v t ht) h
  refine ⟨A, hA, ?_⟩
  have hlen := hall.length
  have hmax : Q.max c rs' = Q.max c rs := by
    funext q
    unfold Q.max
    have : rs'.map (fun p => q.size c p.2) = rs.map (fun p => q.size c p.2) := by
      apply List.ext_getElem
      · simp [hlen]
      · intro i h1 h2
        simp only [List.getElem_map]
        exact (hall.recs i (by simpa using h2) (by simpa using h1)).size q
    have e : ∀ l : Records, l.foldl (fun m p => Nat.max m (q.size c p.2)) 0 =
        (l.map fun p => q.size c p.2).foldl Nat.max 0 := fun l => by rw [List.foldl_map]
    rw [e, e, this]
  intro k ty hu hs ha
  obtain ⟨a, hav, hat, hw, hsh, hg⟩ := hst.array k ty hu hs ha
  rw [hmax] at hsh hg
  refine ⟨a, hav, hat, by rw [hsh, hlen], ?_⟩
  intro j hj
  have hj' : j < rs'.length := by omega
  have hR := hall.recs j hj hj'
  have hsz : Q.size c rs'[j].2 = Q.size c rs[j].2 := funext hR.size
  obtain ⟨b', hb', hgb⟩ := hg j hj'
  obtain ⟨b'', hb'', -, hbw, hbs⟩ := (hrs'.recs _ (List.getElem_mem hj')).array k ty hu hs ha
  rw [hb'] at hb''
  cases hb''
  have hbs : b'.shape = (shapeOf o t k).map (Q.size c rs[j].2) := by
    rw [hbs, hsz]; simp [storedShape]
  have hb : ∃ b, rs[j].2.get? k = some (.arr b) ∧ b.data = b'.data := by
    by_cases hk : k ∈ flatFields v t
    · obtain ⟨b, h1, -, -, h4⟩ := hR.data k hk
      rw [hb'] at h4
      cases h4
      exact ⟨b, h1, rfl⟩
    · exact ⟨b', by rw [← hR.same k hk]; exact hb', rfl⟩
  obtain ⟨b, hbv, hbd⟩ := hb
  refine ⟨b, hbv, ?_⟩
  intro is his
  rw [NdArr.get?_eq_some_get hw (by rw [hsh]; exact inBounds_cons.2 ⟨hj', his⟩), hgb is his, ← hbs, hbd]
  split
  · rename_i hin
    rw [NdArr.data_getElem? hbw hin]
  · rfl

/-- **C39** The array of a single-element field has the values of the records in their order. -/
theorem C39_scalars_partial (v : Version) (t : FType) (ht : t ≠ .rawrf) (o : Ppo) (c : Common) (rs : Records)
    (h : SiteRecords (formatOf v t) t o c (flatFields v t) rs) :
    ∃ A, siteToArray (formatOf v t) rs = .ok A ∧
      ∀ k ty, k ∈ (formatOf v t).unshared → (formatOf v t).single.get? k = some ty →
        ∃ a, A.get? k = some (.arr a) ∧ a.ty = (if ty = .str then .npStr else ty) ∧ a.shape = [rs.length] ∧
          ∀ j (hj : j < rs.length), ∃ e, a.get? [j] = some e ∧
            rs[j].2.get? k = some (if ty = .str then .py ty e else .np ty e) := by
  obtain ⟨rs', A, hA, hall, hrs', hst⟩ := siteToArray_ok (coherent v t ht) h
  refine ⟨A, hA, ?_⟩
  have hlen := hall.length
  intro k ty hu hs
  obtain ⟨a, hav, hat, hw, hsh, hg⟩ := hst.scalar k ty hu hs
  refine ⟨a, hav, hat, by rw [hsh, hlen], ?_⟩
  intro j hj
  have hj' : j < rs'.length := by omega
  have hR := hall.recs j hj hj'
  obtain ⟨w, hw', hgw⟩ := hg j hj'
  have hb : inBounds a.shape [j] = true := by rw [hsh]; simp [inBounds, hj']
  refine ⟨scalarElt w, by rw [NdArr.get?_eq_some_get hw hb, hgw], ?_⟩
  obtain ⟨w', hw'', hok⟩ := (h.recs _ (List.getElem_mem hj)).scalar k ty hu hs
  have hnf : k ∉ flatFields v t := by
    intro hk
    obtain ⟨b, h1, -⟩ := hR.data k hk
    rw [h1] at hw''
    cases hw''
    unfold ScalarOK at hok
    split at hok
    · obtain ⟨_, h, -⟩ := hok; cases h
    · obtain ⟨_, h⟩ := hok; cases h
  rw [hR.same k hnf, hw''] at hw'
  cases hw'
  rw [hw'']
  unfold ScalarOK at hok
  split at hok
  · obtain ⟨s, rfl, -⟩ := hok
    rename_i hty
    simp [hty, scalarElt]
  · obtain ⟨e, rfl⟩ := hok
    rename_i hty
    simp [hty, scalarElt]

/-- **C39** The fields that are the same in all records are those of the first one, and the counts
are the lengths of the records. -/
theorem C39_others_partial (v : Version) (t : FType) (ht : t ≠ .rawrf) (o : Ppo) (c : Common) (rs : Records)
    (h : SiteRecords (formatOf v t) t o c (flatFields v t) rs) :
    ∃ A, siteToArray (formatOf v t) rs = .ok A ∧
      (∀ p, rs.head? = some p → ∀ k ∈ (formatOf v t).shared, k ∉ (formatOf v t).unshared →
        A.get? k = p.2.get? k) ∧
      A.get? (py! "num_beams") = some (numbers (rs.map fun p => beamsOf p.2)) ∧
      ((formatOf v t).unshared.contains (py! "blanked_samples") →
        A.get? (py! "num_blanked_samples") = some (numbers (rs.map fun p => blankedOf p.2))) ∧
      ∀ k, k ∈ A.keys ↔ k ∈ (formatOf v t).arrayFields := by
  have hc := coherent v t ht
  obtain ⟨rs', A, hA, hall, hrs', hst⟩ := siteToArray_ok hc h
  have hlen := hall.length
  have hmap : ∀ q, rs'.map (fun p => Q.size c p.2 q) = rs.map (fun p => Q.size c p.2 q) := by
    intro q
    apply List.ext_getElem
    · simp [hlen]
    · intro i h1 h2
      simp only [List.getElem_map]
      exact (hall.recs i (by simpa using h2) (by simpa using h1)).size q
  refine ⟨A, hA, ?_, ?_, ?_, hst.keys⟩
  · intro p hp k hk hku
    have h0 : 0 < rs.length := List.length_pos_iff.2 h.nonempty
    have h0' : 0 < rs'.length := by omega
    rw [List.head?_eq_getElem?, List.getElem?_eq_getElem h0] at hp
    cases hp
    rw [hst.shared rs'[0] (List.getElem?_eq_getElem h0') k hk hku]
    refine (hall.recs 0 h0 h0').same k fun hkf => ?_
    have h1 : (∀ k ∈ flatFields v t, k ∈ (formatOf v t).unshared) := by
      cases v <;> cases t <;> first | exact absurd rfl ht | decide +kernel
    exact hku (h1 k hkf)
  · rw [hst.lens _ _ hc.beams]
    exact congrArg (fun l => some (numbers l)) (hmap .beams)
  · intro hb
    have h1 : (formatOf v t).unshared.contains (py! "blanked_samples") →
        (formatOf v t).genArray.get? (py! "num_blanked_samples") =
          some (.lens (py! "blanked_samples")) := by
      cases v <;> cases t <;> first | exact absurd rfl ht | decide +kernel
    rw [hst.lens _ _ (h1 hb)]
    exact congrArg (fun l => some (numbers l)) (hmap .blanked)

/-- The second record of the sample has one beam more than the first, so its row is longer and the
row of the first is padded. -/
example : ∃ A a, siteToArray (formatOf .v07 .rawacf) (twoRecords .v07 .rawacf .none) = .ok A ∧
    A.get? (py! "beam_nums") = some (.arr a) ∧ a = ⟨.u32, [2, 2], [.int 0, .int 0, .int 0, .int 1]⟩ :=
  ⟨_, _, rfl, rfl, by decide +kernel⟩

/-- **C39** violated: a record without blanked samples among records with blanked samples makes the
restructuring fail, although everything fits. -/
theorem C39_violation : ∃ rs : Records,
    (∀ p ∈ rs, SiteRec (formatOf .v05 .rawacf) .rawacf .none sampleCommon (flatFields .v05 .rawacf) p.2) ∧
    OneSlice sampleKey (formatOf .v05 .rawacf) .rawacf rs ∧
    siteToArray (formatOf .v05 .rawacf) rs = .error .valueError :=
  ⟨[(List.replicate 5 '0', sampleSite .v05 .rawacf .none 2 1 3 5),
    (List.replicate 9 '0', sampleSite .v05 .rawacf .none 2 1 0 9)],
    (by
      have h1 : (∀ p ∈ ([(List.replicate 5 '0', sampleSite .v05 .rawacf .none 2 1 3 5),
          (List.replicate 9 '0', sampleSite .v05 .rawacf .none 2 1 0 9)] : Records),
          siteRecB (formatOf .v05 .rawacf) .rawacf .none sampleCommon (flatFields .v05 .rawacf) p.2 = true) := by
        decide +kernel
      exact fun p hp => siteRecB_sound (h1 p hp)),
    oneSliceB_sound (by decide +kernel), by decide +kernel⟩

/-! ## C40 -/

/-- **C40** Whenever `_array_to_site` succeeds, the records are named by the first timestamps of
the rows: every row has its name among them, there is no other name and no name twice. -/
theorem C40_names (tkey : Elt → Except Err PyStr) (f : Format) (A : Rec) (out : Records)
    (h : arrayToSite tkey f A = .ok out) :
    ∃ ts n, A.get? (py! "sqn_timestamps") = some (.arr ts) ∧ ts.shape.head? = some n ∧
      (∀ i < n, ∃ e name, ts.get? [i, 0] = some e ∧ tkey e = .ok name ∧ name ∈ out.keys) ∧
      (∀ name ∈ out.keys, ∃ i < n, ∃ e, ts.get? [i, 0] = some e ∧ tkey e = .ok name) ∧
      out.keys.Nodup := by
  obtain ⟨ts, n, ds, rows, hts, hs, hrows, hm⟩ := arrayToSite_inv h
  obtain ⟨hl, hr⟩ := siteRows_inv hrows
  rw [List.length_range] at hl
  obtain ⟨hk, -⟩ := mapRecords_inv hm
  have hrow : ∀ i (hi : i < rows.length), ∃ e, ts.get? [i, 0] = some e ∧ tkey e = .ok rows[i].1 := by
    intro i hi
    have := (hr i (by rw [List.length_range]; omega) hi).1
    rw [List.getElem_range] at this
    unfold rowKey at this
    split at this
    · split at this
      · rename_i e he
        exact ⟨e, he, this⟩
      · cases this
    · cases this
    · cases this
  refine ⟨ts, n, hts, by rw [hs]; rfl, ?_, ?_, ?_⟩
  · intro i hi
    obtain ⟨e, he, hkey⟩ := hrow i (by omega)
    refine ⟨e, _, he, hkey, ?_⟩
    rw [hk, mem_keys_ofList]
    exact List.mem_map.2 ⟨_, List.getElem_mem _, rfl⟩
  · intro name hname
    rw [hk, mem_keys_ofList] at hname
    obtain ⟨p, hp, rfl⟩ := List.mem_map.1 hname
    obtain ⟨i, hi, rfl⟩ := List.getElem_of_mem hp
    obtain ⟨e, he, hkey⟩ := hrow i hi
    exact ⟨i, by omega, e, he, hkey⟩
  · rw [hk]
    exact nodup_ofList rows

/-- **C40** There are as many records as rows if and only if no two rows have the same name.
(That two rows can have the same name is the violation, see `C40_violation`.) -/
theorem C40_count_partial (tkey : Elt → Except Err PyStr) (f : Format) (A : Rec) (out : Records)
    (h : arrayToSite tkey f A = .ok out) (ts : NdArr) (n : Nat)
    (hts : A.get? (py! "sqn_timestamps") = some (.arr ts)) (hn : ts.shape.head? = some n) :
    out.length ≤ n ∧
      (out.length = n ↔ ∀ i j, i < j → j < n → ∀ e e' : Elt, ts.get? [i, 0] = some e →
        ts.get? [j, 0] = some e' → tkey e ≠ tkey e') := by
  obtain ⟨ts', n', ds, rows, hts', hs, hrows, hm⟩ := arrayToSite_inv h
  rw [hts] at hts'
  cases hts'
  rw [hs] at hn
  cases hn
  obtain ⟨hl, hr⟩ := siteRows_inv hrows
  rw [List.length_range] at hl
  obtain ⟨hk, -⟩ := mapRecords_inv hm
  have hlen : out.length = (Dict.ofList rows).length := by
    have := congrArg List.length hk
    simpa [Dict.keys] using this
  have hrow : ∀ i (hi : i < rows.length), ∃ e, ts.get? [i, 0] = some e ∧ tkey e = .ok rows[i].1 := by
    intro i hi
    have := (hr i (by rw [List.length_range]; omega) hi).1
    rw [List.getElem_range] at this
    unfold rowKey at this
    split at this
    · split at this
      · rename_i e he
        exact ⟨e, he, this⟩
      · cases this
    · cases this
    · cases this
  refine ⟨by rw [hlen, ← hl]; exact length_ofList_le rows, ?_⟩
  rw [hlen, ← hl, length_ofList_iff]
  constructor
  · intro hnd i j hij hj e e' he he' heq
    obtain ⟨x, hx, hkx⟩ := hrow i (by omega)
    obtain ⟨y, hy, hky⟩ := hrow j hj
    rw [he] at hx; cases hx
    rw [he'] at hy; cases hy
    rw [hkx, hky] at heq
    have : rows[i].1 = rows[j].1 := by injection heq
    have := (List.pairwise_iff_getElem.1 hnd) i j (by simp; omega) (by simpa using hj) hij
    simp only [List.getElem_map] at this
    contradiction
  · intro hall
    unfold List.Nodup
    rw [List.pairwise_iff_getElem]
    intro i j hi hj hij
    simp only [List.length_map] at hi hj
    simp only [List.getElem_map]
    intro heq
    obtain ⟨x, hx, hkx⟩ := hrow i hi
    obtain ⟨y, hy, hky⟩ := hrow j hj
    exact hall i j hij hj x y hx hy (by rw [hkx, hky, heq])

/-- **C40** Of several rows with the same name the last one stays. -/
theorem C40_last (tkey : Elt → Except Err PyStr) (f : Format) (A : Rec) (out : Records)
    (h : arrayToSite tkey f A = .ok out) (ts : NdArr) (n : Nat)
    (hts : A.get? (py! "sqn_timestamps") = some (.arr ts)) (hn : ts.shape.head? = some n)
    (i : Nat) (hi : i < n) (name : PyStr) (e : Elt) (he : ts.get? [i, 0] = some e)
    (hname : tkey e = .ok name)
    (hlast : ∀ j, i < j → j < n → ∀ e', ts.get? [j, 0] = some e' → tkey e' ≠ .ok name) :
    ∃ r r', siteRecord f A i = .ok r ∧ flattenRec f r = .ok r' ∧ out.get? name = some r' := by
  obtain ⟨ts', n', ds, rows, hts', hs, hrows, hm⟩ := arrayToSite_inv h
  rw [hts] at hts'
  cases hts'
  rw [hs] at hn
  cases hn
  obtain ⟨hl, hr⟩ := siteRows_inv hrows
  rw [List.length_range] at hl
  obtain ⟨hk, hg⟩ := mapRecords_inv hm
  have hkey : ∀ j (hj : j < rows.length), ∀ e, ts.get? [j, 0] = some e → tkey e = .ok rows[j].1 := by
    intro j hj e he
    have := (hr j (by rw [List.length_range]; omega) hj).1
    rw [List.getElem_range] at this
    unfold rowKey at this
    split at this
    · rw [he] at this
      exact this
    · cases this
    · cases this
  have hkey' : ∀ j (hj : j < rows.length), ∃ e, ts.get? [j, 0] = some e := by
    intro j hj
    have := (hr j (by rw [List.length_range]; omega) hj).1
    rw [List.getElem_range] at this
    unfold rowKey at this
    split at this
    · split at this
      · rename_i e he; exact ⟨e, he⟩
      · cases this
    · cases this
    · cases this
  have hi' : i < rows.length := by omega
  have hni : rows[i].1 = name := by
    have := hkey i hi' e he
    rw [hname] at this
    injection this with this
    exact this.symm
  have hlater : ∀ j (hj : j < rows.length), i < j → rows[j].1 ≠ name := by
    intro j hj hij heq
    obtain ⟨e', he'⟩ := hkey' j hj
    exact hlast j hij (by omega) e' he' (by rw [hkey j hj e' he', heq])
  have hfind : rows.reverse.find? (fun p => decide (p.1 = name)) = some rows[i] := by
    have hsplit : rows = rows.take i ++ rows[i] :: rows.drop (i + 1) := by
      rw [List.getElem_cons_drop, List.take_append_drop]
    conv => lhs; rw [hsplit]
    rw [List.reverse_append, List.reverse_cons, List.append_assoc, List.find?_append]
    have hnone : (rows.drop (i + 1)).reverse.find? (fun p => decide (p.1 = name)) = none := by
      rw [List.find?_eq_none]
      intro p hp
      rw [List.mem_reverse] at hp
      obtain ⟨j, hj, rfl⟩ := List.getElem_of_mem hp
      rw [List.length_drop] at hj
      rw [List.getElem_drop]
      simpa using hlater (i + 1 + j) (by omega) (by omega)
    rw [hnone]
    simp [hni]
  have hget : (Dict.ofList rows).get? name = some rows[i].2 := by
    rw [get?_ofList, hfind]; rfl
  refine ⟨rows[i].2, ?_⟩
  have hrec := (hr i (by rw [List.length_range]; omega) hi').2
  rw [List.getElem_range] at hrec
  cases ho : out.get? name with
  | none =>
    have := (hg name).2 ho
    rw [hget] at this
    cases this
  | some r' =>
    obtain ⟨r, hr1, hr2⟩ := (hg name).1 r' ho
    rw [hget] at hr1
    cases hr1
    exact ⟨r', hrec, hr2, rfl⟩

/-- Two rows with different first timestamps. -/
example : ∃ A out, siteToArray (formatOf .v07 .rawacf) (twoRecords .v07 .rawacf .none) = .ok A ∧
    arrayToSite sampleKey (formatOf .v07 .rawacf) A = .ok out ∧ out.length = 2 :=
  ⟨_, _, rfl, rfl, by decide +kernel⟩

/-- Two records in the same millisecond. -/
def sameTime : Records :=
  [(py! "a", sampleSite .v07 .rawacf .none 2 1 3 5), (py! "b", sampleSite .v07 .rawacf .none 3 2 1 5)]

/-- **C40** violated: two records become one. -/
theorem C40_violation : ∃ A out, siteToArray (formatOf .v07 .rawacf) sameTime = .ok A ∧
    arrayToSite sampleKey (formatOf .v07 .rawacf) A = .ok out ∧ sameTime.length = 2 ∧ out.length = 1 :=
  ⟨_, _, rfl, rfl, by decide +kernel, by decide +kernel⟩

/-! ## C41 -/

/-- **C41** The number of sequences used for restructuring is at least that of every record, and it
is that of one of them. -/
theorem C41_sequences (rs : Records) (m : Int) (h : findMaxSequences rs = .ok m) :
    (∀ p ∈ rs, ∃ v n, p.2.get? (py! "num_sequences") = some v ∧ HasInt v n ∧ n ≤ m) ∧
    (m = 0 ∨ ∃ p ∈ rs, ∃ v, p.2.get? (py! "num_sequences") = some v ∧ HasInt v m) :=
  (maxSeqs_go h).2

/-- **C41** The same for the lengths of a field (the number of beams is the length of `beam_nums`,
the number of blanked samples that of `blanked_samples`). -/
theorem C41_lengths (k : PyStr) (rs : Records) (m : Nat) (h : findMaxLen k rs = .ok m) :
    (∀ p ∈ rs, ∃ v n, p.2.get? k = some v ∧ HasLen v n ∧ n ≤ m) ∧
    (m = 0 ∨ ∃ p ∈ rs, ∃ v, p.2.get? k = some v ∧ HasLen v m) :=
  (maxLen_go h).2

/-- **C41** The dimensions used for `pulse_phase_offset` are at least those of every record, unless
the first record has none.  (Partial: see `C41_ppo_violation`.) -/
theorem C41_ppo_partial (rs : Records) (m : List Nat) (h : findMaxPpo rs = .ok m)
    (hfirst : ∀ p, rs.head? = some p → ∀ v s, p.2.get? (py! "pulse_phase_offset") = some v →
      v.shape? = .ok s → s.head? ≠ some 0) :
    ∀ p ∈ rs, ∃ v s, p.2.get? (py! "pulse_phase_offset") = some v ∧ v.shape? = .ok s ∧ DimsLe s m := by
  unfold findMaxPpo at h
  simp only [bind, Except.bind] at h
  split at h
  · cases h
  · rename_i first hfr
    split at h
    · cases h
    · rename_i v hv
      have hv := field_eq_ok hv
      split at h
      · cases h
      · rename_i s hs
        have hne : s.head? ≠ some 0 := by
          cases rs with
          | nil => cases hfr
          | cons p rs =>
            cases hfr
            exact hfirst p rfl v s hv hs
        split at h
        · cases h
        · exact absurd rfl hne
        · exact (maxPpo_go h).2

/-- **C41** The dimensions of all fields of the records of a slice are bounds of the dimensions of
every record, and each is reached by a record. -/
theorem C41_shapes (c : Common) (rs : Records) (hne : rs ≠ []) (q : Q) :
    (∀ p ∈ rs, q.size c p.2 ≤ q.max c rs) ∧ ∃ p ∈ rs, q.max c rs = q.size c p.2 :=
  ⟨fun _ hp => size_le_max hp, max_attained hne⟩

example : findMaxSequences (twoRecords .v06 .bfiq .perSeq) = .ok 3 ∧
    findMaxLen (py! "beam_nums") (twoRecords .v06 .bfiq .perSeq) = .ok 2 ∧
    findMaxPpo (twoRecords .v06 .bfiq .perSeq) = .ok [3, 2] := by decide +kernel

/-- **C41** violated: when the first record has no phase offsets, the dimension is zero whatever the
other records have, and restructuring fails. -/
theorem C41_ppo_violation : ∃ rs : Records, rs.length = 2 ∧ findMaxPpo rs = .ok [0] ∧
    (∃ p ∈ rs, ∃ v, p.2.get? (py! "pulse_phase_offset") = some v ∧ v.shape? = .ok [3, 2]) ∧
    siteToArray (formatOf .v06 .bfiq) rs = .error .indexError :=
  ⟨[(py! "a", sampleSite .v06 .bfiq .none 2 1 3 5), (py! "b", sampleSite .v06 .bfiq .perSeq 3 2 1 9)], rfl,
    by decide +kernel,
    ⟨_, List.mem_cons_of_mem _ (List.mem_cons_self ..), _, rfl, by decide +kernel⟩, by decide +kernel⟩

end Verif.Bor
