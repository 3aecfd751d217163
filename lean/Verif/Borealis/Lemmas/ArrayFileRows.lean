import Verif.Borealis.Lemmas.ArrayFile
import Verif.Borealis.Lemmas.RoundTrip
/-!
# The records of an array file, checked and written one by one
-/
namespace Verif.Bor
open Verif

variable {f : Format} {g : Group} {A : Rec}

/-! ## The phase offsets -/

theorem ppoOfFile_eq (ht : ArrayTabled f) (hp : PlainGroup f.arraySingleTypes (datasetTypes f) g)
    (hr : readGroup g = .ok A) (hA : ∀ k ∈ f.arrayFields, k ∈ A.keys)
    (hn : ∀ k ∈ countFields, ∀ a, A.get? k = some (.arr a) → ∀ n, .int n ∈ a.data → 0 ≤ n) {i : Nat}
    (hs : f.single.get? ppoName = none) (hu : ppoName ∈ f.unshared)
    (hg : goodDim f .ppo = true) (hc : OffsetsCut A i) :
    siteFieldOfFile f g i ppoName [.ppo] = siteField f A i ppoName [.ppo] := by
  have hf : ppoName ∈ A.keys := hA _ (by simp [Format.arrayFields, hu])
  unfold siteField siteFieldOfFile
  rw [hs]
  simp only
  obtain ⟨h1, h2⟩ := ht.array ppoName hu (Dict.get?_eq_none_iff.1 hs)
  obtain ⟨ty, hty⟩ := Dict.mem_keys_iff.1 h1
  obtain ⟨w, hw⟩ := Dict.mem_keys_iff.1 hf
  obtain ⟨d, hd, -, rfl⟩ := numericD ht hp hr h2 hw
  rw [goodDims_eq ht hp hr hA i (l := [.ppo]) (by simpa using hg), field_ok hty, field_ok hw, field_ok hd]
  simp only [bind, Except.bind]
  cases he : evalSiteDims A i [.ppo] with
  | error e => rfl
  | ok ls =>
    simp only
    rw [evalSiteDims] at he
    obtain ⟨x, hx, he⟩ := bind_ok he
    obtain ⟨xs, hxs, he⟩ := bind_ok he
    cases hxs
    cases he
    rw [evalDimS] at hx
    obtain ⟨v, hv, hx⟩ := bind_ok hx
    rw [field_ok hw] at hv
    cases hv
    obtain ⟨s, hs', hx⟩ := bind_ok hx
    cases hs'
    obtain ⟨nv, hnv, hx⟩ := bind_ok hx
    obtain ⟨n, hn', hx⟩ := bind_ok hx
    have hcut := hc d.arr nv n hw (field_iff.1 hnv) hn'
    split at hx
    · rename_i hlt
      cases hx
      rcases hcut with c | ⟨m, hm⟩
      · omega
      · have : ([-1] ++ [] : List Int).filter (· ≠ -1) = [] := by decide
        rw [this]
        unfold getRow
        rw [hm]
        rfl
    · split at hx
      · cases hx
      · rename_i m ds hsh
        split at hx
        · cases hx
          obtain ⟨a, rfl, ha⟩ := elemInt_mem hn'
          have h0 := hn (py! "num_sequences") (by decide) a (field_iff.1 hnv) n ha
          have : ((n :: (ds.drop 1).map Int.ofNat) ++ [] : List Int).filter (· ≠ -1) =
              (n :: (ds.drop 1).map Int.ofNat) ++ [] := by
            rw [List.filter_eq_self]
            intro y hy
            simp only [List.append_nil, List.mem_cons, List.mem_map] at hy
            simp only [decide_eq_true_eq]
            rcases hy with rfl | ⟨z, -, rfl⟩
            · omega
            · simp only [Int.ofNat_eq_natCast]
              omega
          rw [this]
        · cases hx

/-! ## Shared fields -/

theorem forFields_of {α : Type} {g : PyStr → α → Except Err Val} : ∀ {l : List (PyStr × α)} {r : Rec},
    forFields g l = .ok r → r.keys = Dict.keys l ∧ ∀ k v, (k, v) ∈ r → ∃ x, (k, x) ∈ l ∧ g k x = .ok v
  | [], r, h => by cases h; exact ⟨rfl, by simp⟩
  | (k, x) :: l, r, h => by
    rw [forFields] at h
    obtain ⟨v, hv, h⟩ := bind_ok h
    obtain ⟨s, hs, h⟩ := bind_ok h
    cases h
    obtain ⟨h1, h2⟩ := forFields_of hs
    refine ⟨by simp [h1], fun k' v' hm => ?_⟩
    rcases List.mem_cons.1 hm with e | hm
    · cases e
      exact ⟨x, List.mem_cons_self .., hv⟩
    · obtain ⟨y, hy, hv'⟩ := h2 k' v' hm
      exact ⟨y, List.mem_cons_of_mem _ hy, hv'⟩

/-- A shared field of a record is that of the arrays. -/
theorem siteRecord_shared {t : FType} {flat : List PyStr} (hc : Coherent f t flat) {i : Nat} {r : Rec}
    (h : siteRecord f A i = .ok r) {k : PyStr} (hk : k ∈ f.shared) (hu : k ∉ f.unshared) :
    r.get? k = A.get? k := by
  unfold siteRecord at h
  obtain ⟨e1, h1, h⟩ := bind_ok h
  obtain ⟨e2, h2, h⟩ := bind_ok h
  obtain ⟨e3, h3, h⟩ := bind_ok h
  cases h
  obtain ⟨k1, g1⟩ := forFields_of h1
  obtain ⟨k2, -⟩ := forFields_of h2
  obtain ⟨k3, -⟩ := forFields_of h3
  have ks : Dict.keys (f.shared.map fun k => (k, ())) = f.shared := by
    unfold Dict.keys
    rw [List.map_map]
    exact List.map_id _
  have n1 : Dict.NodupKeys e1 := by
    unfold Dict.NodupKeys
    rw [k1, ks]
    exact hc.nodupS
  have n2 : Dict.NodupKeys e2 := by
    unfold Dict.NodupKeys
    rw [k2]
    exact hc.nodupGS
  have n3 : Dict.NodupKeys e3 := by
    unfold Dict.NodupKeys
    rw [k3]
    exact hc.nodupD
  rw [get?_update n3, get?_update n2, get?_update n1]
  have z3 : Dict.get? e3 k = none := Dict.get?_eq_none_iff.2 (by rw [k3]; exact fun c => hu (hc.sup k c))
  have z2 : Dict.get? e2 k = none := Dict.get?_eq_none_iff.2 (by rw [k2]; exact fun c => (hc.disjS k c).2 hk)
  rw [z3, z2]
  obtain ⟨v, hv⟩ := Dict.mem_keys_iff.1 (show k ∈ Dict.keys e1 by rw [k1, ks]; exact hk)
  obtain ⟨_, -, hv'⟩ := g1 k v (Dict.mem_of_get? hv)
  rw [hv, field_iff.1 hv']
  rfl

theorem mapFieldsOf_other {h : Val → Except Err Val} : ∀ {ks : List PyStr} {r r' : Rec}, mapFieldsOf h r ks = .ok r' →
    ∀ k, k ∉ ks → r'.get? k = r.get? k
  | [], r, r', hs, k, _ => by cases hs; rfl
  | k' :: ks, r, r', hs, k, hk => by
    rw [mapFieldsOf] at hs
    obtain ⟨v, hv, hs⟩ := bind_ok hs
    obtain ⟨w, hw, hs⟩ := bind_ok hs
    rw [mapFieldsOf_other hs k (fun c => hk (by simp [c])), Dict.get?_set_ne _ (fun e => hk (by simp [e]))]

/-! ## The check of a record -/

/-- A record with other phase offsets passes the check. -/
theorem conforms_but {S D D' : TyTable} {r r' : Rec} (h : Conforms (fun _ => IsNumpy) S D r) (hb : SameButPpo r r')
    (hD : ∀ k ty, (k, ty) ∈ D' ↔ (k, ty) ∈ D) (hs : ppoName ∉ S.keys)
    (hp : ∀ w', r'.get? ppoName = some w' → ∃ w, r.get? ppoName = some w ∧
      (w' = w ∨ ∃ a, w' = .arr a ∧ (a.ty = .f32 ∨ ∃ b, w = .arr b ∧ a.ty = b.ty))) (hf : ∀ ty, (ppoName, ty) ∈ D → ty = .f32) :
    Conforms (fun _ => IsNumpy) S D' r' := by
  have hkeys : ∀ k, (∃ w, Holds r k w) ↔ ∃ w, Holds r' k w := fun k => by
    unfold Holds
    rw [← Dict.mem_keys_iff, ← Dict.mem_keys_iff, hb.1]
  have hL : ∀ k, Listed D' k ↔ Listed D k := fun k => exists_congr fun ty => hD k ty
  refine ⟨fun k hm => h.complete k ⟨hm.1.imp id (hL k).1, fun c => hm.2 ((hkeys k).1 c)⟩,
    fun k hm => h.known k ⟨(hkeys k).2 hm.1, fun c => hm.2 (c.imp id (hL k).2)⟩, ?_⟩
  intro k ty hw
  by_cases e : k = ppoName
  · subst e
    rcases hw with ⟨hm, -⟩ | ⟨hm, w', hw', hno⟩
    · exact hs (List.mem_map.2 ⟨_, hm, rfl⟩)
    · obtain ⟨w, hw, hor⟩ := hp w' hw'
      have hm := (hD _ _).1 hm
      have e1 := hf ty hm
      rcases hor with rfl | ⟨a, rfl, hty | ⟨b, rfl, hty⟩⟩
      · exact h.typed ppoName ty (.inr ⟨hm, _, hw, hno⟩)
      · exact hno (by rw [e1]; exact hty)
      · refine h.typed ppoName ty (.inr ⟨hm, _, hw, fun c => hno ?_⟩)
        show a.ty = ty
        rw [hty]
        exact c
  · refine h.typed k ty (hw.imp ?_ ?_)
    · rintro ⟨hm, w, hw, hno⟩
      exact ⟨hm, w, by unfold Holds at hw ⊢; rw [hb.2 k e]; exact hw, hno⟩
    · rintro ⟨hm, w, hw, hno⟩
      exact ⟨(hD _ _).1 hm, w, by unfold Holds at hw ⊢; rw [hb.2 k e]; exact hw, hno⟩

/-! ## Writing one by one -/

theorem put_put (fs : FSys) (p : PyStr) (c c' : File) : (fs.put p c).put p c' = fs.put p c' := by
  unfold FSys.put
  simp only [FSys.mk.injEq, true_and]
  funext n
  by_cases h : n = fs.node p
  · rw [if_pos h, if_pos h]
  · rw [if_neg h, if_neg h, if_neg h]

theorem openA_put (fs : FSys) (p : PyStr) (f : H5) : (fs.put p (.h5 f)).openA p = .ok f := by
  unfold FSys.openA
  rw [at_put]

theorem writeRecords_cons (h : H5Cfg) (comp : Option PyStr) (fmt : Format) (F : H5) (p : PyStr × Rec) (rs : Records) :
    writeRecords h comp fmt F (p :: rs) =
      match writeRecords h comp fmt F [p] with
      | (.error e, F') => (.error e, F')
      | (.ok (), F') => writeRecords h comp fmt F' rs := by
  obtain ⟨n, r⟩ := p
  rw [writeRecords, writeRecords]
  split
  · rfl
  · split
    · rfl
    · generalize writeFields h comp fmt.siteSingleTypes [] .new r = x
      obtain ⟨res, g⟩ := x
      cases res <;> rfl

/-- The rows of a file. -/
inductive RowsOf (rowOf : Nat → Except Err (PyStr × Rec)) : List Nat → Records → Prop
  | nil : RowsOf rowOf [] []
  | cons {i is p ps} : rowOf i = .ok p → RowsOf rowOf is ps → RowsOf rowOf (i :: is) (p :: ps)

/-- Writing the records one by one is writing them all. -/
theorem writeRows_eq (h : H5Cfg) (tkey : Elt → Except Err PyStr) (fmt : Format) (root : Group) (ts : NdArr)
    (out : PyStr) (comp : Option PyStr) {is : List Nat} {rs : Records}
    (hrs : RowsOf (rowOfFile tkey fmt root ts) is rs) : ∀ fs F, fs.openA out = .ok F →
    rs ≠ [] → writeRows h tkey fmt root ts false out comp is fs = writing fs out fun o => writeRecords h comp fmt o rs := by
  induction hrs with
  | nil => exact fun _ _ _ c => absurd rfl c
  | @cons i is p ps hp hps ih =>
    intro fs F hF _
    rw [writeRows, hp]
    simp only [Bool.false_eq_true, if_false]
    unfold writing
    rw [hF]
    simp only
    rw [writeRecords_cons h comp fmt F p ps]
    cases hw : writeRecords h comp fmt F [p] with
    | mk res F' =>
      cases res with
      | error e => rfl
      | ok u =>
        simp only
        cases ps with
        | nil =>
          cases hps
          rfl
        | cons q qs =>
          rw [ih _ F' (openA_put ..) (by simp)]
          unfold writing
          rw [openA_put]
          simp only
          generalize writeRecords h comp fmt F' (q :: qs) = y
          obtain ⟨res, F''⟩ := y
          simp only [put_put]

end Verif.Bor
