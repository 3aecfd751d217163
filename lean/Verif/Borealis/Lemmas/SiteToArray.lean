import Verif.Borealis.Lemmas.Dims
/-!
# Lemmas on `_site_to_array`
-/
namespace Verif.Bor
open Verif

/-- The element of a scalar value. -/
def scalarElt : Val → Elt
  | .np _ e => e
  | .py _ e => e
  | .arr _ => .int 0

/-- The value of a field as an array. -/
def valArr (k : PyStr) (r : Rec) : NdArr :=
  match r.get? k with
  | some v => v.asArr
  | none => ⟨.u8, [], []⟩

theorem u256_self {s : PyStr} (h1 : s.length ≤ 256) (h2 : s.getLast? ≠ some '\x00') : u256 s = s := by
  unfold u256
  rw [List.take_of_length_le h1]
  have : s.reverse.dropWhile (fun x => decide (x = '\x00')) = s.reverse := by
    rw [List.getLast?_eq_head?_reverse] at h2
    cases hr : s.reverse with
    | nil => rfl
    | cons x l =>
      rw [hr] at h2
      have : x ≠ '\x00' := by simpa using h2
      simp [this]
  rw [this, List.reverse_reverse]

theorem fillOf_ok {ty : Ty} (h : Fillable ty) : ∃ e, fillOf ty = .ok e := by
  rcases h with rfl | rfl | rfl | rfl | rfl | rfl | rfl | rfl <;> exact ⟨_, rfl⟩

theorem fillOf_padding {ty : Ty} (h : Fillable ty) (h1 : ty ≠ .str) (h2 : ty ≠ .npBool) :
    fillOf ty = .ok (padding ty) := by
  rcases h with rfl | rfl | rfl | rfl | rfl | rfl | rfl | rfl <;> first | rfl | exact absurd rfl h1 | exact absurd rfl h2

/-- The array of a scalar field. -/
def ScalarStack (rs : Records) (k : PyStr) (ty : Ty) (a : NdArr) : Prop :=
  a.ty = arrayTy ty ∧ a.WF ∧ a.shape = [rs.length] ∧
    ∀ j (h : j < rs.length), ∃ v, rs[j].2.get? k = some v ∧ a.get [j] = scalarElt v

/-- The array of an array field. -/
def ArrayStack (rs : Records) (k : PyStr) (ty : Ty) (M : List Nat) (a : NdArr) : Prop :=
  a.ty = ty ∧ a.WF ∧ a.shape = rs.length :: M ∧
    ∀ j (h : j < rs.length), ∃ b, rs[j].2.get? k = some (.arr b) ∧
      ∀ is, inBounds M is = true →
        a.get (j :: is) = if inBounds b.shape is = true then b.get is else padding ty

theorem buildField_scalar {f : Format} {rs : Records} {first : Rec} {n0 : PyStr} {k : PyStr} {ty : Ty}
    (hfirst : (n0, first) ∈ rs)
    (hs : f.single.get? k = some ty) (hf : Fillable ty)
    (h : ∀ p ∈ rs, ∃ v, p.2.get? k = some v ∧ ScalarOK ty v) :
    ∃ a, buildField f rs first k [] = .ok (.arr a) ∧ ScalarStack rs k ty a := by
  obtain ⟨e, he⟩ := fillOf_ok hf
  obtain ⟨v0, hv0, hok0⟩ := h _ hfirst
  have hA : v0.isArr = false := by
    unfold ScalarOK at hok0
    split at hok0
    · obtain ⟨s, rfl, -⟩ := hok0; rfl
    · obtain ⟨e, rfl⟩ := hok0; rfl
  have hfill := fillField_ok (t := ty) (k := k) (isA := false) (N := rs.length) (M := [])
    (b := valArr k) (rs := rs) (a := .ofFn (arrayTy ty) (rs.length :: []) fun _ => e) (i := 0)
    rfl (NdArr.wf_ofFn ..) (by simp) (fun p hp => by
      obtain ⟨v, hv, hok⟩ := h p hp
      have hsh : v.asArr.shape = [] := by
        unfold ScalarOK at hok
        split at hok
        · obtain ⟨s, rfl, -⟩ := hok; rfl
        · obtain ⟨e, rfl⟩ := hok; rfl
      have hb : valArr k p.2 = v.asArr := by rw [valArr, hv]
      refine ⟨v, hv, hb.symm, ?_, ?_⟩
      · rw [hb, hsh]; rfl
      · rw [hb, hsh]; exact fits_nil)
  obtain ⟨a, ha, hsh, hty, hw, hget, -⟩ := hfill
  refine ⟨a, ?_, hty, hw, hsh, ?_⟩
  · simp only [buildField, evalDims, toShape, Format.typeOf, hs, he, field_ok hv0, hA, ha, bind,
      Except.bind]
  · intro j hj
    obtain ⟨v, hv, hok⟩ := h rs[j] (List.getElem_mem hj)
    refine ⟨v, hv, ?_⟩
    have := hget j hj [] rfl
    rw [Nat.zero_add] at this
    rw [this]
    have hb : valArr k rs[j].2 = v.asArr := by rw [valArr, hv]
    rw [hb]
    unfold ScalarOK at hok
    split at hok
    · rename_i hstr
      obtain ⟨s, rfl, h1, h2⟩ := hok
      subst hstr
      have : u256 s = s := u256_self h1 h2
      simp [Val.asArr, inBounds, NdArr.get, NdArr.get?, ravel, storeAs, scalarElt, this]
    · rename_i hstr
      obtain ⟨e', rfl⟩ := hok
      simp [Val.asArr, inBounds, NdArr.get, NdArr.get?, ravel, storeAs, scalarElt, hstr]

theorem buildField_array {f : Format} {rs : Records} {first : Rec} {n0 : PyStr} {k : PyStr} {ty : Ty}
    {M : List Nat} {dims : List DimA}
    (hfirst : (n0, first) ∈ rs) (hd : evalDims rs dims = .ok (M.map Int.ofNat))
    (hs : f.single.get? k = none) (ha : f.arrays.get? k = some ty) (hf : Fillable ty)
    (hns : ty ≠ .str) (hnb : ty ≠ .npBool)
    (h : ∀ p ∈ rs, ∃ b, p.2.get? k = some (.arr b) ∧ b.ty = ty ∧ Fits b.shape M) :
    ∃ a, buildField f rs first k dims = .ok (.arr a) ∧ ArrayStack rs k ty M a := by
  have he := fillOf_padding hf hns hnb
  obtain ⟨b0, hb0, -, -⟩ := h _ hfirst
  have hfill := fillField_ok (t := ty) (k := k) (isA := true) (N := rs.length) (M := M)
    (b := valArr k) (rs := rs) (a := .ofFn (arrayTy ty) (rs.length :: M) fun _ => padding ty) (i := 0)
    rfl (NdArr.wf_ofFn ..) (by simp) (fun p hp => by
      obtain ⟨b, hb, -, hfit⟩ := h p hp
      have e : valArr k p.2 = b := by rw [valArr, hb]; rfl
      exact ⟨.arr b, hb, e.symm, by rw [e]; rfl, by rw [e]; exact hfit⟩)
  obtain ⟨a, hfa, hsh, hty, hw, hget, -⟩ := hfill
  have hat : arrayTy ty = ty := by simp [arrayTy, hns]
  refine ⟨a, ?_, by rw [hty]; exact hat, hw, hsh, ?_⟩
  · simp only [buildField, hd, toShape_ofNat, Format.typeOf, hs, field_ok ha, he, field_ok hb0, Val.isArr,
      hfa, bind, Except.bind]
  · intro j hj
    obtain ⟨b, hb, hbt, -⟩ := h rs[j] (List.getElem_mem hj)
    refine ⟨b, hb, fun is his => ?_⟩
    have := hget j hj is his
    rw [Nat.zero_add] at this
    have e : valArr k rs[j].2 = b := by rw [valArr, hb]; rfl
    rw [this, e, hbt, NdArr.get_ofFn (inBounds_cons.2 ⟨hj, his⟩)]
    simp [storeAs, hns]

/-- The shape of a field of a record fits the maximum dimensions. -/
theorem fits_shape {f t o c rs flat} (h : SiteRecords f t o c flat rs) {p : PyStr × Rec} (hp : p ∈ rs)
    (k : PyStr) : Fits ((shapeOf o t k).map (Q.size c p.2)) ((shapeOf o t k).map (Q.max c rs)) := by
  have hle : ∀ i (h1 : i < ((shapeOf o t k).map (Q.size c p.2)).length)
      (h2 : i < ((shapeOf o t k).map (Q.max c rs)).length),
      ((shapeOf o t k).map (Q.size c p.2))[i] ≤ ((shapeOf o t k).map (Q.max c rs))[i] := by
    intro i h1 h2
    simp only [List.getElem_map]
    exact size_le_max hp
  have hlen : ((shapeOf o t k).map (Q.size c p.2)).length = ((shapeOf o t k).map (Q.max c rs)).length := by
    simp
  rcases shapeOf_pos o t k with hb | hn | hpos
  · rcases h.blanked with h0 | h1
    · rw [hb]
      have e1 : Q.size c p.2 .blanked = 0 := h0 p hp
      have e2 : Q.max c rs .blanked = 0 := max_const h.nonempty h0
      rw [List.map_cons, List.map_cons, e1, e2]
      exact fits_empty
    · refine fits_of_le hlen hle ?_
      rw [hb]
      intro d hd
      rw [List.map_cons, List.map_nil, List.mem_singleton] at hd
      subst hd
      exact h1 p hp
  · rw [hn]
    have e2 : Q.max c rs .none = 0 := max_const h.nonempty fun _ _ => rfl
    rw [List.map_cons, List.map_cons, e2]
    exact fits_empty
  · refine fits_of_le hlen hle ?_
    intro d hd
    obtain ⟨q, hq, rfl⟩ := List.mem_map.1 hd
    have h1 := hpos q hq
    have hr := h.recs p hp
    have hpc := h.pos
    unfold Common.Pos at hpc
    cases q with
    | seqs =>
      obtain ⟨n, hn, hv⟩ := hr.seqs
      simp [Q.size, seqsOf, hv]; omega
    | beams => have := hr.beams; simp only [Q.size]; omega
    | blanked => exact absurd rfl h1.1
    | none => exact absurd rfl h1.2
    | _ => simp only [Q.size]; omega

/-- The arrays made of the records. -/
structure Stacked (f : Format) (t : FType) (o : Ppo) (c : Common) (rs : Records) (A : Rec) : Prop where
  scalar : ∀ k ty, k ∈ f.unshared → f.single.get? k = some ty →
    ∃ a, A.get? k = some (.arr a) ∧ ScalarStack rs k ty a
  array : ∀ k ty, k ∈ f.unshared → f.single.get? k = none → f.arrays.get? k = some ty →
    ∃ a, A.get? k = some (.arr a) ∧ ArrayStack rs k ty ((shapeOf o t k).map (Q.max c rs)) a
  shared : ∀ p, rs[0]? = some p → ∀ k ∈ f.shared, k ∉ f.unshared → A.get? k = p.2.get? k
  lens : ∀ k k', f.genArray.get? k = some (.lens k') → A.get? k = some (numbers (rs.map fun p => lenOf k' p.2))
  consts : ∀ k ty l, f.genArray.get? k = some (.const ty l) → A.get? k = some (vec ty (l.map (constElt ty)))
  keys : ∀ k, k ∈ A.keys ↔ k ∈ f.arrayFields

theorem lensOf_ok {k : PyStr} : ∀ {rs : Records},
    (∀ p ∈ rs, ∃ a n l, p.2.get? k = some (.arr a) ∧ a.shape = n :: l) →
    lensOf k rs = .ok (rs.map fun p => lenOf k p.2)
  | [], _ => rfl
  | (nm, r) :: rs, h => by
    obtain ⟨a, n, l, ha, hs⟩ := h (nm, r) (List.mem_cons_self ..)
    simp only at ha
    have ih := lensOf_ok (rs := rs) fun q hq => h q (List.mem_cons_of_mem _ hq)
    simp [lensOf, field_ok ha, Val.len, hs, ih, lenOf, ha, bind, Except.bind]

theorem stackRecords_ok {f t o c rs flat} (hc : Coherent f t flat) (h : SiteRecords f t o c [] rs) :
    ∃ A, stackRecords f rs = .ok A ∧ Stacked f t o c rs A := by
  obtain ⟨⟨n0, first⟩, hp0, hg0, hfirst⟩ := firstRec_ok h.nonempty
  have h0 := h.recs _ hp0
  -- shared fields
  obtain ⟨sh, hsh, hshk, hshg⟩ := forFields_get (g := fun k (_ : Unit) => field first k)
    (P := fun k _ v => first.get? k = some v) (l := f.shared.map fun k => (k, ())) (fun p hp => by
      obtain ⟨k, hk, rfl⟩ := List.mem_map.1 hp
      obtain ⟨v, hv⟩ := Dict.mem_keys_iff.1 (h0.shared k hk)
      exact ⟨v, field_ok hv, hv⟩)
  -- generated fields
  obtain ⟨sp, hsp, hspk, hspg⟩ := forFields_get (g := fun _ g => evalGenA rs g)
    (P := fun _ g v => match g with
      | .lens k' => v = numbers (rs.map fun p => lenOf k' p.2)
      | .const ty l => v = vec ty (l.map (constElt ty))) (l := f.genArray) (fun p hp => by
      have hcoh := hc.cohGA p hp
      unfold CohGA at hcoh
      cases hg : p.2 with
      | const ty l => exact ⟨_, rfl, rfl⟩
      | lens k' =>
        rw [hg] at hcoh
        simp only [decide_eq_true_eq] at hcoh
        obtain ⟨harr, -, hk⟩ := hcoh
        have hl : lensOf k' rs = .ok (rs.map fun p => lenOf k' p.2) := lensOf_ok fun p hp => by
          obtain ⟨a, ty, -, ha, -, -, has⟩ := (h.recs p hp).arr harr (by simp)
          rcases hk with rfl | rfl
          · rw [hc.shapes.1] at has; exact ⟨a, _, _, ha, has⟩
          · rw [hc.shapes.2.2] at has; exact ⟨a, _, _, ha, has⟩
        refine ⟨_, ?_, rfl⟩
        simp [evalGenA, hl, bind, Except.bind, vec, numbers])
  -- unshared fields
  obtain ⟨un, hun, hunk, hung⟩ := forFields_get (g := fun k dims => buildField f rs first k dims)
    (P := fun k _ v => ∃ a, v = .arr a ∧
      (∀ ty, f.single.get? k = some ty → ScalarStack rs k ty a) ∧
      (∀ ty, f.single.get? k = none → f.arrays.get? k = some ty →
        ArrayStack rs k ty ((shapeOf o t k).map (Q.max c rs)) a)) (l := f.dimsArray) (fun p hp => by
      obtain ⟨k, dims⟩ := p
      have hu : k ∈ f.unshared := List.mem_map.2 ⟨_, hp, rfl⟩
      have hcoh := hc.cohA _ hp
      unfold CohA at hcoh
      cases hs : f.single.get? k with
      | some ty =>
        simp only [hs, decide_eq_true_eq] at hcoh
        obtain ⟨rfl, hfil⟩ := hcoh
        obtain ⟨a, ha, hst⟩ := buildField_scalar (f := f) (k := k) hp0 hs hfil
          (fun p hp => (h.recs p hp).scalar k ty hu hs)
        exact ⟨.arr a, ha, a, rfl, fun ty' e => by cases e; exact hst, fun ty' e => by cases e⟩
      | none =>
        cases hat : f.arrays.get? k with
        | none => simp [hs, hat] at hcoh
        | some ty =>
          simp only [hs, hat, decide_eq_true_eq] at hcoh
          obtain ⟨hfil, hns, hnb, hdim⟩ := hcoh
          have hev : evalDims rs dims = .ok (((shapeOf o t k).map (Q.max c rs)).map Int.ofNat) := by
            by_cases hk : k = py! "pulse_phase_offset"
            · subst hk
              rw [if_pos rfl] at hdim
              subst hdim
              simp [evalDims, evalDimA, findMaxPpo_ok h hu hs hat, bind, Except.bind, shapeOf]
            · rw [if_neg hk] at hdim
              rw [evalDims_ok hc h hdim]
              simp [shapeOf, hk]
          obtain ⟨a, ha, hst⟩ := buildField_array (f := f) (k := k) hp0 hev hs hat hfil hns hnb
            (fun p hp => by
              obtain ⟨b, hb, hbt, -, hbs⟩ := (h.recs p hp).array k ty hu hs hat
              refine ⟨b, hb, hbt, ?_⟩
              rw [hbs]
              simpa [storedShape] using fits_shape h hp k)
          exact ⟨.arr a, ha, a, rfl, fun ty' e => (by cases e), fun ty' _ e => by cases e; exact hst⟩)
  have hnsh : sh.NodupKeys := by
    unfold Dict.NodupKeys
    rw [hshk]
    have : Dict.keys (f.shared.map fun k => (k, ())) = f.shared := by
      unfold Dict.keys; rw [List.map_map]; exact List.map_id _
    rw [this]
    exact hc.nodupS
  have hnsp : sp.NodupKeys := by unfold Dict.NodupKeys; rw [hspk]; exact hc.nodupGA
  have hnun : un.NodupKeys := by unfold Dict.NodupKeys; rw [hunk]; exact hc.nodupU
  have hshk' : ∀ k, k ∈ sh.keys ↔ k ∈ f.shared := by
    intro k; rw [hshk]; simp [Dict.keys]
  have hspk' : ∀ k, k ∈ sp.keys ↔ k ∈ f.arraySpecific := by intro k; rw [hspk]; rfl
  have hunk' : ∀ k, k ∈ un.keys ↔ k ∈ f.unshared := by intro k; rw [hunk]; rfl
  have hget : ∀ k, (update (update (update [] sh) sp) un).get? k =
      (un.get? k).or ((sp.get? k).or (sh.get? k)) := by
    intro k
    rw [get?_update hnun, get?_update hnsp, get?_update hnsh]
    simp [Dict.get?]
  have hgetU : ∀ k, k ∈ f.unshared → (update (update (update [] sh) sp) un).get? k = un.get? k := by
    intro k hk
    rw [← hunk', Dict.mem_keys_iff] at hk
    obtain ⟨v, hv⟩ := hk
    rw [hget, hv]; rfl
  have hgetG : ∀ k, k ∈ f.arraySpecific → (update (update (update [] sh) sp) un).get? k = sp.get? k := by
    intro k hk
    have hn : un.get? k = none := by
      rw [Dict.get?_eq_none_iff, hunk']; exact (hc.disjA k hk).1
    rw [← hspk', Dict.mem_keys_iff] at hk
    obtain ⟨v, hv⟩ := hk
    rw [hget, hn, hv]; rfl
  refine ⟨update (update (update [] sh) sp) un, ?_, ?_, ?_, ?_, ?_, ?_, ?_⟩
  · simp [stackRecords, hfirst, hsh, hsp, hun, bind, Except.bind]
  · intro k ty hu hs
    obtain ⟨v, _, hv, -, a, rfl, hsc, -⟩ := hung k hu
    exact ⟨a, by rw [hgetU k hu, hv], hsc ty hs⟩
  · intro k ty hu hs ha
    obtain ⟨v, _, hv, -, a, rfl, -, har⟩ := hung k hu
    exact ⟨a, by rw [hgetU k hu, hv], har ty hs ha⟩
  · intro p hp k hk hu
    rw [hg0] at hp
    cases hp
    have hn : un.get? k = none := by rw [Dict.get?_eq_none_iff, hunk']; exact hu
    have hn2 : sp.get? k = none := by
      rw [Dict.get?_eq_none_iff, hspk']; exact fun hk' => (hc.disjA k hk').2 hk
    obtain ⟨v, _, hv, -, hP⟩ := hshg k (by simpa [Dict.keys] using hk)
    rw [hget, hn, hn2, hv, hP]; rfl
  · intro k k' hg
    have hk : k ∈ f.arraySpecific := Dict.mem_keys_iff.2 ⟨_, hg⟩
    obtain ⟨v, x, hv, hx, hP⟩ := hspg k hk
    have : x = .lens k' := by
      have := Dict.get?_of_mem hc.nodupGA hx
      rw [hg] at this; cases this; rfl
    subst this
    rw [hgetG k hk, hv, hP]
  · intro k ty l hg
    have hk : k ∈ f.arraySpecific := Dict.mem_keys_iff.2 ⟨_, hg⟩
    obtain ⟨v, x, hv, hx, hP⟩ := hspg k hk
    have : x = .const ty l := by
      have := Dict.get?_of_mem hc.nodupGA hx
      rw [hg] at this; cases this; rfl
    subst this
    rw [hgetG k hk, hv, hP]
  · intro k
    have e : k ∈ (update (update (update [] sh) sp) un).keys ↔
        ¬ (un.get? k).or ((sp.get? k).or (sh.get? k)) = none := by
      rw [← hget k, Dict.get?_eq_none_iff, Decidable.not_not]
    rw [e]
    simp only [Format.arrayFields, List.mem_append, Option.or_eq_none_iff, Dict.get?_eq_none_iff, hunk',
      hspk', hshk']
    by_cases h1 : k ∈ f.unshared <;> by_cases h2 : k ∈ f.arraySpecific <;> by_cases h3 : k ∈ f.shared <;>
      simp [h1, h2, h3]

end Verif.Bor
