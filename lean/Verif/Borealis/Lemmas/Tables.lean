import Verif.Borealis.Lemmas.Fill
/-!
# Lemmas on dictionaries, records and tables of functions
-/
namespace Verif.Bor
open Verif

theorem get?_update {α : Type} {d e : Dict PyStr α} (he : e.NodupKeys) (k : PyStr) :
    (update d e).get? k = (e.get? k).or (d.get? k) := by
  unfold update
  induction e generalizing d with
  | nil => simp [Dict.get?]
  | cons p e ih =>
    obtain ⟨k', v⟩ := p
    have hn : k' ∉ Dict.keys e ∧ (Dict.keys e).Nodup := by
      simpa [Dict.NodupKeys] using he
    rw [List.foldl_cons, ih hn.2]
    simp only [Dict.get?]
    by_cases hk : k' = k
    · subst hk
      rw [if_pos rfl, Dict.get?_eq_none_iff.2 hn.1, Dict.get?_set_self]
      rfl
    · rw [if_neg hk, Dict.get?_set_ne _ hk]

theorem forFields_ok {α : Type} {g : PyStr → α → Except Err Val} {P : PyStr → α → Val → Prop}
    {l : List (PyStr × α)} (h : ∀ p ∈ l, ∃ v, g p.1 p.2 = .ok v ∧ P p.1 p.2 v) :
    ∃ r : Rec, forFields g l = .ok r ∧ r.keys = Dict.keys l ∧
      ∀ k v, (k, v) ∈ r → ∃ x, (k, x) ∈ l ∧ P k x v := by
  induction l with
  | nil => exact ⟨[], rfl, rfl, by simp⟩
  | cons p l ih =>
    obtain ⟨k, x⟩ := p
    obtain ⟨v, hv, hP⟩ := h (k, x) (List.mem_cons_self ..)
    obtain ⟨r, hr, hk, hPr⟩ := ih fun q hq => h q (List.mem_cons_of_mem _ hq)
    refine ⟨(k, v) :: r, ?_, by simp [hk], ?_⟩
    · simp only at hv
      simp [forFields, hv, hr, bind, Except.bind]
    · intro k' v' hm
      rcases List.mem_cons.1 hm with he | hm
      · cases he
        exact ⟨x, List.mem_cons_self .., hP⟩
      · obtain ⟨y, hy, hPy⟩ := hPr _ _ hm
        exact ⟨y, List.mem_cons_of_mem _ hy, hPy⟩

/-- The entry of a name in the result of `forFields`. -/
theorem forFields_get {α : Type} {g : PyStr → α → Except Err Val} {P : PyStr → α → Val → Prop}
    {l : List (PyStr × α)} (h : ∀ p ∈ l, ∃ v, g p.1 p.2 = .ok v ∧ P p.1 p.2 v) :
    ∃ r : Rec, forFields g l = .ok r ∧ r.keys = Dict.keys l ∧
      ∀ k, k ∈ Dict.keys l → ∃ v x, r.get? k = some v ∧ (k, x) ∈ l ∧ P k x v := by
  obtain ⟨r, hr, hk, hP⟩ := forFields_ok h
  refine ⟨r, hr, hk, fun k hkl => ?_⟩
  rw [← hk, Dict.mem_keys_iff] at hkl
  obtain ⟨v, hv⟩ := hkl
  obtain ⟨x, hx, hp⟩ := hP _ _ (Dict.mem_of_get? hv)
  exact ⟨v, x, hv, hx, hp⟩

theorem mapFieldsOf_ok {g : Val → Except Err Val} {ks : List PyStr} (hn : ks.Nodup) : ∀ {r : Rec},
    (∀ k ∈ ks, ∃ v v', r.get? k = some v ∧ g v = .ok v') →
    ∃ r', mapFieldsOf g r ks = .ok r' ∧ r'.keys = r.keys ∧ (∀ k, k ∉ ks → r'.get? k = r.get? k) ∧
      ∀ k ∈ ks, ∃ v v', r.get? k = some v ∧ g v = .ok v' ∧ r'.get? k = some v' := by
  induction ks with
  | nil => exact fun {r} _ => ⟨r, rfl, rfl, fun _ _ => rfl, by simp⟩
  | cons k ks ih =>
    intro r h
    obtain ⟨v, v', hv, hg⟩ := h k (List.mem_cons_self ..)
    rw [List.nodup_cons] at hn
    have hne : ∀ k' ∈ ks, k ≠ k' := fun k' hk' e => hn.1 (e ▸ hk')
    obtain ⟨r', hr', hkeys, hout, hin⟩ := ih hn.2 (r := r.set k v') fun k' hk' => by
      obtain ⟨w, w', hw, hgw⟩ := h k' (List.mem_cons_of_mem _ hk')
      exact ⟨w, w', by rw [Dict.get?_set_ne _ (hne k' hk')]; exact hw, hgw⟩
    refine ⟨r', ?_, ?_, ?_, ?_⟩
    · simp only [mapFieldsOf, field_ok hv, hg, bind, Except.bind]
      exact hr'
    · rw [hkeys, Dict.keys_set_of_mem (Dict.mem_keys_iff.2 ⟨v, hv⟩)]
    · intro k' hk'
      rw [List.mem_cons, not_or] at hk'
      rw [hout k' hk'.2, Dict.get?_set_ne _ (Ne.symm hk'.1)]
    · intro k' hk'
      rcases List.mem_cons.1 hk' with rfl | hk'
      · exact ⟨v, v', hv, hg, by rw [hout _ hn.1, Dict.get?_set_self]⟩
      · obtain ⟨w, w', hw, hgw, hr⟩ := hin k' hk'
        rw [Dict.get?_set_ne _ (hne k' hk')] at hw
        exact ⟨w, w', hw, hgw, hr⟩

theorem mapRecords_ok {g : Rec → Except Err Rec} {P : Rec → Rec → Prop} {rs : Records}
    (h : ∀ p ∈ rs, ∃ r', g p.2 = .ok r' ∧ P p.2 r') :
    ∃ rs', mapRecords g rs = .ok rs' ∧ rs'.length = rs.length ∧ rs'.keys = rs.keys ∧
      ∀ i (h : i < rs.length) (h' : i < rs'.length), P rs[i].2 rs'[i].2 := by
  induction rs with
  | nil => exact ⟨[], rfl, rfl, rfl, fun i h => absurd h (by simp)⟩
  | cons p rs ih =>
    obtain ⟨n, r⟩ := p
    obtain ⟨r', hr', hP⟩ := h (n, r) (List.mem_cons_self ..)
    obtain ⟨rs', hrs', hl, hk, hi⟩ := ih fun q hq => h q (List.mem_cons_of_mem _ hq)
    refine ⟨(n, r') :: rs', ?_, by simp [hl], by simp [hk], ?_⟩
    · simp only at hr'
      simp [mapRecords, hr', hrs', bind, Except.bind]
    · intro i h1 h2
      cases i with
      | zero => simpa using hP
      | succ i => simpa using hi i (by simpa using h1) (by simpa using h2)

end Verif.Bor
