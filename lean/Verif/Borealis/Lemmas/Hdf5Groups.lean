import Verif.Borealis.Lemmas.Hdf5
/-!
# Groups of HDF5 files
-/
namespace Verif.Bor
open Verif

/-! ## Writing fields -/

theorem get?_append_one {α : Type} {d : Dict PyStr α} {k : PyStr} {a : α} (h : k ∉ d.keys) (k' : PyStr) :
    Dict.get? (d ++ [(k, a)]) k' = if k' = k then some a else d.get? k' := by
  rw [← Dict.set_of_not_mem h]
  by_cases hk : k' = k
  · subst hk; rw [if_pos rfl, Dict.get?_set_self]
  · rw [if_neg hk, Dict.get?_set_ne _ (fun e => hk e.symm)]

/-- What a successful `writeFields` does. -/
structure Written (h : H5Cfg) (comp : Option PyStr) (attrs : TyTable) (taken : List PyStr) (g : Group) (r : Rec)
    (g' : Group) : Prop where
  attr : ∀ k v, (k, v) ∈ r → k ∈ attrs.keys → ∃ a, storeAttr v = .ok a ∧ g'.attrs.get? k = some a
  dset : ∀ k v, (k, v) ∈ r → k ∉ attrs.keys →
    ∃ d, storeDset h comp v = .ok d ∧ g'.dsets.get? k = some d ∧ k ∉ taken ∧ k ∉ g.dsets.keys
  oldAttr : ∀ k, ¬ (k ∈ r.keys ∧ k ∈ attrs.keys) → g'.attrs.get? k = g.attrs.get? k
  oldDset : ∀ k, ¬ (k ∈ r.keys ∧ k ∉ attrs.keys) → g'.dsets.get? k = g.dsets.get? k
  nodupAttrs : g.attrs.NodupKeys → g'.attrs.NodupKeys
  nodupDsets : g.dsets.NodupKeys → g'.dsets.NodupKeys

theorem writeFields_written {h : H5Cfg} {comp : Option PyStr} {attrs : TyTable} {taken : List PyStr}
    {g g' : Group} {r : Rec} (hn : r.NodupKeys) (hw : writeFields h comp attrs taken g r = (.ok (), g')) :
    Written h comp attrs taken g r g' := by
  induction r generalizing g with
  | nil =>
    cases hw
    exact ⟨by simp, by simp, fun _ _ => rfl, fun _ _ => rfl, id, id⟩
  | cons p r ih =>
    obtain ⟨k, v⟩ := p
    have hk : k ∉ Dict.keys r := (List.nodup_cons.1 hn).1
    have hn' : Dict.NodupKeys r := (List.nodup_cons.1 hn).2
    rw [writeFields] at hw
    by_cases ha : k ∈ attrs.keys
    · rw [if_pos ha] at hw
      cases hs : storeAttr v with
      | error e => rw [hs] at hw; cases hw
      | ok a =>
        rw [hs] at hw
        have w := ih hn' hw
        refine ⟨?_, ?_, ?_, ?_, ?_, w.nodupDsets⟩
        · intro k' v' hm hk'
          rcases List.mem_cons.1 hm with he | hm
          · cases he
            refine ⟨a, hs, ?_⟩
            rw [w.oldAttr k (fun c => hk c.1)]
            exact Dict.get?_set_self _ _ _
          · exact w.attr k' v' hm hk'
        · intro k' v' hm hk'
          rcases List.mem_cons.1 hm with he | hm
          · cases he; exact absurd ha hk'
          · exact w.dset k' v' hm hk'
        · intro k' hc
          by_cases he : k = k'
          · subst he; exact absurd ⟨by simp, ha⟩ hc
          · rw [w.oldAttr k' fun c => hc ⟨by simp [c.1], c.2⟩]
            exact Dict.get?_set_ne _ he _
        · intro k' hc
          exact w.oldDset k' fun c => hc ⟨by simp [c.1], c.2⟩
        · exact fun hg => w.nodupAttrs (Dict.nodup_set hg _ _)
    · rw [if_neg ha] at hw
      cases hs : storeDset h comp v with
      | error e => rw [hs] at hw; cases hw
      | ok d =>
        rw [hs] at hw
        simp only at hw
        split at hw
        · cases hw
        · rename_i ht
          have w := ih hn' hw
          have hkd : k ∉ g.dsets.keys := fun c => ht (.inr c)
          refine ⟨?_, ?_, ?_, ?_, w.nodupAttrs, ?_⟩
          · intro k' v' hm hk'
            rcases List.mem_cons.1 hm with he | hm
            · cases he; exact absurd hk' ha
            · exact w.attr k' v' hm hk'
          · intro k' v' hm hk'
            rcases List.mem_cons.1 hm with he | hm
            · cases he
              refine ⟨d, hs, ?_, fun c => ht (.inl c), hkd⟩
              rw [w.oldDset k (fun c => hk c.1)]
              simp [get?_append_one hkd]
            · obtain ⟨d', h1, h2, h3, h4⟩ := w.dset k' v' hm hk'
              refine ⟨d', h1, h2, h3, fun c => h4 ?_⟩
              simp [c]
          · intro k' hc
            exact w.oldAttr k' fun c => hc ⟨by simp [c.1], c.2⟩
          · intro k' hc
            have he : k' ≠ k := fun e => hc (by subst e; exact ⟨by simp, ha⟩)
            rw [w.oldDset k' fun c => hc ⟨by simp [c.1], c.2⟩]
            simp [get?_append_one hkd, he]
          · intro hg
            refine w.nodupDsets ?_
            show Dict.NodupKeys (g.dsets ++ [(k, d)])
            rw [← Dict.set_of_not_mem hkd]
            exact Dict.nodup_set hg _ _

/-- When `writeFields` succeeds. -/
theorem writeFields_ok {h : H5Cfg} {comp : Option PyStr} {attrs : TyTable} {taken : List PyStr}
    {g : Group} {r : Rec} (hn : r.NodupKeys)
    (ha : ∀ k v, (k, v) ∈ r → k ∈ attrs.keys → ∃ a, storeAttr v = .ok a)
    (hd : ∀ k v, (k, v) ∈ r → k ∉ attrs.keys → (∃ d, storeDset h comp v = .ok d) ∧ k ∉ taken ∧ k ∉ g.dsets.keys) :
    (writeFields h comp attrs taken g r).1 = .ok () := by
  induction r generalizing g with
  | nil => rfl
  | cons p r ih =>
    obtain ⟨k, v⟩ := p
    have hk : k ∉ Dict.keys r := (List.nodup_cons.1 hn).1
    have hn' : Dict.NodupKeys r := (List.nodup_cons.1 hn).2
    rw [writeFields]
    by_cases hka : k ∈ attrs.keys
    · obtain ⟨a, hs⟩ := ha k v (by simp) hka
      rw [if_pos hka, hs]
      exact ih hn' (fun k' v' hm hk' => ha k' v' (by simp [hm]) hk')
        (fun k' v' hm hk' => hd k' v' (by simp [hm]) hk')
    · obtain ⟨⟨d, hs⟩, h1, h2⟩ := hd k v (by simp) hka
      rw [if_neg hka, hs]
      simp only
      rw [if_neg (by simp [h1, h2])]
      refine ih hn' (fun k' v' hm hk' => ha k' v' (by simp [hm]) hk') fun k' v' hm hk' => ?_
      obtain ⟨h3, h4, h5⟩ := hd k' v' (by simp [hm]) hk'
      refine ⟨h3, h4, ?_⟩
      have hne : k' ≠ k := fun e => hk (e ▸ List.mem_map_of_mem hm)
      simp [h5, hne]

/-! ## Reading fields -/

theorem readAttrs_back {l : Dict PyStr Attr} {f : PyStr → Val}
    (h : ∀ k a, (k, a) ∈ l → k ∉ defaultAttrs ∧ readAttr a = .ok (f k)) :
    readAttrs l = .ok (l.map fun p => (p.1, f p.1)) := by
  induction l with
  | nil => rfl
  | cons p l ih =>
    obtain ⟨k, a⟩ := p
    obtain ⟨h1, h2⟩ := h k a (by simp)
    rw [readAttrs, if_neg h1, h2, ih fun k a hm => h k a (by simp [hm])]
    rfl

theorem readDsets_back {l : Dict PyStr Dset} {f : PyStr → Val}
    (h : ∀ k d, (k, d) ∈ l → readDset d = .ok (f k)) :
    readDsets l = .ok (l.map fun p => (p.1, f p.1)) := by
  induction l with
  | nil => rfl
  | cons p l ih =>
    obtain ⟨k, a⟩ := p
    rw [readDsets, h k a (by simp), ih fun k a hm => h k a (by simp [hm])]
    rfl

theorem keys_map_pair {α β : Type} (l : Dict PyStr α) (f : PyStr → β) :
    Dict.keys (l.map fun p => (p.1, f p.1)) = l.keys := by
  simp [Dict.keys, Function.comp_def]

theorem get?_map_pair {α β : Type} (l : Dict PyStr α) (f : PyStr → β) (k : PyStr) :
    Dict.get? (l.map fun p => (p.1, f p.1)) k = if k ∈ l.keys then some (f k) else none := by
  induction l with
  | nil => rfl
  | cons p l ih =>
    rw [List.map_cons, Dict.get?]
    by_cases h : p.1 = k
    · subst h; simp
    · have h' : ¬ k = p.1 := fun e => h e.symm
      simp [h, h', ih]

/-- A type that is none of those named. -/
def Ty.isOther : Ty → Bool
  | .other _ => true
  | _ => false

/-- The fields of a table that a new group can give back. -/
structure Plain (attrs : TyTable) : Prop where
  names : ∀ k ∈ attrs.keys, k ∉ defaultAttrs
  types : ∀ k t, (k, t) ∈ attrs → t ≠ .npStr ∧ t ≠ .npBytes ∧ t ≠ .pyInt ∧ t ≠ .pyFloat
  known : ∀ k t, (k, t) ∈ attrs → t.isOther = false

/-- A record written to a new group comes back. -/
theorem group_back {h : H5Cfg} (hf : h.Fits) {comp : Option PyStr} {attrs dsets : TyTable} (hp : Plain attrs)
    {taken : List PyStr} {r : Rec} {g : Group} (hn : r.NodupKeys) (hk : KeptRec dsets r)
    (hs : ∀ k t v, (k, t) ∈ attrs → Holds r k v → IsScalar t v)
    (hd : ∀ k, k ∈ r.keys → k ∉ attrs.keys → Listed dsets k)
    (hw : writeFields h comp attrs taken .new r = (.ok (), g)) :
    ∃ r', readGroup g = .ok r' ∧ SameFields r r' ∧ r'.NodupKeys := by
  have w := writeFields_written hn hw
  have val : ∀ k, k ∈ r.keys → ∃ v, r.get? k = some v := fun k hm => Dict.mem_keys_iff.1 hm
  let f : PyStr → Val := fun k => (r.get? k).getD (.np .u8 (.int 0))
  have hf' : ∀ k v, r.get? k = some v → f k = v := by intro k v he; simp [f, he]
  have inAttr : ∀ k, k ∈ g.attrs.keys → k ∈ r.keys ∧ k ∈ attrs.keys := by
    intro k hm
    by_cases hc : k ∈ r.keys ∧ k ∈ attrs.keys
    · exact hc
    · obtain ⟨a, ha⟩ := Dict.mem_keys_iff.1 hm
      rw [w.oldAttr k hc] at ha
      cases ha
  have inDset : ∀ k, k ∈ g.dsets.keys → k ∈ r.keys ∧ k ∉ attrs.keys := by
    intro k hm
    by_cases hc : k ∈ r.keys ∧ k ∉ attrs.keys
    · exact hc
    · obtain ⟨a, ha⟩ := Dict.mem_keys_iff.1 hm
      rw [w.oldDset k hc] at ha
      cases ha
  have na : g.attrs.NodupKeys := w.nodupAttrs List.nodup_nil
  have nd : g.dsets.NodupKeys := w.nodupDsets List.nodup_nil
  have ha : readAttrs g.attrs = .ok (g.attrs.map fun p => (p.1, f p.1)) := by
    refine readAttrs_back fun k a hm => ?_
    obtain ⟨h1, h2⟩ := inAttr k (List.mem_map_of_mem (f := Prod.fst) hm)
    obtain ⟨v, hv⟩ := val k h1
    obtain ⟨a', hs', hg⟩ := w.attr k v (Dict.mem_of_get? hv) h2
    rw [Dict.get?_of_mem na hm] at hg
    cases hg
    obtain ⟨t, ht⟩ := listed_iff.2 h2
    obtain ⟨t1, t2, t3, t4⟩ := hp.types k t ht
    exact ⟨hp.names k h2, by rw [hf' k v hv, attr_back (hs k t v ht hv) t1 t2 t3 t4 (hk k v hv).1 hs']⟩
  have hd' : readDsets g.dsets = .ok (g.dsets.map fun p => (p.1, f p.1)) := by
    refine readDsets_back fun k d hm => ?_
    obtain ⟨h1, h2⟩ := inDset k (List.mem_map_of_mem (f := Prod.fst) hm)
    obtain ⟨v, hv⟩ := val k h1
    obtain ⟨d', hs', hg, _⟩ := w.dset k v (Dict.mem_of_get? hv) h2
    rw [Dict.get?_of_mem nd hm] at hg
    cases hg
    obtain ⟨h3, h4⟩ := hk k v hv
    obtain ⟨a, rfl⟩ := h4 (hd k h1 h2)
    rw [hf' k _ hv, dset_back hf h3 hs']
  refine ⟨update (g.dsets.map fun p => (p.1, f p.1)) (g.attrs.map fun p => (p.1, f p.1)), ?_, ?_, ?_⟩
  · unfold readGroup
    rw [hd', ha]
    rfl
  · intro k v
    unfold Holds
    rw [get?_update (by unfold Dict.NodupKeys; rw [keys_map_pair]; exact na), get?_map_pair, get?_map_pair]
    by_cases h1 : k ∈ r.keys
    · obtain ⟨v', hv⟩ := val k h1
      have hmem : k ∈ g.attrs.keys ∨ k ∉ g.attrs.keys ∧ k ∈ g.dsets.keys := by
        by_cases h2 : k ∈ attrs.keys
        · obtain ⟨a, _, hg⟩ := w.attr k v' (Dict.mem_of_get? hv) h2
          exact .inl (Dict.mem_keys_iff.2 ⟨_, hg⟩)
        · obtain ⟨d, _, hg, _⟩ := w.dset k v' (Dict.mem_of_get? hv) h2
          exact .inr ⟨fun c => h2 (inAttr k c).2, Dict.mem_keys_iff.2 ⟨_, hg⟩⟩
      rcases hmem with h2 | ⟨h2, h3⟩
      · simp [h2, hf' k v' hv, hv]
      · simp [h2, h3, hf' k v' hv, hv]
    · have h2 : k ∉ g.attrs.keys := fun c => h1 (inAttr k c).1
      have h3 : k ∉ g.dsets.keys := fun c => h1 (inDset k c).1
      have h4 : Dict.get? r k = none := Dict.get?_eq_none_iff.2 h1
      simp [h2, h3, h4]
  · have : ∀ (e d : Dict PyStr Val), d.NodupKeys → (update d e).NodupKeys := by
      intro e
      induction e with
      | nil => exact fun d hd => hd
      | cons p e ih => exact fun d hd => ih _ (Dict.nodup_set hd _ _)
    exact this _ _ (by unfold Dict.NodupKeys; rw [keys_map_pair]; exact nd)

end Verif.Bor
