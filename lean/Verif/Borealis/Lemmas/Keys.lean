import Verif.Borealis.Lemmas.ArrayToSite
/-!
# Lemmas on the names of the records that `_array_to_site` makes
-/
namespace Verif.Bor
open Verif

theorem nodup_foldl_set {α : Type} (l : List (PyStr × α)) : ∀ (d : Dict PyStr α), d.NodupKeys →
    Dict.NodupKeys (l.foldl (fun d p => d.set p.1 p.2) d) := by
  induction l with
  | nil => exact fun _ h => h
  | cons p l ih => exact fun d h => ih _ (Dict.nodup_set h ..)

theorem nodup_ofList {α : Type} (l : List (PyStr × α)) : (Dict.ofList l).NodupKeys :=
  nodup_foldl_set l [] List.nodup_nil

theorem get?_foldl_set {α : Type} (l : List (PyStr × α)) (k : PyStr) : ∀ (d : Dict PyStr α),
    Dict.get? (l.foldl (fun d p => d.set p.1 p.2) d) k =
      ((l.reverse.find? fun p => p.1 = k).map Prod.snd).or (d.get? k) := by
  induction l with
  | nil => intro d; simp
  | cons p l ih =>
    intro d
    rw [List.foldl_cons, ih, List.reverse_cons, List.find?_append]
    cases l.reverse.find? fun p => p.1 = k with
    | some q => simp
    | none =>
      by_cases hk : p.1 = k
      · subst hk
        simp [Dict.get?_set_self]
      · simp [hk, Dict.get?_set_ne _ hk]

/-- The last entry with a name is the one that stays. -/
theorem get?_ofList {α : Type} (l : List (PyStr × α)) (k : PyStr) :
    (Dict.ofList l).get? k = (l.reverse.find? fun p => p.1 = k).map Prod.snd := by
  rw [Dict.ofList, get?_foldl_set]
  simp [Dict.get?]

theorem mem_keys_ofList {α : Type} (l : List (PyStr × α)) (k : PyStr) :
    k ∈ (Dict.ofList l).keys ↔ k ∈ l.map Prod.fst := by
  rw [← Decidable.not_iff_not, ← Dict.get?_eq_none_iff, get?_ofList]
  simp only [Option.map_eq_none_iff, List.find?_eq_none, List.mem_reverse, decide_eq_true_eq,
    List.mem_map, not_exists, not_and]

theorem nodup_subset_length {α : Type} [DecidableEq α] : ∀ {l m : List α}, l.Nodup →
    (∀ x ∈ l, x ∈ m) → l.length ≤ m.length
  | [], _, _, _ => Nat.zero_le _
  | x :: l, m, hn, hs => by
    rw [List.nodup_cons] at hn
    have hx := hs x (List.mem_cons_self ..)
    have ih := nodup_subset_length (l := l) (m := m.erase x) hn.2 (fun y hy =>
      (List.mem_erase_of_ne (show y ≠ x from fun e => hn.1 (by rw [← e]; exact hy))).2 (hs y (List.mem_cons_of_mem _ hy)))
    rw [List.length_erase_of_mem hx] at ih
    have := List.length_pos_of_mem hx
    simp only [List.length_cons]
    omega

theorem nodup_subset_lt {α : Type} [DecidableEq α] {l m : List α} (hn : l.Nodup)
    (hs : ∀ x ∈ l, x ∈ m) (hm : ¬ m.Nodup) : l.length < m.length := by
  have hle := nodup_subset_length hn hs
  have : ∃ m' : List α, m'.length < m.length ∧ ∀ x ∈ m, x ∈ m' := by
    clear hs hle hn
    induction m with
    | nil => exact absurd List.nodup_nil hm
    | cons x m ih =>
      by_cases hx : x ∈ m
      · exact ⟨m, by simp, by simp [hx]⟩
      · have : ¬ m.Nodup := fun h => hm (List.nodup_cons.2 ⟨hx, h⟩)
        obtain ⟨m', h1, h2⟩ := ih this
        refine ⟨x :: m', by simpa using h1, ?_⟩
        intro y hy
        rcases List.mem_cons.1 hy with rfl | hy
        · exact List.mem_cons_self ..
        · exact List.mem_cons_of_mem _ (h2 y hy)
  obtain ⟨m', h1, h2⟩ := this
  exact Nat.lt_of_le_of_lt (nodup_subset_length hn fun x hx => h2 x (hs x hx)) h1

theorem length_ofList_le {α : Type} (l : List (PyStr × α)) : (Dict.ofList l).length ≤ l.length := by
  have := nodup_subset_length (nodup_ofList l) (m := l.map Prod.fst)
    (fun x hx => (mem_keys_ofList l x).1 hx)
  simpa [Dict.keys] using this

theorem length_ofList_iff {α : Type} (l : List (PyStr × α)) :
    (Dict.ofList l).length = l.length ↔ (l.map Prod.fst).Nodup := by
  constructor
  · intro h
    apply Decidable.byContradiction
    intro hn
    have := nodup_subset_lt (nodup_ofList l) (fun x hx => (mem_keys_ofList l x).1 hx) hn
    simp only [Dict.keys, List.length_map] at this
    omega
  · intro h
    rw [Dict.ofList_of_nodup h]

/-- The loop of `_array_to_site` makes one entry per row. -/
theorem siteRows_inv {tkey f A ts} : ∀ {l : List Nat} {out},
    siteRows tkey f A ts l = .ok out → out.length = l.length ∧
      ∀ j (h : j < l.length) (h' : j < out.length),
        rowKey tkey ts l[j] = .ok out[j].1 ∧ siteRecord f A l[j] = .ok out[j].2
  | [], out, h => by
    cases h
    exact ⟨rfl, fun j h => absurd h (by simp)⟩
  | i :: l, out, h => by
    simp only [siteRows, bind, Except.bind] at h
    split at h
    · cases h
    · rename_i key hkey
      split at h
      · cases h
      · rename_i r hr
        split at h
        · cases h
        · rename_i out' hout
          cases h
          obtain ⟨h1, h2⟩ := siteRows_inv hout
          refine ⟨by simp [h1], ?_⟩
          intro j hj hj'
          cases j with
          | zero => exact ⟨hkey, hr⟩
          | succ j => simpa using h2 j (by simpa using hj) (by simpa using hj')

theorem mapRecords_inv {g : Rec → Except Err Rec} : ∀ {rs out : Records},
    mapRecords g rs = .ok out → out.keys = rs.keys ∧
      ∀ k, (∀ r', out.get? k = some r' → ∃ r, rs.get? k = some r ∧ g r = .ok r') ∧
        (out.get? k = none → rs.get? k = none)
  | [], out, h => by
    cases h
    exact ⟨rfl, fun k => ⟨(fun r' h => by cases h), fun _ => rfl⟩⟩
  | (n, r) :: rs, out, h => by
    simp only [mapRecords, bind, Except.bind] at h
    split at h
    · cases h
    · rename_i r' hr
      split at h
      · cases h
      · rename_i rs' hrs
        cases h
        obtain ⟨h1, h2⟩ := mapRecords_inv hrs
        refine ⟨by simp [h1], fun k => ?_⟩
        simp only [Dict.get?]
        by_cases hk : n = k
        · simp only [hk, if_true]
          exact ⟨(fun x hx => by cases hx; exact ⟨r, rfl, hr⟩), (fun hx => by cases hx)⟩
        · simp only [hk, if_false]
          exact h2 k

/-- What `_array_to_site` does when it succeeds. -/
theorem arrayToSite_inv {tkey f A out} (h : arrayToSite tkey f A = .ok out) :
    ∃ ts n ds rows, A.get? (py! "sqn_timestamps") = some (.arr ts) ∧ ts.shape = n :: ds ∧
      siteRows tkey f A ts (List.range n) = .ok rows ∧ mapRecords (flattenRec f) (Dict.ofList rows) = .ok out := by
  unfold arrayToSite at h
  split at h
  · cases hg : A.get? (py! "sqn_timestamps") with
    | none => simp [field, hg, bind, Except.bind] at h
    | some v =>
      simp only [field_ok hg, bind, Except.bind] at h
      cases v with
      | py t e => cases h
      | np t e => cases h
      | arr ts =>
        simp only at h
        cases hs : ts.shape with
        | nil => rw [hs] at h; cases h
        | cons n ds =>
          rw [hs] at h
          simp only at h
          split at h
          · cases h
          · rename_i rows hrows
            exact ⟨ts, n, ds, rows, rfl, hs, hrows, h⟩
  · cases h

end Verif.Bor
