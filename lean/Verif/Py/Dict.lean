/-!
# Insertion-ordered Python dictionaries

`dict` / `OrderedDict` is an association list in insertion order without
repeated keys.  The functions below keep that shape; `Dict.Nodup` is proved
preserved where a property needs it.
-/
namespace Verif

/-- Python `dict` / `OrderedDict`: entries in insertion order. -/
abbrev Dict (κ α : Type) := List (κ × α)

namespace Dict
variable {κ α β : Type} [DecidableEq κ]

/-- `d.keys()` in order. -/
def keys (d : Dict κ α) : List κ := d.map Prod.fst

/-- `d.get(k)`. -/
def get? : Dict κ α → κ → Option α
  | [], _ => none
  | (k', v) :: d, k => if k' = k then some v else get? d k

/-- `d[k] = v`: overwrites in place when the key exists, appends otherwise. -/
def set : Dict κ α → κ → α → Dict κ α
  | [], k, v => [(k, v)]
  | (k', v') :: d, k, v => if k' = k then (k', v) :: d else (k', v') :: set d k v

/-- No key occurs twice (true of every Python dictionary). -/
def NodupKeys (d : Dict κ α) : Prop := d.keys.Nodup

/-- `dict(pairs)`: later pairs overwrite earlier ones, keeping the first position. -/
def ofList (l : List (κ × α)) : Dict κ α := l.foldl (fun d p => d.set p.1 p.2) []

omit [DecidableEq κ] in
@[simp] theorem keys_nil : keys ([] : Dict κ α) = [] := rfl
omit [DecidableEq κ] in
@[simp] theorem keys_cons (p : κ × α) (d : Dict κ α) : keys (p :: d) = p.1 :: keys d := rfl
omit [DecidableEq κ] in
@[simp] theorem keys_append (d e : Dict κ α) : keys (d ++ e) = keys d ++ keys e := by
  simp [keys]

theorem set_of_not_mem {d : Dict κ α} {k : κ} (h : k ∉ d.keys) (v : α) :
    d.set k v = d ++ [(k, v)] := by
  induction d with
  | nil => rfl
  | cons p d ih =>
    obtain ⟨k', v'⟩ := p
    simp only [keys_cons, List.mem_cons, not_or] at h
    simp [set, Ne.symm h.1, ih h.2]

theorem keys_set_of_mem {d : Dict κ α} {k : κ} (h : k ∈ d.keys) (v : α) :
    (d.set k v).keys = d.keys := by
  induction d with
  | nil => simp [keys] at h
  | cons p d ih =>
    obtain ⟨k', v'⟩ := p
    by_cases hk : k' = k
    · simp [set, hk]
    · have : k ∈ keys d := by
        simp only [keys_cons, List.mem_cons] at h
        exact h.resolve_left (Ne.symm hk)
      simp [set, hk, ih this]

theorem mem_keys_set {d : Dict κ α} {k k' : κ} {v : α} :
    k' ∈ (d.set k v).keys ↔ k' = k ∨ k' ∈ d.keys := by
  by_cases h : k ∈ d.keys
  · rw [keys_set_of_mem h]
    constructor
    · exact Or.inr
    · rintro (rfl | h')
      · exact h
      · exact h'
  · rw [set_of_not_mem h]
    simp [or_comm]

theorem nodup_set {d : Dict κ α} (h : d.NodupKeys) (k : κ) (v : α) : (d.set k v).NodupKeys := by
  unfold NodupKeys at *
  by_cases hk : k ∈ d.keys
  · rw [keys_set_of_mem hk]; exact h
  · rw [set_of_not_mem hk, keys_append]
    rw [List.nodup_append]
    refine ⟨h, by simp [keys], ?_⟩
    intro a ha b hb
    simp [keys] at hb
    subst hb
    rintro rfl
    exact hk ha

theorem get?_set_self (d : Dict κ α) (k : κ) (v : α) : (d.set k v).get? k = some v := by
  induction d with
  | nil => simp [set, get?]
  | cons p d ih =>
    obtain ⟨k', v'⟩ := p
    by_cases hk : k' = k
    · simp [set, get?, hk]
    · simp [set, get?, hk, ih]

theorem get?_set_ne (d : Dict κ α) {k k' : κ} (hne : k ≠ k') (v : α) :
    (d.set k v).get? k' = d.get? k' := by
  induction d with
  | nil => simp [set, get?, hne]
  | cons p d ih =>
    obtain ⟨k'', v''⟩ := p
    by_cases hk : k'' = k
    · subst hk
      simp [set, get?, hne]
    · simp [set, get?, hk, ih]

theorem get?_eq_none_iff {d : Dict κ α} {k : κ} : d.get? k = none ↔ k ∉ d.keys := by
  induction d with
  | nil => simp [get?]
  | cons p d ih =>
    obtain ⟨k', v'⟩ := p
    by_cases hk : k' = k
    · simp [get?, hk]
    · simp [get?, hk, ih, Ne.symm hk]

theorem mem_keys_iff {d : Dict κ α} {k : κ} : k ∈ d.keys ↔ ∃ v, d.get? k = some v := by
  cases h : d.get? k with
  | none => simp [get?_eq_none_iff.1 h]
  | some v =>
    simp only [Option.some.injEq, exists_eq', iff_true]
    apply Classical.byContradiction
    intro hn
    rw [get?_eq_none_iff.2 hn] at h
    cases h

theorem mem_of_get? {d : Dict κ α} {k : κ} {v : α} (h : d.get? k = some v) : (k, v) ∈ d := by
  induction d with
  | nil => simp [get?] at h
  | cons p d ih =>
    obtain ⟨k', v'⟩ := p
    by_cases hk : k' = k
    · simp [get?, hk] at h; simp [hk, h]
    · simp [get?, hk] at h; exact List.mem_cons_of_mem _ (ih h)

theorem get?_of_mem {d : Dict κ α} (hd : d.NodupKeys) {k : κ} {v : α} (h : (k, v) ∈ d) :
    d.get? k = some v := by
  induction d with
  | nil => simp at h
  | cons p d ih =>
    obtain ⟨k', v'⟩ := p
    unfold NodupKeys at hd
    simp only [keys_cons, List.nodup_cons] at hd
    rcases List.mem_cons.1 h with h | h
    · cases h; simp [get?]
    · have hk : k' ≠ k := by
        rintro rfl
        exact hd.1 (List.mem_map.2 ⟨(k', v), h, rfl⟩)
      simp [get?, hk]
      exact ih hd.2 h

/-- Inserting pairs with fresh distinct keys one after the other appends them. -/
theorem foldl_set_of_nodup (d l : List (κ × α)) (h : (keys (d ++ l)).Nodup) :
    l.foldl (fun d p => set d p.1 p.2) d = d ++ l := by
  induction l generalizing d with
  | nil => simp
  | cons p l ih =>
    have hp : p.1 ∉ keys d := by
      simp only [keys_append, keys_cons, List.nodup_append] at h
      intro hm
      exact h.2.2 _ hm p.1 (by simp) rfl
    rw [List.foldl_cons, set_of_not_mem hp, ih]
    · simp
    · simpa using h

theorem ofList_of_nodup {l : List (κ × α)} (h : (keys l).Nodup) : ofList l = l := by
  unfold ofList
  rw [foldl_set_of_nodup]
  · simp
  · simpa using h

theorem mem_set {d : Dict κ α} {k : κ} {v : α} {p : κ × α} (h : p ∈ d.set k v) : p ∈ d ∨ p = (k, v) := by
  induction d with
  | nil => simp only [set, List.mem_singleton] at h; exact .inr h
  | cons q d ih =>
    obtain ⟨k', v'⟩ := q
    simp only [set] at h
    split at h
    · rename_i hk
      rcases List.mem_cons.1 h with rfl | h
      · exact .inr (by rw [hk])
      · exact .inl (List.mem_cons_of_mem _ h)
    · rcases List.mem_cons.1 h with rfl | h
      · exact .inl (by simp)
      · rcases ih h with h | h
        · exact .inl (List.mem_cons_of_mem _ h)
        · exact .inr h

/-- Every entry of `dict(pairs)` is one of the pairs. -/
theorem mem_ofList {l : List (κ × α)} {p : κ × α} (h : p ∈ ofList l) : p ∈ l := by
  have key : ∀ (l : List (κ × α)) (d : Dict κ α),
      p ∈ l.foldl (fun d p => set d p.1 p.2) d → p ∈ d ∨ p ∈ l := by
    intro l
    induction l with
    | nil => intro d h; exact .inl h
    | cons q l ih =>
      intro d h
      rcases ih _ h with h | h
      · rcases mem_set h with h | h
        · exact .inl h
        · exact .inr (by rw [h]; simp)
      · exact .inr (List.mem_cons_of_mem _ h)
  rcases key l [] h with h | h
  · cases h
  · exact h

end Dict
end Verif
