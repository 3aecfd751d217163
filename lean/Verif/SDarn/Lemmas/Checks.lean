import Verif.SDarn.Spec
/-!
# Characterisation of the field checks
-/
namespace Verif.SD
open Verif

theorem mem_keys {κ α : Type} {d : Dict κ α} {k : κ} : k ∈ d.keys ↔ ∃ v, (k, v) ∈ d := by
  simp [Dict.keys]

theorem has_iff {r : Rec} {k : PyStr} : Has r k ↔ k ∈ r.keys := mem_keys.symm

theorem mem_keyDiff {g : Table} {r : Rec} {k : PyStr} :
    k ∈ keyDiff g r ↔ (∃ t, (k, t) ∈ g) ∧ ¬ Has r k := by
  simp [keyDiff, mem_keys, has_iff]

theorem mem_setUnion {s t : List PyStr} {k : PyStr} : k ∈ setUnion s t ↔ k ∈ s ∨ k ∈ t := by
  simp only [setUnion, List.mem_append, List.mem_filter, decide_eq_true_eq]
  constructor
  · rintro (h | h)
    · exact .inl h
    · exact .inr h.1
  · rintro (h | h)
    · exact .inl h
    · by_cases hs : k ∈ s
      · exact .inl hs
      · exact .inr ⟨h, hs⟩

theorem mem_dictList2set {gs : List Table} {k : PyStr} :
    k ∈ dictList2set gs ↔ ∃ t, Lists gs k t := by
  induction gs with
  | nil => simp [dictList2set, Lists]
  | cons g gs ih =>
    simp only [dictList2set, mem_setUnion, ih, mem_keys, Lists, List.mem_cons, exists_eq_or_imp]
    constructor
    · rintro (⟨t, h⟩ | ⟨t, h⟩)
      · exact ⟨t, .inl h⟩
      · exact ⟨t, .inr h⟩
    · rintro ⟨t, h | h⟩
      · exact .inl ⟨t, h⟩
      · exact .inr ⟨t, h⟩

/-- The group is present only in part. -/
def Partial (g : Table) (r : Rec) : Prop :=
  (∃ k t, (k, t) ∈ g ∧ ¬ Has r k) ∧ ∃ k t, (k, t) ∈ g ∧ Has r k

theorem keyDiff_partial {g : Table} {r : Rec} :
    ((keyDiff g r).length ≠ 0 ∧ (keyDiff g r).length ≠ g.length) ↔ Partial g r := by
  have hlen : g.length = g.keys.length := by simp [Dict.keys]
  constructor
  · rintro ⟨h1, h2⟩
    constructor
    · obtain ⟨k, hk⟩ := List.exists_mem_of_ne_nil _ (fun h : keyDiff g r = [] => h1 (by rw [h]; rfl))
      obtain ⟨⟨t, ht⟩, hn⟩ := mem_keyDiff.1 hk
      exact ⟨k, t, ht, hn⟩
    · apply Classical.byContradiction
      intro hno
      apply h2
      rw [hlen]
      unfold keyDiff
      rw [List.filter_eq_self.2]
      intro k hk
      obtain ⟨t, ht⟩ := mem_keys.1 hk
      simp only [decide_eq_true_eq]
      intro hr
      exact hno ⟨k, t, ht, has_iff.2 hr⟩
  · rintro ⟨⟨k, t, hk, hn⟩, ⟨k', t', hk', hn'⟩⟩
    constructor
    · intro h
      have : k ∈ keyDiff g r := mem_keyDiff.2 ⟨⟨t, hk⟩, hn⟩
      rw [List.length_eq_zero_iff.1 h] at this
      cases this
    · intro h
      rw [hlen] at h
      unfold keyDiff at h
      have := List.length_filter_eq_length_iff.1 h k' (mem_keys.2 ⟨t', hk'⟩)
      simp only [decide_eq_true_eq] at this
      exact this (has_iff.1 hn')

theorem mem_missingFields {opt : List Table} {r : Rec} {gs : List Table} {acc : List PyStr} {k : PyStr} :
    k ∈ missingFields opt r acc gs ↔
      k ∈ acc ∨ Missing (gs.filter fun g => !inTables g opt) r k := by
  induction gs generalizing acc with
  | nil => simp [missingFields, Missing]
  | cons g gs ih =>
    have hsplit : ∀ b : Bool, Missing ((if b then [g] else []) ++ gs.filter fun g => !inTables g opt) r k ↔
        (b = true ∧ Missing [g] r k) ∨ Missing (gs.filter fun g => !inTables g opt) r k := by
      intro b
      cases b <;> simp [Missing]
    simp only [missingFields]
    by_cases ho : inTables g opt = true
    · rw [if_pos ho, ih]
      simp [ho]
    · rw [if_neg ho]
      have hf : (g :: gs).filter (fun g => !inTables g opt) = [g] ++ gs.filter fun g => !inTables g opt := by
        simp [ho]
      rw [hf]
      have := hsplit true
      simp only [if_true] at this
      rw [this]
      by_cases hp : Partial g r
      · rw [if_pos (keyDiff_partial.2 hp), ih, mem_setUnion, mem_keyDiff]
        have : Missing [g] r k ↔ (∃ t, (k, t) ∈ g) ∧ ¬ Has r k := by
          simp only [Missing, List.mem_singleton, exists_eq_left]
          constructor
          · rintro ⟨h1, h2, _⟩; exact ⟨h1, h2⟩
          · rintro ⟨h1, h2⟩; exact ⟨h1, h2, hp.2⟩
        rw [this]
        simp only [true_and, or_assoc]
      · rw [if_neg (fun h => hp (keyDiff_partial.1 h)), ih]
        have : ¬ Missing [g] r k := by
          rintro ⟨g', hg', ⟨t, ht⟩, hn, k', t', hk', hh⟩
          rw [List.mem_singleton.1 hg'] at ht hk'
          exact hp ⟨⟨k, t, ht, hn⟩, ⟨k', t', hk', hh⟩⟩
        simp [this]

theorem missingFieldCheck_ok {gs opt : List Table} {r : Rec} {rn : Nat} :
    missingFieldCheck gs r rn opt = .ok () ↔
      ∀ k, ¬ Missing (gs.filter fun g => !inTables g opt) r k := by
  simp only [missingFieldCheck]
  constructor
  · intro h k hk
    have hm : k ∈ missingFields opt r [] gs := mem_missingFields.2 (.inr hk)
    rw [if_pos (List.length_pos_of_mem hm)] at h
    cases h
  · intro h
    rw [if_neg]
    intro hl
    obtain ⟨k, hk⟩ := List.exists_mem_of_length_pos hl
    rcases mem_missingFields.1 hk with hk | hk
    · cases hk
    · exact h k hk

theorem missingFieldCheck_error {gs opt : List Table} {r : Rec} {rn : Nat} {e : Err}
    (h : missingFieldCheck gs r rn opt = .error e) :
    ∃ fs, e = .sdFieldMissing rn fs ∧ fs ≠ [] ∧
      ∀ k, k ∈ fs ↔ Missing (gs.filter fun g => !inTables g opt) r k := by
  simp only [missingFieldCheck] at h
  split at h
  · rename_i hl
    cases h
    refine ⟨_, rfl, by intro h; rw [h] at hl; simp at hl, fun k => ?_⟩
    rw [mem_missingFields]
    simp
  · cases h

theorem extraFieldCheck_ok {gs : List Table} {r : Rec} {rn : Nat} :
    extraFieldCheck gs r rn = .ok () ↔ ∀ k, ¬ Extra gs r k := by
  simp only [extraFieldCheck]
  constructor
  · rintro h k ⟨h1, h2⟩
    have hm : k ∈ r.keys.filter fun k => k ∉ dictList2set gs := by
      simp only [List.mem_filter, decide_eq_true_eq, mem_dictList2set]
      exact ⟨has_iff.1 h1, h2⟩
    rw [if_pos (List.length_pos_of_mem hm)] at h
    cases h
  · intro h
    rw [if_neg]
    intro hl
    obtain ⟨k, hk⟩ := List.exists_mem_of_length_pos hl
    simp only [List.mem_filter, decide_eq_true_eq, mem_dictList2set] at hk
    exact h k ⟨has_iff.2 hk.1, hk.2⟩

theorem extraFieldCheck_error {gs : List Table} {r : Rec} {rn : Nat} {e : Err}
    (h : extraFieldCheck gs r rn = .error e) :
    ∃ fs, e = .sdExtraField rn fs ∧ fs ≠ [] ∧ ∀ k, k ∈ fs ↔ Extra gs r k := by
  simp only [extraFieldCheck] at h
  split at h
  · rename_i hl
    cases h
    refine ⟨_, rfl, by intro h; rw [h] at hl; simp at hl, fun k => ?_⟩
    simp only [List.mem_filter, decide_eq_true_eq, mem_dictList2set, ← has_iff]
    rfl
  · cases h

/-! ## Types -/

theorem get?_set {d : Table} {k k' : PyStr} {t : Fmt} :
    Dict.get? (d.set k t) k' = if k = k' then some t else d.get? k' := by
  induction d with
  | nil => simp [Dict.set, Dict.get?]
  | cons p d ih =>
    obtain ⟨a, b⟩ := p
    simp only [Dict.set]
    by_cases h : a = k
    · rw [if_pos h]
      subst h
      simp only [Dict.get?]
      split <;> rfl
    · rw [if_neg h]
      simp only [Dict.get?, ih]
      by_cases h2 : a = k'
      · rw [if_pos h2, if_pos h2]
        subst h2
        rw [if_neg (Ne.symm h)]
      · rw [if_neg h2, if_neg h2]

/-- `dict.update`: a name is looked up in the new table first. -/
theorem get?_update {g : Table} (d : Table) (k : PyStr) :
    (∃ t, (k, t) ∈ g ∧ Dict.get? (g.foldl (fun d p => d.set p.1 p.2) d) k = some t) ∨
      ((¬ ∃ t, (k, t) ∈ g) ∧ Dict.get? (g.foldl (fun d p => d.set p.1 p.2) d) k = d.get? k) := by
  induction g generalizing d with
  | nil => exact .inr ⟨by simp, rfl⟩
  | cons p g ih =>
    obtain ⟨a, b⟩ := p
    rcases ih (d.set a b) with ⟨t, h1, h2⟩ | ⟨h1, h2⟩
    · exact .inl ⟨t, List.mem_cons_of_mem _ h1, h2⟩
    · simp only [List.foldl_cons]
      rw [h2, get?_set]
      by_cases hk : a = k
      · subst hk
        exact .inl ⟨b, by simp, by simp⟩
      · refine .inr ⟨?_, by rw [if_neg hk]⟩
        rintro ⟨t, ht⟩
        rcases List.mem_cons.1 ht with ht | ht
        · cases ht; exact hk rfl
        · exact h1 ⟨t, ht⟩

theorem get?_completeDict (gs : List Table) (k : PyStr) :
    (∃ t, Lists gs k t ∧ (completeDict gs).get? k = some t) ∨
      ((¬ ∃ t, Lists gs k t) ∧ (completeDict gs).get? k = none) := by
  have key : ∀ (gs : List Table) (d : Table),
      (∃ t, Lists gs k t ∧ Dict.get? (gs.foldl (fun d g => g.foldl (fun d p => d.set p.1 p.2) d) d) k = some t) ∨
      ((¬ ∃ t, Lists gs k t) ∧
        Dict.get? (gs.foldl (fun d g => g.foldl (fun d p => d.set p.1 p.2) d) d) k = d.get? k) := by
    intro gs
    induction gs with
    | nil => intro d; exact .inr ⟨by simp [Lists], rfl⟩
    | cons g gs ih =>
      intro d
      rcases ih (g.foldl (fun d p => d.set p.1 p.2) d) with ⟨t, ⟨g', hg', h1⟩, h2⟩ | ⟨h1, h2⟩
      · exact .inl ⟨t, ⟨g', List.mem_cons_of_mem _ hg', h1⟩, h2⟩
      · simp only [List.foldl_cons]
        rw [h2]
        rcases get?_update (g := g) d k with ⟨t, h3, h4⟩ | ⟨h3, h4⟩
        · exact .inl ⟨t, ⟨g, by simp, h3⟩, h4⟩
        · refine .inr ⟨?_, h4⟩
          rintro ⟨t, g', hg', ht⟩
          rcases List.mem_cons.1 hg' with rfl | hg'
          · exact h3 ⟨t, ht⟩
          · exact h1 ⟨t, g', hg', ht⟩
  rcases key gs [] with h | ⟨h1, h2⟩
  · exact .inl h
  · exact .inr ⟨h1, h2⟩

theorem completeDict_lists {gs : List Table} (h1 : OneFormat gs) {k : PyStr} {t : Fmt} :
    (completeDict gs).get? k = some t ↔ Lists gs k t := by
  rcases get?_completeDict gs k with ⟨t', h2, h3⟩ | ⟨h2, h3⟩
  · rw [h3]
    constructor
    · intro h; cases h; exact h2
    · intro h; rw [h1 k t t' h h2]
  · rw [h3]
    constructor
    · intro h; cases h
    · intro h; exact absurd ⟨t, h⟩ h2

theorem incorrectTypes_spec {gs : List Table} (h1 : OneFormat gs) (r : Rec)
    (hk : ∀ k, Has r k → ∃ t, Lists gs k t) :
    (∃ l, incorrectTypes (completeDict gs) r = .ok l ∧ (∀ p ∈ r, p.2 ≠ .other) ∧
      ∀ k t, (k, t) ∈ l ↔ WrongType gs r k t) ∨
    (incorrectTypes (completeDict gs) r = .error .attributeError ∧ ∃ p ∈ r, p.2 = .other) := by
  induction r with
  | nil =>
    refine .inl ⟨[], rfl, by simp, ?_⟩
    intro k t
    simp [WrongType]
  | cons p r ih =>
    obtain ⟨k0, f⟩ := p
    simp only [incorrectTypes]
    cases hf : f.fmt? with
    | none =>
      refine .inr ⟨rfl, (k0, f), by simp, ?_⟩
      cases f <;> first | rfl | cases hf
    | some fm =>
      obtain ⟨t0, ht0⟩ := hk k0 ⟨f, by simp⟩
      have hget := (completeDict_lists h1).2 ht0
      have hnf : f ≠ .other := by intro h; rw [h] at hf; cases hf
      simp only [hget]
      rcases ih (fun k ⟨f, hf⟩ => hk k ⟨f, List.mem_cons_of_mem _ hf⟩) with ⟨l, h2, h3, h4⟩ | ⟨h2, p, hp, h3⟩
      · left
        rw [h2]
        refine ⟨_, rfl, ?_, ?_⟩
        · intro p hp
          rcases List.mem_cons.1 hp with rfl | hp
          · exact hnf
          · exact h3 p hp
        · intro k t
          have hcons : WrongType gs ((k0, f) :: r) k t ↔
              (k = k0 ∧ t = t0 ∧ fm ≠ t0) ∨ WrongType gs r k t := by
            constructor
            · rintro ⟨hl, f', hm, hne⟩
              rcases List.mem_cons.1 hm with hm | hm
              · cases hm
                have := h1 _ t t0 hl ht0
                subst this
                rw [hf] at hne
                exact .inl ⟨rfl, rfl, fun h => hne (by rw [h])⟩
              · exact .inr ⟨hl, f', hm, hne⟩
            · rintro (⟨rfl, rfl, hne⟩ | ⟨hl, f', hm, hne⟩)
              · exact ⟨ht0, f, by simp, by rw [hf]; simpa using hne⟩
              · exact ⟨hl, f', List.mem_cons_of_mem _ hm, hne⟩
          rw [hcons]
          split
          · rename_i hne
            simp only [List.mem_cons, Prod.mk.injEq, h4]
            constructor
            · rintro (⟨rfl, rfl⟩ | h)
              · exact .inl ⟨rfl, rfl, hne⟩
              · exact .inr h
            · rintro (⟨rfl, rfl, _⟩ | h)
              · exact .inl ⟨rfl, rfl⟩
              · exact .inr h
          · rename_i hne
            rw [h4]
            constructor
            · exact .inr
            · rintro (⟨_, _, h⟩ | h)
              · exact absurd h hne
              · exact h
      · right
        rw [h2]
        exact ⟨rfl, p, List.mem_cons_of_mem _ hp, h3⟩

theorem incorrectTypesCheck_spec {gs : List Table} (h1 : OneFormat gs) (r : Rec) (rn : Nat)
    (hk : ∀ k, Has r k → ∃ t, Lists gs k t) :
    (incorrectTypesCheck gs r rn = .ok () ∧ (∀ p ∈ r, p.2 ≠ .other) ∧ ∀ k t, ¬ WrongType gs r k t) ∨
    (∃ l, incorrectTypesCheck gs r rn = .error (.sdDataFormatType l rn) ∧ l ≠ [] ∧ (∀ p ∈ r, p.2 ≠ .other) ∧
      ∀ k t, (k, t) ∈ l ↔ WrongType gs r k t) ∨
    (incorrectTypesCheck gs r rn = .error .attributeError ∧ ∃ p ∈ r, p.2 = .other) := by
  unfold incorrectTypesCheck
  rcases incorrectTypes_spec h1 r hk with ⟨l, h2, h3, h4⟩ | ⟨h2, h3⟩
  · rw [h2]
    cases l with
    | nil => exact .inl ⟨rfl, h3, fun k t h => by have := (h4 k t).2 h; cases this⟩
    | cons p l => exact .inr (.inl ⟨_, rfl, by simp, h3, h4⟩)
  · rw [h2]
    exact .inr (.inr ⟨rfl, h3⟩)

/-- The parts of `Satisfies` as absence of defects. -/
theorem satisfies_iff {req opt : List Table} {r : Rec} :
    Satisfies req opt r ↔ (∀ k, ¬ Missing req r k) ∧ (∀ k, ¬ Extra (req ++ opt) r k) ∧
      (∀ k t, ¬ WrongType (req ++ opt) r k t) := by
  constructor
  · intro h
    refine ⟨?_, ?_, ?_⟩
    · rintro k ⟨g, hg, ⟨t, ht⟩, hn, k', t', ht', hh⟩
      rcases h.complete g hg with hc | hc
      · exact hn (hc k t ht)
      · exact hc k' t' ht' hh
    · rintro k ⟨h1, h2⟩
      exact h2 (h.known k h1)
    · rintro k t ⟨hl, f, hm, hne⟩
      exact hne (h.typed k f hm t hl)
  · rintro ⟨h1, h2, h3⟩
    refine ⟨?_, ?_, ?_⟩
    · intro g hg
      by_cases hp : ∃ k t, (k, t) ∈ g ∧ Has r k
      · left
        intro k t ht
        apply Classical.byContradiction
        intro hn
        exact h1 k ⟨g, hg, ⟨t, ht⟩, hn, hp⟩
      · right
        intro k t ht hh
        exact hp ⟨k, t, ht, hh⟩
    · intro k hk
      apply Classical.byContradiction
      intro hn
      exact h2 k ⟨hk, hn⟩
    · intro k f hm t hl
      apply Classical.byContradiction
      intro hne
      exact h3 k t ⟨hl, f, hm, hne⟩

end Verif.SD
