import Verif.Borealis.Spec
import Verif.Borealis.Model.Checks
/-!
# Lemmas about the Borealis field checks
-/
namespace Verif.Bor
open Verif

theorem listed_iff {t : TyTable} {k : PyStr} : Listed t k ↔ k ∈ t.keys := by
  unfold Listed Dict.keys
  constructor
  · rintro ⟨ty, h⟩; exact List.mem_map.2 ⟨_, h, rfl⟩
  · intro h
    obtain ⟨⟨k', ty⟩, h', rfl⟩ := List.mem_map.1 h
    exact ⟨ty, h'⟩

theorem holds_iff {r : Rec} {k : PyStr} : (∃ v, Holds r k v) ↔ k ∈ r.keys := Dict.mem_keys_iff.symm

theorem mem_setDiff {α β : Type} {d1 : Dict PyStr α} {d2 : Dict PyStr β} {k : PyStr} :
    k ∈ setDiff d1 d2 ↔ k ∈ d1.keys ∧ k ∉ d2.keys := by
  simp [setDiff]

theorem mem_setUnion {s t : List PyStr} {k : PyStr} : k ∈ setUnion s t ↔ k ∈ s ∨ k ∈ t := by
  simp only [setUnion, List.mem_append, List.mem_filter, decide_eq_true_eq]
  by_cases h : k ∈ s <;> simp [h]

/-- The set of missing fields. -/
def missingSet (attrs dsets : TyTable) (r : Rec) : List PyStr :=
  setUnion (setDiff attrs r) (setDiff dsets r)

theorem mem_missingSet {attrs dsets : TyTable} {r : Rec} {k : PyStr} :
    k ∈ missingSet attrs dsets r ↔ Missing attrs dsets r k := by
  unfold missingSet Missing
  rw [mem_setUnion, mem_setDiff, mem_setDiff, listed_iff, listed_iff, holds_iff]
  constructor
  · rintro (h | h)
    · exact ⟨.inl h.1, h.2⟩
    · exact ⟨.inr h.1, h.2⟩
  · rintro ⟨h | h, h'⟩
    · exact .inl ⟨h, h'⟩
    · exact .inr ⟨h, h'⟩

theorem missingSet_eq {attrs dsets : TyTable} {r : Rec} (hd : (attrs.keys ++ dsets.keys).Nodup) :
    missingSet attrs dsets r = (attrs.keys ++ dsets.keys).filter fun k => k ∉ r.keys := by
  unfold missingSet setUnion setDiff
  rw [List.filter_append]
  congr 1
  rw [List.filter_filter]
  apply List.filter_congr
  intro k hk
  have : k ∉ attrs.keys := fun h => (List.nodup_append.1 hd).2.2 k h k hk rfl
  simp [this]

theorem missing_all_iff {attrs dsets : TyTable} {r : Rec} (hd : (attrs.keys ++ dsets.keys).Nodup) :
    (missingSet attrs dsets r).length = attrs.length + dsets.length ↔
      ∀ k, Listed attrs k ∨ Listed dsets k → ¬ ∃ v, Holds r k v := by
  rw [missingSet_eq hd]
  have hl : attrs.length + dsets.length = (attrs.keys ++ dsets.keys).length := by
    simp [Dict.keys]
  rw [hl, List.length_filter_eq_length_iff]
  simp only [List.mem_append, decide_eq_true_eq, listed_iff, holds_iff]

theorem missingFieldCheck_eq (attrs dsets : TyTable) (r : Rec) :
    missingFieldCheck attrs dsets r =
      if (missingSet attrs dsets r).length = attrs.length + dsets.length then .error .structure
      else if (missingSet attrs dsets r).length > 0 then .error (.fieldMissing (missingSet attrs dsets r))
      else .ok () := rfl

/-- The set of extra fields. -/
def extraSet (attrs dsets : TyTable) (r : Rec) : List PyStr :=
  r.keys.filter fun k => k ∉ setUnion attrs.keys dsets.keys

theorem mem_extraSet {attrs dsets : TyTable} {r : Rec} {k : PyStr} :
    k ∈ extraSet attrs dsets r ↔ Extra attrs dsets r k := by
  unfold extraSet Extra
  rw [List.mem_filter, listed_iff, listed_iff, holds_iff]
  simp only [decide_eq_true_eq, mem_setUnion]

theorem extraFieldCheck_eq (attrs dsets : TyTable) (r : Rec) :
    extraFieldCheck attrs dsets r =
      if (extraSet attrs dsets r).length > 0 then .error (.extraField (extraSet attrs dsets r))
      else .ok () := rfl

/-- The record has all fields of the table. -/
def AllIn (t : TyTable) (r : Rec) : Prop := ∀ p ∈ t, ∃ v, Holds r p.1 v

theorem AllIn.cons {p : PyStr × Ty} {t : TyTable} {r : Rec} (h : AllIn (p :: t) r) :
    (∃ v, Holds r p.1 v) ∧ AllIn t r :=
  ⟨h p (by simp), fun q hq => h q (by simp [hq])⟩

theorem allIn_of {attrs dsets : TyTable} {r : Rec} (h : ∀ k, ¬ Missing attrs dsets r k) :
    AllIn attrs r ∧ AllIn dsets r := by
  constructor
  · intro p hp
    exact Classical.byContradiction fun hn => h p.1 ⟨.inl ⟨p.2, hp⟩, hn⟩
  · intro p hp
    exact Classical.byContradiction fun hn => h p.1 ⟨.inr ⟨p.2, hp⟩, hn⟩

theorem hasType_iff {v : Val} {t : Ty} : v.hasType t = true ↔ IsScalar t v := by
  cases v <;> simp [Val.hasType, IsScalar]

/-- Outcome of the comprehension over the attributes. -/
theorem wrongAttrs_outcome {r : Rec} {l : TyTable} (h : AllIn l r) :
    (wrongAttrs r l = .error .attributeError ∧
      ∃ k t v, (k, t) ∈ l ∧ Holds r k v ∧ IsPython v ∧ ¬ IsScalar t v) ∨
    ((¬ ∃ k t v, (k, t) ∈ l ∧ Holds r k v ∧ IsPython v ∧ ¬ IsScalar t v) ∧
      ∃ w, wrongAttrs r l = .ok w ∧
        ∀ k t, (k, t) ∈ w ↔ (k, t) ∈ l ∧ ∃ v, Holds r k v ∧ ¬ IsScalar t v) := by
  induction l with
  | nil =>
    right
    refine ⟨?_, [], rfl, ?_⟩
    · rintro ⟨_, _, _, h, _⟩; cases h
    · simp
  | cons p l ih =>
    obtain ⟨k, t⟩ := p
    obtain ⟨⟨v, hv⟩, hl⟩ := h.cons
    simp only at hv
    have hf : field r k = .ok v := by
      unfold field
      rw [show Dict.get? r k = some v from hv]
    have huniq : ∀ v', Holds r k v' → v' = v := fun v' h' =>
      Option.some.inj (h'.symm.trans hv)
    by_cases ht : v.hasType t = true
    · have hst := hasType_iff.1 ht
      rcases ih hl with ⟨he, k', t', v', hm, hh⟩ | ⟨hn, w, he, hw⟩
      · left
        refine ⟨?_, k', t', v', by simp [hm], hh⟩
        simp [wrongAttrs, hf, ht, he, bind, Except.bind]
      · right
        refine ⟨?_, w, ?_, ?_⟩
        · rintro ⟨k', t', v', hm, hh, hp, hs⟩
          rcases List.mem_cons.1 hm with heq | hm
          · cases heq
            rw [huniq _ hh] at hs
            exact hs hst
          · exact hn ⟨k', t', v', hm, hh, hp, hs⟩
        · simp [wrongAttrs, hf, ht, he, bind, Except.bind]
        · intro k' t'
          rw [hw]
          constructor
          · rintro ⟨hm, hx⟩; exact ⟨by simp [hm], hx⟩
          · rintro ⟨hm, v', hh, hs⟩
            rcases List.mem_cons.1 hm with heq | hm
            · cases heq
              rw [huniq _ hh] at hs
              exact absurd hst hs
            · exact ⟨hm, v', hh, hs⟩
    · have hst : ¬ IsScalar t v := fun h => ht (hasType_iff.2 h)
      by_cases hp : IsPython v
      · left
        refine ⟨?_, k, t, v, by simp, hv, hp, hst⟩
        cases v with
        | py t' e => simp [wrongAttrs, hf, ht, bind, Except.bind, Val.shape?]
        | np t' e => cases hp
        | arr a => cases hp
      · have hs : ∃ s, v.shape? = .ok s := by
          cases v with
          | py t' e => exact absurd trivial hp
          | np t' e => exact ⟨_, rfl⟩
          | arr a => exact ⟨_, rfl⟩
        obtain ⟨s, hs⟩ := hs
        rcases ih hl with ⟨he, k', t', v', hm, hh⟩ | ⟨hn, w, he, hw⟩
        · left
          refine ⟨?_, k', t', v', by simp [hm], hh⟩
          simp [wrongAttrs, hf, ht, hs, he, bind, Except.bind]
        · right
          refine ⟨?_, (k, t) :: w, ?_, ?_⟩
          · rintro ⟨k', t', v', hm, hh, hp', hs⟩
            rcases List.mem_cons.1 hm with heq | hm
            · cases heq
              rw [huniq _ hh] at hp'
              exact hp hp'
            · exact hn ⟨k', t', v', hm, hh, hp', hs⟩
          · simp [wrongAttrs, hf, ht, hs, he, bind, Except.bind]
          · intro k' t'
            rw [List.mem_cons, hw]
            constructor
            · rintro (heq | ⟨hm, hx⟩)
              · cases heq; exact ⟨by simp, v, hv, hst⟩
              · exact ⟨by simp [hm], hx⟩
            · rintro ⟨hm, hx⟩
              rcases List.mem_cons.1 hm with heq | hm
              · exact .inl heq
              · exact .inr ⟨hm, hx⟩

theorem dtype?_of_not_python {v : Val} (h : ¬ IsPython v) : ∃ t, v.dtype? = .ok t ∧ ∀ t', IsNumpy t' v ↔ t = t' := by
  cases v with
  | py t e => exact absurd trivial h
  | np t e => exact ⟨t, rfl, fun _ => Iff.rfl⟩
  | arr a => exact ⟨a.ty, rfl, fun _ => Iff.rfl⟩

/-- Outcome of the comprehension over the datasets of a record. -/
theorem wrongDsets_outcome {r : Rec} {l : TyTable} (h : AllIn l r) :
    (wrongDsets r l = .error .attributeError ∧ ∃ k v, Listed l k ∧ Holds r k v ∧ IsPython v) ∨
    ((¬ ∃ k v, Listed l k ∧ Holds r k v ∧ IsPython v) ∧
      ∃ w, wrongDsets r l = .ok w ∧
        ∀ k t, (k, t) ∈ w ↔ (k, t) ∈ l ∧ ∃ v, Holds r k v ∧ ¬ IsNumpy t v) := by
  induction l with
  | nil =>
    right
    refine ⟨?_, [], rfl, by simp⟩
    rintro ⟨_, _, ⟨_, h⟩, _⟩; cases h
  | cons p l ih =>
    obtain ⟨k, t⟩ := p
    obtain ⟨⟨v, hv⟩, hl⟩ := h.cons
    simp only at hv
    have hf : field r k = .ok v := by
      unfold field
      rw [show Dict.get? r k = some v from hv]
    have huniq : ∀ v', Holds r k v' → v' = v := fun v' h' =>
      Option.some.inj (h'.symm.trans hv)
    by_cases hp : IsPython v
    · left
      refine ⟨?_, k, v, ⟨t, by simp⟩, hv, hp⟩
      cases v with
      | py t' e => simp [wrongDsets, hf, bind, Except.bind, Val.dtype?]
      | np t' e => cases hp
      | arr a => cases hp
    · obtain ⟨t0, ht0, hnum⟩ := dtype?_of_not_python hp
      rcases ih hl with ⟨he, k', v', ⟨t', hm⟩, hh⟩ | ⟨hn, w, he, hw⟩
      · left
        refine ⟨?_, k', v', ⟨t', by simp [hm]⟩, hh⟩
        simp [wrongDsets, hf, ht0, he, bind, Except.bind]
      · right
        refine ⟨?_, (if t0 ≠ t then (k, t) :: w else w), ?_, ?_⟩
        · rintro ⟨k', v', ⟨t', hm⟩, hh, hp'⟩
          rcases List.mem_cons.1 hm with heq | hm
          · cases heq
            rw [huniq _ hh] at hp'
            exact hp hp'
          · exact hn ⟨k', v', ⟨t', hm⟩, hh, hp'⟩
        · simp [wrongDsets, hf, ht0, he, bind, Except.bind]
        · intro k' t'
          have hiff : (k', t') ∈ (if t0 ≠ t then (k, t) :: w else w) ↔
              ((k', t') = (k, t) ∧ t0 ≠ t) ∨ (k', t') ∈ w := by
            by_cases h0 : t0 = t <;> simp [h0]
          rw [hiff, hw]
          constructor
          · rintro (⟨heq, hne⟩ | ⟨hm, hx⟩)
            · cases heq
              exact ⟨by simp, v, hv, fun hi => hne ((hnum _).1 hi)⟩
            · exact ⟨by simp [hm], hx⟩
          · rintro ⟨hm, v', hh, hx⟩
            rcases List.mem_cons.1 hm with heq | hm
            · cases heq
              rw [huniq _ hh] at hx
              exact .inl ⟨rfl, fun h0 => hx ((hnum _).2 h0)⟩
            · exact .inr ⟨hm, v', hh, hx⟩

theorem pos_iff_exists {α : Type} {l : List α} : l.length > 0 ↔ ∃ x, x ∈ l := by
  cases l with
  | nil => simp
  | cons a l => simp only [List.length_cons, gt_iff_lt, Nat.zero_lt_succ, true_iff]; exact ⟨a, by simp⟩

/-- Outcome of the checks for missing and extra fields followed by others with outcome `P`. -/
inductive FieldsOutcome (attrs dsets : TyTable) (r : Rec) (P : Except Err Unit → Prop) :
    Except Err Unit → Prop
  | nothing (h : ∀ k, Listed attrs k ∨ Listed dsets k → ¬ ∃ v, Holds r k v) :
      FieldsOutcome attrs dsets r P (.error .structure)
  | missing (fs : List PyStr) (h : ∃ k, Missing attrs dsets r k)
      (h' : ∃ k, (Listed attrs k ∨ Listed dsets k) ∧ ∃ v, Holds r k v)
      (hf : ∀ k, k ∈ fs ↔ Missing attrs dsets r k) :
      FieldsOutcome attrs dsets r P (.error (.fieldMissing fs))
  | extra (fs : List PyStr) (h : ∀ k, ¬ Missing attrs dsets r k) (h' : ∃ k, Extra attrs dsets r k)
      (hf : ∀ k, k ∈ fs ↔ Extra attrs dsets r k) :
      FieldsOutcome attrs dsets r P (.error (.extraField fs))
  | next (res : Except Err Unit) (h : ∀ k, ¬ Missing attrs dsets r k)
      (h' : ∀ k, ¬ Extra attrs dsets r k) (hp : P res) : FieldsOutcome attrs dsets r P res

theorem fields_outcome {attrs dsets : TyTable} (g : GoodTables attrs dsets) (r : Rec)
    (next : Except Err Unit) (P : Except Err Unit → Prop)
    (hnext : (∀ k, ¬ Missing attrs dsets r k) → (∀ k, ¬ Extra attrs dsets r k) → P next) :
    FieldsOutcome attrs dsets r P
      (do missingFieldCheck attrs dsets r; extraFieldCheck attrs dsets r; next) := by
  rw [missingFieldCheck_eq, extraFieldCheck_eq]
  by_cases hall : (missingSet attrs dsets r).length = attrs.length + dsets.length
  · rw [if_pos hall]
    exact .nothing ((missing_all_iff g.nodup).1 hall)
  · rw [if_neg hall]
    by_cases hm : (missingSet attrs dsets r).length > 0
    · rw [if_pos hm]
      refine .missing _ ?_ ?_ (fun k => mem_missingSet)
      · obtain ⟨k, hk⟩ := pos_iff_exists.1 hm
        exact ⟨k, mem_missingSet.1 hk⟩
      · apply Classical.byContradiction
        intro hn
        exact hall ((missing_all_iff g.nodup).2 fun k hk hv => hn ⟨k, hk, hv⟩)
    · rw [if_neg hm]
      have hmiss : ∀ k, ¬ Missing attrs dsets r k := fun k hk =>
        hm (pos_iff_exists.2 ⟨k, mem_missingSet.2 hk⟩)
      by_cases he : (extraSet attrs dsets r).length > 0
      · rw [if_pos he]
        refine .extra _ hmiss ?_ (fun k => mem_extraSet)
        obtain ⟨k, hk⟩ := pos_iff_exists.1 he
        exact ⟨k, mem_extraSet.1 hk⟩
      · rw [if_neg he]
        have hex : ∀ k, ¬ Extra attrs dsets r k := fun k hk =>
          he (pos_iff_exists.2 ⟨k, mem_extraSet.2 hk⟩)
        exact .next _ hmiss hex (hnext hmiss hex)

/-- Outcome of the type checks of one record. -/
inductive TypesOutcome (attrs dsets : TyTable) (r : Rec) : Except Err Unit → Prop
  | ok (h : ∀ k t, ¬ Wrong (fun _ => IsNumpy) attrs dsets r k t) : TypesOutcome attrs dsets r (.ok ())
  | python (hp : PythonMistyped attrs dsets r) : TypesOutcome attrs dsets r (.error .attributeError)
  | types (fs : List (PyStr × Ty)) (hp : ¬ PythonMistyped attrs dsets r)
      (hw : ∃ k t, Wrong (fun _ => IsNumpy) attrs dsets r k t)
      (hf : ∀ k t, (k, t) ∈ fs ↔ Wrong (fun _ => IsNumpy) attrs dsets r k t) :
      TypesOutcome attrs dsets r (.error (.dataFormatType fs))

theorem recordTypes_outcome {attrs dsets : TyTable} {r : Rec}
    (hm : ∀ k, ¬ Missing attrs dsets r k) :
    TypesOutcome attrs dsets r (recordTypesCheck attrs dsets r) := by
  obtain ⟨ha, hd⟩ := allIn_of hm
  unfold recordTypesCheck
  rcases wrongAttrs_outcome ha with ⟨h1, hpy⟩ | ⟨hn1, w1, h1, hw1⟩
  · rw [h1]
    exact .python (.inl hpy)
  · rw [h1]
    rcases wrongDsets_outcome hd with ⟨h2, hpy⟩ | ⟨hn2, w2, h2, hw2⟩
    · rw [h2]
      exact .python (.inr hpy)
    · rw [h2]
      have hp : ¬ PythonMistyped attrs dsets r := by
        rintro (h | h)
        · exact hn1 h
        · exact hn2 h
      have hmem : ∀ k t, (k, t) ∈ w1 ++ w2 ↔ Wrong (fun _ => IsNumpy) attrs dsets r k t := by
        intro k t
        rw [List.mem_append, hw1, hw2]
        rfl
      by_cases hl : (w1 ++ w2).length > 0
      · show TypesOutcome attrs dsets r (if (w1 ++ w2).length > 0 then _ else _)
        rw [if_pos hl]
        refine .types _ hp ?_ hmem
        obtain ⟨⟨k, t⟩, hk⟩ := pos_iff_exists.1 hl
        exact ⟨k, t, (hmem k t).1 hk⟩
      · show TypesOutcome attrs dsets r (if (w1 ++ w2).length > 0 then _ else _)
        rw [if_neg hl]
        exact .ok fun k t hk => hl (pos_iff_exists.2 ⟨_, (hmem k t).2 hk⟩)

/-- The outcome of the checks of one record. -/
theorem checkRecord_outcome {attrs dsets : TyTable} (g : GoodTables attrs dsets) (r : Rec) :
    FieldsOutcome attrs dsets r (TypesOutcome attrs dsets r) (checkRecord attrs dsets r) :=
  fields_outcome g r _ _ fun h _ => recordTypes_outcome h

theorem checkRecord_ok_iff {attrs dsets : TyTable} (g : GoodTables attrs dsets) (r : Rec) :
    checkRecord attrs dsets r = .ok () ↔ Conforms (fun _ => IsNumpy) attrs dsets r := by
  have h := checkRecord_outcome g r
  generalize checkRecord attrs dsets r = res at h
  cases h with
  | nothing h =>
    refine ⟨nofun, fun hc => ?_⟩
    have : ∃ k, Listed attrs k ∨ Listed dsets k := by
      rcases g.nonempty with h | h
      · obtain ⟨p, hp⟩ := List.exists_mem_of_ne_nil _ h
        exact ⟨p.1, .inl ⟨p.2, hp⟩⟩
      · obtain ⟨p, hp⟩ := List.exists_mem_of_ne_nil _ h
        exact ⟨p.1, .inr ⟨p.2, hp⟩⟩
    obtain ⟨k, hk⟩ := this
    exact absurd ⟨hk, h k hk⟩ (hc.complete k)
  | missing fs h h' hf => exact ⟨nofun, fun hc => absurd h (fun ⟨k, hk⟩ => hc.complete k hk)⟩
  | extra fs h h' hf => exact ⟨nofun, fun hc => absurd h' (fun ⟨k, hk⟩ => hc.known k hk)⟩
  | next _ h h' hp =>
    cases hp with
    | ok hw => exact ⟨fun _ => ⟨h, h', hw⟩, fun _ => rfl⟩
    | python hp =>
      refine ⟨nofun, fun hc => ?_⟩
      rcases hp with ⟨k, t, v, h1, h2, _, h3⟩ | ⟨k, v, ⟨t, h1⟩, h2, h3⟩
      · exact absurd (.inl ⟨h1, v, h2, h3⟩) (hc.typed k t)
      · refine absurd (.inr ⟨h1, v, h2, ?_⟩) (hc.typed k t)
        cases v with
        | py t' e => exact id
        | np t' e => cases h3
        | arr a => cases h3
    | types fs hp hw hf => exact ⟨nofun, fun hc => absurd hw (fun ⟨k, t, hk⟩ => hc.typed k t hk)⟩

/-- An error that `check_records` collects instead of letting it escape. -/
def Collected : Err → Bool
  | .fieldMissing _ | .extraField _ | .dataFormatType _ => true
  | _ => false

/-- The loop of `check_records` when no exception escapes. -/
theorem collectBad_ok {attrs dsets : TyTable} {rs : Records}
    (h : ∀ n r e, (n, r) ∈ rs → checkRecord attrs dsets r = .error e → Collected e = true) :
    ∃ b, collectBad attrs dsets rs = .ok b ∧
      (∀ n fs, (n, fs) ∈ b.missing ↔ ∃ r, (n, r) ∈ rs ∧ checkRecord attrs dsets r = .error (.fieldMissing fs)) ∧
      (∀ n fs, (n, fs) ∈ b.extra ↔ ∃ r, (n, r) ∈ rs ∧ checkRecord attrs dsets r = .error (.extraField fs)) ∧
      (∀ n fs, (n, fs) ∈ b.types ↔
        ∃ r, (n, r) ∈ rs ∧ checkRecord attrs dsets r = .error (.dataFormatType fs)) := by
  induction rs with
  | nil => exact ⟨_, rfl, by simp, by simp, by simp⟩
  | cons p rs ih =>
    obtain ⟨n, r⟩ := p
    obtain ⟨b, hb, h1, h2, h3⟩ := ih fun n r e hm he => h n r e (by simp [hm]) he
    have hr := h n r
    have split : ∀ (Q : Rec → Prop) (n' : PyStr),
        (∃ r', (n', r') ∈ (n, r) :: rs ∧ Q r') ↔ (n' = n ∧ Q r) ∨ ∃ r', (n', r') ∈ rs ∧ Q r' := by
      intro Q n'
      constructor
      · rintro ⟨r', hm, hq⟩
        rcases List.mem_cons.1 hm with heq | hm
        · cases heq; exact .inl ⟨rfl, hq⟩
        · exact .inr ⟨r', hm, hq⟩
      · rintro (⟨rfl, hq⟩ | ⟨r', hm, hq⟩)
        · exact ⟨r, by simp, hq⟩
        · exact ⟨r', by simp [hm], hq⟩
    simp only [split]
    cases hc : checkRecord attrs dsets r with
    | ok u =>
      refine ⟨b, ?_, ?_, ?_, ?_⟩
      · simp [collectBad, hc, hb]
      · simp [h1]
      · simp [h2]
      · simp [h3]
    | error e =>
      have hcoll := hr e (by simp) hc
      cases e <;> simp only [Collected] at hcoll <;> try cases hcoll
      · rename_i fs
        refine ⟨{ b with missing := (n, fs) :: b.missing }, by simp [collectBad, hc, hb, bind, Except.bind], ?_, ?_, ?_⟩
        · intro n' fs'
          simp only [List.mem_cons, Prod.mk.injEq, h1, Except.error.injEq, Err.fieldMissing.injEq]
          constructor
          · rintro (⟨rfl, rfl⟩ | h)
            · exact .inl ⟨rfl, rfl⟩
            · exact .inr h
          · rintro (⟨rfl, rfl⟩ | h)
            · exact .inl ⟨rfl, rfl⟩
            · exact .inr h
        · simp [h2]
        · simp [h3]
      · rename_i fs
        refine ⟨{ b with extra := (n, fs) :: b.extra }, by simp [collectBad, hc, hb, bind, Except.bind], ?_, ?_, ?_⟩
        · simp [h1]
        · intro n' fs'
          simp only [List.mem_cons, Prod.mk.injEq, h2, Except.error.injEq, Err.extraField.injEq]
          constructor
          · rintro (⟨rfl, rfl⟩ | h)
            · exact .inl ⟨rfl, rfl⟩
            · exact .inr h
          · rintro (⟨rfl, rfl⟩ | h)
            · exact .inl ⟨rfl, rfl⟩
            · exact .inr h
        · simp [h3]
      · rename_i fs
        refine ⟨{ b with types := (n, fs) :: b.types }, by simp [collectBad, hc, hb, bind, Except.bind], ?_, ?_, ?_⟩
        · simp [h1]
        · simp [h2]
        · intro n' fs'
          simp only [List.mem_cons, Prod.mk.injEq, h3, Except.error.injEq, Err.dataFormatType.injEq]
          constructor
          · rintro (⟨rfl, rfl⟩ | h)
            · exact .inl ⟨rfl, rfl⟩
            · exact .inr h
          · rintro (⟨rfl, rfl⟩ | h)
            · exact .inl ⟨rfl, rfl⟩
            · exact .inr h

/-- The loop when an exception escapes: it is the first that is not collected. -/
theorem collectBad_escapes {attrs dsets : TyTable} {pre post : Records} {n : PyStr} {r : Rec} {e : Err}
    (h : ∀ n r e, (n, r) ∈ pre → checkRecord attrs dsets r = .error e → Collected e = true)
    (hr : checkRecord attrs dsets r = .error e) (hc : Collected e = false) :
    collectBad attrs dsets (pre ++ (n, r) :: post) = .error e := by
  induction pre with
  | nil =>
    show collectBad attrs dsets ((n, r) :: post) = .error e
    rw [collectBad, hr]
    cases e <;> first | rfl | cases hc
  | cons p pre ih =>
    obtain ⟨n', r'⟩ := p
    have ih := ih fun n r e hm he => h n r e (by simp [hm]) he
    rw [List.cons_append, collectBad]
    cases hc' : checkRecord attrs dsets r' with
    | ok u => simpa using ih
    | error e' =>
      have := h n' r' e' (by simp) hc'
      cases e' <;> simp only [Collected] at this <;> try cases this
      all_goals simp [ih, bind, Except.bind]

/-- Splitting a list at its first element with a property. -/
theorem exists_first {α : Type} (P : α → Prop) (l : List α) :
    (∀ x ∈ l, ¬ P x) ∨ ∃ pre x post, l = pre ++ x :: post ∧ (∀ y ∈ pre, ¬ P y) ∧ P x := by
  induction l with
  | nil => left; simp
  | cons a l ih =>
    by_cases ha : P a
    · exact .inr ⟨[], a, l, rfl, by simp, ha⟩
    · rcases ih with h | ⟨pre, x, post, rfl, h, hx⟩
      · left
        intro x hx
        rcases List.mem_cons.1 hx with rfl | hx
        · exact ha
        · exact h x hx
      · refine .inr ⟨a :: pre, x, post, rfl, ?_, hx⟩
        intro y hy
        rcases List.mem_cons.1 hy with rfl | hy
        · exact ha
        · exact h y hy

end Verif.Bor
