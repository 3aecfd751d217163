import Verif.SDarn.Lemmas.Tables
/-!
# The outcome of the checks of one record
-/
namespace Verif.SD
open Verif

/-- Outcome of the three checks in terms of the defects of the record. -/
inductive Outcome (req op : List Table) (rn : Nat) (r : Rec) (first : Bool) : Except Err Unit → Prop
  | ok : Satisfies req op r → Outcome req op rn r first (.ok ())
  | missing (fs : List PyStr) : fs ≠ [] → (∀ k, k ∈ fs ↔ Missing req r k) →
      (first = false → ∀ k, ¬ Extra (req ++ op) r k) →
      Outcome req op rn r first (.error (.sdFieldMissing rn fs))
  | extra (fs : List PyStr) : fs ≠ [] → (∀ k, k ∈ fs ↔ Extra (req ++ op) r k) →
      (first = true → ∀ k, ¬ Missing req r k) →
      Outcome req op rn r first (.error (.sdExtraField rn fs))
  | types (l : List (PyStr × Fmt)) : l ≠ [] → (∀ k t, (k, t) ∈ l ↔ WrongType (req ++ op) r k t) →
      (∀ k, ¬ Missing req r k) → (∀ k, ¬ Extra (req ++ op) r k) → (∀ p ∈ r, p.2 ≠ .other) →
      Outcome req op rn r first (.error (.sdDataFormatType l rn))
  | other : (∀ k, ¬ Missing req r k) → (∀ k, ¬ Extra (req ++ op) r k) → (∃ p ∈ r, p.2 = .other) →
      Outcome req op rn r first (.error .attributeError)

theorem typesOutcome {gs opt req op : List Table} (h : Describes gs opt req op) (rn : Nat) (r : Rec) (b : Bool)
    (hm : ∀ k, ¬ Missing req r k) (he : ∀ k, ¬ Extra (req ++ op) r k) :
    Outcome req op rn r b (incorrectTypesCheck gs r rn) := by
  have hk : ∀ k, Has r k → ∃ t, Lists gs k t := by
    intro k hr
    apply Classical.byContradiction
    intro hn
    exact he k (h.extra.1 ⟨hr, hn⟩)
  rcases incorrectTypesCheck_spec h.one r rn hk with ⟨h1, h2, h3⟩ | ⟨l, h1, h2, h3, h4⟩ | ⟨h1, h2⟩
  · rw [h1]
    exact .ok (satisfies_iff.2 ⟨hm, he, fun k t hw => h3 k t (h.wrong.2 hw)⟩)
  · rw [h1]
    exact .types l h2 (fun k t => (h4 k t).trans h.wrong) hm he h3
  · rw [h1]
    exact .other hm he h2

theorem readCheck_outcome {gs opt req op : List Table} (h : Describes gs opt req op) (rn : Nat) (r : Rec) :
    Outcome req op rn r true (readCheck gs opt rn r) := by
  unfold readCheck
  cases hm : missingFieldCheck gs r rn opt with
  | error e =>
    obtain ⟨fs, rfl, h1, h2⟩ := missingFieldCheck_error hm
    exact .missing fs h1 (fun k => (h2 k).trans h.missing) (by intro h; cases h)
  | ok u =>
    have hm' : ∀ k, ¬ Missing req r k := fun k hk => missingFieldCheck_ok.1 hm k (h.missing.2 hk)
    cases he : extraFieldCheck gs r rn with
    | error e =>
      obtain ⟨fs, rfl, h1, h2⟩ := extraFieldCheck_error he
      exact .extra fs h1 (fun k => (h2 k).trans h.extra) (fun _ => hm')
    | ok u =>
      exact typesOutcome h rn r true hm' fun k hk => extraFieldCheck_ok.1 he k (h.extra.2 hk)

theorem writeCheck_outcome {gs opt req op : List Table} (h : Describes gs opt req op) (rn : Nat) (r : Rec) :
    Outcome req op rn r false (writeCheck gs opt rn r) := by
  unfold writeCheck
  cases he : extraFieldCheck gs r rn with
  | error e =>
    obtain ⟨fs, rfl, h1, h2⟩ := extraFieldCheck_error he
    exact .extra fs h1 (fun k => (h2 k).trans h.extra) (by intro h; cases h)
  | ok u =>
    have he' : ∀ k, ¬ Extra (req ++ op) r k := fun k hk => extraFieldCheck_ok.1 he k (h.extra.2 hk)
    cases hm : missingFieldCheck gs r rn opt with
    | error e =>
      obtain ⟨fs, rfl, h1, h2⟩ := missingFieldCheck_error hm
      exact .missing fs h1 (fun k => (h2 k).trans h.missing) (fun _ => he')
    | ok u =>
      exact typesOutcome h rn r false (fun k hk => missingFieldCheck_ok.1 hm k (h.missing.2 hk)) he'

theorem Outcome.iff {req op : List Table} {rn : Nat} {r : Rec} {b : Bool} {res : Except Err Unit}
    (h : Outcome req op rn r b res) : res = .ok () ↔ Satisfies req op r := by
  have ex : ∀ {α : Type} {l : List α}, l ≠ [] → ∃ x, x ∈ l := fun h => List.exists_mem_of_ne_nil _ h
  cases h with
  | ok h => exact ⟨fun _ => h, fun _ => rfl⟩
  | missing fs h1 h2 h3 =>
    refine ⟨(fun h => by cases h), fun h => ?_⟩
    obtain ⟨k, hk⟩ := ex h1
    exact absurd ((h2 k).1 hk) ((satisfies_iff.1 h).1 k)
  | extra fs h1 h2 h3 =>
    refine ⟨(fun h => by cases h), fun h => ?_⟩
    obtain ⟨k, hk⟩ := ex h1
    exact absurd ((h2 k).1 hk) ((satisfies_iff.1 h).2.1 k)
  | types l h1 h2 h3 h4 h5 =>
    refine ⟨(fun h => by cases h), fun h => ?_⟩
    obtain ⟨⟨k, t⟩, hk⟩ := ex h1
    exact absurd ((h2 k t).1 hk) ((satisfies_iff.1 h).2.2 k t)
  | other h1 h2 h3 =>
    refine ⟨(fun h => by cases h), fun h => ?_⟩
    obtain ⟨⟨k, f⟩, hp, hf⟩ := h3
    simp only at hf
    subst hf
    obtain ⟨t, ht⟩ := h.known k ⟨_, hp⟩
    have := h.typed k _ hp t ht
    cases this

end Verif.SD
