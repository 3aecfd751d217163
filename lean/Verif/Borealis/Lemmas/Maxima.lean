import Verif.Borealis.Lemmas.Samples
/-!
# Lemmas on the maxima
-/
namespace Verif.Bor
open Verif

/-- The value is the integer. -/
def HasInt (v : Val) (n : Int) : Prop := ∃ t, v = .py t (.int n) ∨ v = .np t (.int n)

/-- The value has the length. -/
def HasLen (v : Val) (n : Nat) : Prop :=
  (∃ a ds, v = .arr a ∧ a.shape = n :: ds) ∨ ∃ s : PyStr, v = .py .str (.str s) ∧ s.length = n

theorem int_iff {v : Val} {n : Int} : v.int = .ok n ↔ HasInt v n := by
  unfold Val.int HasInt
  constructor
  · intro h
    split at h <;> first | cases h
    · exact ⟨_, .inl rfl⟩
    · exact ⟨_, .inr rfl⟩
  · rintro ⟨t, rfl | rfl⟩ <;> rfl

theorem len_iff {v : Val} {n : Nat} : v.len = .ok n ↔ HasLen v n := by
  unfold Val.len HasLen
  constructor
  · intro h
    split at h
    · split at h
      · cases h
      · rename_i hs
        cases h
        exact .inl ⟨_, _, rfl, hs⟩
    · cases h
      exact .inr ⟨_, rfl, rfl⟩
    all_goals cases h
  · rintro (⟨a, ds, rfl, hs⟩ | ⟨s, rfl, rfl⟩)
    · simp [hs]
    · rfl

theorem field_eq_ok {α : Type} {d : Dict PyStr α} {k : PyStr} {v : α} (h : field d k = .ok v) :
    d.get? k = some v := by
  unfold field at h
  split at h
  · rename_i w hw; cases h; exact hw
  · cases h

theorem maxSeqs_go {rs : Records} : ∀ {m0 m : Int}, findMaxSequences.go m0 rs = .ok m →
    m0 ≤ m ∧ (∀ p ∈ rs, ∃ v n, p.2.get? (py! "num_sequences") = some v ∧ HasInt v n ∧ n ≤ m) ∧
      (m = m0 ∨ ∃ p ∈ rs, ∃ v, p.2.get? (py! "num_sequences") = some v ∧ HasInt v m) := by
  induction rs with
  | nil =>
    intro m0 m h
    cases h
    exact ⟨Int.le_refl _, by simp, .inl rfl⟩
  | cons p rs ih =>
    intro m0 m h
    obtain ⟨n, r⟩ := p
    simp only [findMaxSequences.go, bind, Except.bind] at h
    split at h
    · cases h
    · rename_i v hv
      have hv := field_eq_ok hv
      split at h
      · cases h
      · rename_i i hi
        have hi := int_iff.1 hi
        obtain ⟨h1, h2, h3⟩ := ih h
        refine ⟨?_, ?_, ?_⟩
        · split at h1 <;> omega
        · intro p hp
          rcases List.mem_cons.1 hp with rfl | hp
          · refine ⟨v, i, hv, hi, ?_⟩
            split at h1 <;> omega
          · exact h2 p hp
        · rcases h3 with h3 | ⟨p, hp, h3⟩
          · split at h3
            · right
              exact ⟨_, List.mem_cons_self .., v, hv, h3 ▸ hi⟩
            · exact .inl h3
          · exact .inr ⟨p, List.mem_cons_of_mem _ hp, h3⟩

theorem maxLen_go {k : PyStr} {rs : Records} : ∀ {m0 m : Nat}, findMaxLen.go k m0 rs = .ok m →
    m0 ≤ m ∧ (∀ p ∈ rs, ∃ v n, p.2.get? k = some v ∧ HasLen v n ∧ n ≤ m) ∧
      (m = m0 ∨ ∃ p ∈ rs, ∃ v, p.2.get? k = some v ∧ HasLen v m) := by
  induction rs with
  | nil =>
    intro m0 m h
    cases h
    exact ⟨Nat.le_refl _, by simp, .inl rfl⟩
  | cons p rs ih =>
    intro m0 m h
    obtain ⟨n, r⟩ := p
    simp only [findMaxLen.go, bind, Except.bind] at h
    split at h
    · cases h
    · rename_i v hv
      have hv := field_eq_ok hv
      split at h
      · cases h
      · rename_i i hi
        have hi := len_iff.1 hi
        obtain ⟨h1, h2, h3⟩ := ih h
        refine ⟨?_, ?_, ?_⟩
        · split at h1 <;> omega
        · intro p hp
          rcases List.mem_cons.1 hp with rfl | hp
          · refine ⟨v, i, hv, hi, ?_⟩
            split at h1 <;> omega
          · exact h2 p hp
        · rcases h3 with h3 | ⟨p, hp, h3⟩
          · split at h3
            · right
              exact ⟨_, List.mem_cons_self .., v, hv, h3 ▸ hi⟩
            · exact .inl h3
          · exact .inr ⟨p, List.mem_cons_of_mem _ hp, h3⟩

/-- Every dimension is at most as large. -/
def DimsLe : List Nat → List Nat → Prop
  | [], [] => True
  | d :: ds, m :: ms => d ≤ m ∧ DimsLe ds ms
  | _, _ => False

theorem DimsLe.trans : ∀ {a b c : List Nat}, DimsLe a b → DimsLe b c → DimsLe a c
  | [], [], [], _, _ => trivial
  | _ :: _, _ :: _, _ :: _, h1, h2 => ⟨Nat.le_trans h1.1 h2.1, h1.2.trans h2.2⟩

theorem DimsLe.refl : ∀ a : List Nat, DimsLe a a
  | [] => trivial
  | _ :: a => ⟨Nat.le_refl _, DimsLe.refl a⟩

theorem zipWith_max_le : ∀ {s m : List Nat}, s.length = m.length →
    DimsLe s (List.zipWith max s m) ∧ DimsLe m (List.zipWith max s m)
  | [], [], _ => ⟨trivial, trivial⟩
  | [], _ :: _, h => by simp at h
  | _ :: _, [], h => by simp at h
  | a :: s, b :: m, h => by
    obtain ⟨h1, h2⟩ := zipWith_max_le (s := s) (m := m) (by simpa using h)
    exact ⟨⟨Nat.le_max_left .., h1⟩, ⟨Nat.le_max_right .., h2⟩⟩

theorem maxPpo_go {rs : Records} : ∀ {m0 m : List Nat}, maxPpoShape m0 rs = .ok m →
    DimsLe m0 m ∧ ∀ p ∈ rs, ∃ v s, p.2.get? (py! "pulse_phase_offset") = some v ∧ v.shape? = .ok s ∧
      DimsLe s m := by
  induction rs with
  | nil =>
    intro m0 m h
    cases h
    exact ⟨DimsLe.refl _, by simp⟩
  | cons p rs ih =>
    intro m0 m h
    obtain ⟨n, r⟩ := p
    simp only [maxPpoShape, bind, Except.bind] at h
    split at h
    · cases h
    · rename_i v hv
      have hv := field_eq_ok hv
      split at h
      · cases h
      · rename_i s hs
        split at h
        · rename_i hl
          obtain ⟨h1, h2⟩ := ih h
          obtain ⟨h3, h4⟩ := zipWith_max_le hl
          refine ⟨h4.trans h1, ?_⟩
          intro p hp
          rcases List.mem_cons.1 hp with rfl | hp
          · exact ⟨v, s, hv, hs, h3.trans h1⟩
          · exact h2 p hp
        · cases h

theorem max_attained {c : Common} {q : Q} {rs : Records} (h : rs ≠ []) :
    ∃ p ∈ rs, q.max c rs = q.size c p.2 := by
  have key : ∀ (rs : Records) (m : Nat), rs.foldl (fun m p => Nat.max m (q.size c p.2)) m = m ∨
      ∃ p ∈ rs, rs.foldl (fun m p => Nat.max m (q.size c p.2)) m = q.size c p.2 := by
    intro rs
    induction rs with
    | nil => exact fun m => .inl rfl
    | cons p rs ih =>
      intro m
      rw [List.foldl_cons]
      rcases ih (Nat.max m (q.size c p.2)) with h | ⟨p', hp', h⟩
      · by_cases hle : m ≤ q.size c p.2
        · right
          exact ⟨p, List.mem_cons_self .., h.trans (Nat.max_eq_right hle)⟩
        · left
          exact h.trans (Nat.max_eq_left (by omega))
      · exact .inr ⟨p', List.mem_cons_of_mem _ hp', h⟩
  rcases key rs 0 with h0 | h1
  · cases rs with
    | nil => exact absurd rfl h
    | cons p rs =>
      refine ⟨p, List.mem_cons_self .., ?_⟩
      have : q.size c p.2 ≤ q.max c (p :: rs) := size_le_max (List.mem_cons_self ..)
      unfold Q.max at this ⊢
      rw [h0] at this ⊢
      omega
  · exact h1

end Verif.Bor
