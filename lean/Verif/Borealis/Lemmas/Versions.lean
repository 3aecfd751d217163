import Verif.Borealis.Model.Formats
/-!
# Lemmas about version strings
-/
namespace Verif.Bor
open Verif

theorem pySplit_head (c : Char) (s : PyStr) : (pySplit c s).headD [] = s.takeWhile (· ≠ c) := by
  induction s with
  | nil => rfl
  | cons a s ih =>
    rw [pySplit]
    by_cases h : a = c
    · simp [h]
    · rw [if_neg h]
      cases hs : pySplit c s with
      | nil => rw [hs] at ih; rw [List.takeWhile_cons, if_pos (by simpa using h), ← ih]; rfl
      | cons w ws => rw [hs] at ih; rw [List.takeWhile_cons, if_pos (by simpa using h), ← ih]; rfl

theorem pySplit_ne_nil (c : Char) (s : PyStr) : pySplit c s ≠ [] := by
  cases s with
  | nil => simp [pySplit]
  | cons a s =>
    rw [pySplit]
    split
    · simp
    · split <;> simp

/-- The first two components of a dotted string. -/
def cut2 (s : PyStr) : PyStr :=
  match s.dropWhile (· ≠ '.') with
  | [] => s
  | _ :: t => s.takeWhile (· ≠ '.') ++ '.' :: t.takeWhile (· ≠ '.')

theorem join_take_one (s : PyStr) : pyJoin '.' ((pySplit '.' s).take 1) = s.takeWhile (· ≠ '.') := by
  rw [← pySplit_head]
  cases h : pySplit '.' s with
  | nil => exact absurd h (pySplit_ne_nil _ _)
  | cons w ws => simp [pyJoin]

theorem join_take_two (s : PyStr) : pyJoin '.' ((pySplit '.' s).take 2) = cut2 s := by
  induction s with
  | nil => rfl
  | cons a s ih =>
    rw [pySplit]
    by_cases h : a = '.'
    · rw [if_pos h]
      have := join_take_one s
      cases hs : pySplit '.' s with
      | nil => exact absurd hs (pySplit_ne_nil _ _)
      | cons w ws =>
        rw [hs] at this
        simp only [List.take_succ_cons, List.take_zero, pyJoin] at this
        simp [pyJoin, cut2, h, this]
    · rw [if_neg h]
      cases hs : pySplit '.' s with
      | nil => exact absurd hs (pySplit_ne_nil _ _)
      | cons w ws =>
        rw [hs] at ih
        have hc : cut2 (a :: s) = a :: cut2 s := by
          unfold cut2
          simp only [List.dropWhile_cons, List.takeWhile_cons, h, ne_eq, not_false_eq_true, decide_true, if_true]
          split <;> simp
        rw [hc, ← ih]
        cases ws with
        | nil => simp [pyJoin]
        | cons w' ws => simp [pyJoin]

theorem versionOf_eq (h : PyStr) : versionOf h = cut2 (h.takeWhile (· ≠ '-')) := by
  unfold versionOf
  rw [pySplit_head, join_take_two]

theorem dropWhile_head {p : Char → Bool} {s : PyStr} {c : Char} {t : PyStr} (h : s.dropWhile p = c :: t) :
    p c = false := by
  induction s with
  | nil => cases h
  | cons a s ih =>
    rw [List.dropWhile_cons] at h
    split at h
    · exact ih h
    · rename_i hp
      cases h
      simpa using hp

theorem dropWhile_nil {p : Char → Bool} {s : PyStr} (h : s.dropWhile p = []) : ∀ c ∈ s, p c = true := by
  induction s with
  | nil => simp
  | cons a s ih =>
    rw [List.dropWhile_cons] at h
    split at h
    · rename_i hp
      intro c hc
      rcases List.mem_cons.1 hc with rfl | hc
      · exact hp
      · exact ih h c hc
    · cases h

theorem takeWhile_append_all {p : Char → Bool} {s t : PyStr} (h : ∀ c ∈ s, p c = true) :
    (s ++ t).takeWhile p = s ++ t.takeWhile p := by
  induction s with
  | nil => rfl
  | cons a s ih =>
    simp only [List.cons_append, List.takeWhile_cons, h a (by simp), if_true]
    rw [ih fun c hc => h c (by simp [hc])]

theorem dropWhile_append_all {p : Char → Bool} {s t : PyStr} (h : ∀ c ∈ s, p c = true) :
    (s ++ t).dropWhile p = t.dropWhile p := by
  induction s with
  | nil => rfl
  | cons a s ih =>
    simp only [List.cons_append, List.dropWhile_cons, h a (by simp), if_true]
    rw [ih fun c hc => h c (by simp [hc])]

/-- The hash starts with the version and the next character is a dot or a dash. -/
theorem versionOf_iff (a b : PyStr) (ha : ∀ c ∈ a, c ≠ '.' ∧ c ≠ '-') (hb : ∀ c ∈ b, c ≠ '.' ∧ c ≠ '-')
    (h : PyStr) :
    versionOf h = a ++ '.' :: b ↔
      ∃ s : PyStr, h = a ++ '.' :: b ++ s ∧ (s = [] ∨ ∃ t, s = '.' :: t ∨ s = '-' :: t) := by
  rw [versionOf_eq]
  constructor
  · intro hv
    have hsplit : h = h.takeWhile (· ≠ '-') ++ h.dropWhile (· ≠ '-') := List.takeWhile_append_dropWhile.symm
    have hrest : h.dropWhile (· ≠ '-') = [] ∨ ∃ t, h.dropWhile (· ≠ '-') = '-' :: t := by
      cases hd : h.dropWhile (· ≠ '-') with
      | nil => exact .inl rfl
      | cons c t =>
        have := dropWhile_head hd
        simp only [ne_eq, decide_not, Bool.not_eq_false', decide_eq_true_eq] at this
        exact .inr ⟨t, by rw [this]⟩
    generalize hp : h.takeWhile (· ≠ '-') = p at *
    generalize hq : h.dropWhile (· ≠ '-') = q at *
    unfold cut2 at hv
    have hps : p = p.takeWhile (· ≠ '.') ++ p.dropWhile (· ≠ '.') := List.takeWhile_append_dropWhile.symm
    split at hv
    · rename_i hd
      have := dropWhile_nil hd '.' (by rw [hv]; simp)
      simp at this
    · rename_i c t hd
      have hc := dropWhile_head hd
      simp only [ne_eq, decide_not, Bool.not_eq_false', decide_eq_true_eq] at hc
      subst hc
      have ht : t = t.takeWhile (· ≠ '.') ++ t.dropWhile (· ≠ '.') := List.takeWhile_append_dropWhile.symm
      refine ⟨t.dropWhile (· ≠ '.') ++ q, ?_, ?_⟩
      · have hp2 : p = p.takeWhile (· ≠ '.') ++ '.' :: t := by rw [← hd]; exact hps
        calc h = p ++ q := hsplit
          _ = (p.takeWhile (· ≠ '.') ++ '.' :: t) ++ q := by rw [← hp2]
          _ = (p.takeWhile (· ≠ '.') ++ '.' :: (t.takeWhile (· ≠ '.') ++ t.dropWhile (· ≠ '.'))) ++ q := by
            rw [← ht]
          _ = _ := by rw [← hv, List.append_assoc, List.append_assoc, List.cons_append,
            List.cons_append, List.append_assoc]
      · cases hd' : t.dropWhile (· ≠ '.') with
        | nil =>
          rcases hrest with h0 | ⟨t', h0⟩
          · exact .inl (by simp [h0])
          · exact .inr ⟨t', .inr (by simp [h0])⟩
        | cons c t' =>
          have hc := dropWhile_head hd'
          simp only [ne_eq, decide_not, Bool.not_eq_false', decide_eq_true_eq] at hc
          subst hc
          exact .inr ⟨t' ++ q, .inl rfl⟩
  · rintro ⟨s, rfl, hs⟩
    have e1 : (a ++ '.' :: b ++ s).takeWhile (· ≠ '-') = a ++ '.' :: b ++ s.takeWhile (· ≠ '-') := by
      apply takeWhile_append_all
      intro c hc
      rcases List.mem_append.1 hc with hc | hc
      · simp [(ha c hc).2]
      · rcases List.mem_cons.1 hc with rfl | hc
        · decide
        · simp [(hb c hc).2]
    rw [e1]
    have hs' : s.takeWhile (· ≠ '-') = [] ∨ ∃ t, s.takeWhile (· ≠ '-') = '.' :: t := by
      rcases hs with rfl | ⟨t, rfl | rfl⟩
      · exact .inl rfl
      · exact .inr ⟨_, by simp; rfl⟩
      · exact .inl (by simp)
    generalize s.takeWhile (· ≠ '-') = q at hs'
    unfold cut2
    rw [List.append_assoc, dropWhile_append_all (fun c hc => by simp [(ha c hc).1]),
      takeWhile_append_all (fun c hc => by simp [(ha c hc).1])]
    simp only [List.cons_append, List.dropWhile_cons, List.takeWhile_cons, ne_eq, not_true_eq_false,
      decide_false, Bool.false_eq_true, if_false, List.append_nil]
    rw [takeWhile_append_all (fun c hc => by simp [(hb c hc).1])]
    rcases hs' with rfl | ⟨t, rfl⟩ <;> simp

theorem lookupVersion_iff (v : PyStr) (w : Version) : lookupVersion v = some w ↔ v = w.name := by
  unfold lookupVersion Version.all
  constructor
  · intro h
    have := List.find?_some h
    simp only [decide_eq_true_eq] at this
    exact this.symm
  · rintro rfl
    cases w <;> decide +kernel

end Verif.Bor
