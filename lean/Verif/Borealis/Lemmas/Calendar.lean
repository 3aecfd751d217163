import Verif.Borealis.Model.Times
import Verif.Borealis.SpecTimes
/-!
# The calendar: lemmas
-/
namespace Verif.Bor
open Verif

theorem sum_range_succ (f : Nat → Nat) (n : Nat) :
    ((List.range (n + 1)).map f).sum = ((List.range n).map f).sum + f n := by
  rw [List.range_succ, List.map_append, List.sum_append]
  simp

/-- Days of the years before. -/
theorem years_sum (y : Nat) :
    ((List.range y).map fun i => yearDays (i + 1)).sum + y / 100 = 365 * y + y / 4 + y / 400 := by
  induction y with
  | zero => rfl
  | succ y ih =>
    rw [sum_range_succ]
    generalize ((List.range y).map fun i => yearDays (i + 1)).sum = s at *
    unfold yearDays
    by_cases h : IsLeap (y + 1)
    · rw [if_pos h]
      unfold IsLeap at h
      omega
    · rw [if_neg h]
      unfold IsLeap at h
      omega

theorem leapYear_iff (y : Nat) : leapYear y = true ↔ IsLeap y := by
  unfold leapYear IsLeap
  simp

/-- Months and days of a year. -/
theorem months_table : ∀ leap : Bool, ∀ n < (if leap then 366 else 365),
    let m := ((monthStarts leap).filter (· ≤ n)).length
    1 ≤ m ∧ m ≤ 12 ∧ (monthStarts leap).getD (m - 1) 0 ≤ n ∧
    n - (monthStarts leap).getD (m - 1) 0 + 1 ≤ monthDays (if leap then 4 else 1) m ∧
    ((List.range (m - 1)).map fun i => monthDays (if leap then 4 else 1) (i + 1)).sum = (monthStarts leap).getD (m - 1) 0 := by
  decide +kernel

theorem monthDays_congr {y y' : Nat} (h : IsLeap y ↔ IsLeap y') (m : Nat) : monthDays y m = monthDays y' m := by
  unfold monthDays
  simp only [h]

theorem months_ok (y n : Nat) (hn : n < yearDays y) :
    let m := ((monthStarts (leapYear y)).filter (· ≤ n)).length
    let d := n - (monthStarts (leapYear y)).getD (m - 1) 0 + 1
    1 ≤ m ∧ m ≤ 12 ∧ 1 ≤ d ∧ d ≤ monthDays y m ∧ ((List.range (m - 1)).map fun i => monthDays y (i + 1)).sum + (d - 1) = n := by
  have hl : IsLeap y ↔ IsLeap (if leapYear y then 4 else 1) := by
    by_cases h : leapYear y = true
    · rw [if_pos h, ← leapYear_iff, h]
      decide
    · rw [if_neg h, ← leapYear_iff]
      simp only [h]
      decide
  have hn' : n < (if leapYear y then 366 else 365) := by
    unfold yearDays at hn
    by_cases h : leapYear y = true
    · rw [if_pos h]
      rw [if_pos ((leapYear_iff y).1 h)] at hn
      exact hn
    · rw [if_neg h]
      rw [if_neg (fun g => h ((leapYear_iff y).2 g))] at hn
      exact hn
  obtain ⟨h1, h2, h3, h4, h5⟩ := months_table (leapYear y) n hn'
  intro m d
  refine ⟨h1, h2, Nat.le_add_left 1 _, ?_, ?_⟩
  · rw [monthDays_congr hl]
    exact h4
  · have : (fun i => monthDays y (i + 1)) = fun i => monthDays (if leapYear y then 4 else 1) (i + 1) := by
      funext i
      exact monthDays_congr hl _
    rw [this, h5]
    exact (congrArg _ (Nat.add_sub_cancel ..)).trans (Nat.add_sub_cancel' h3)

/-- The date of a number of days is the one with that number. -/
theorem dateOf_ok (n : Nat) : 1 ≤ (dateOf n).1 ∧ 1 ≤ (dateOf n).2.1 ∧ (dateOf n).2.1 ≤ 12 ∧ 1 ≤ (dateOf n).2.2 ∧
    (dateOf n).2.2 ≤ monthDays (dateOf n).1 (dateOf n).2.1 ∧ dayNumber (dateOf n).1 (dateOf n).2.1 (dateOf n).2.2 = n := by
  unfold dateOf
  simp only
  have e1 := Nat.div_add_mod n 146097
  have e2 := Nat.div_add_mod (n % 146097) 36524
  have e3 := Nat.div_add_mod (n % 146097 % 36524) 1461
  have e4 := Nat.div_add_mod (n % 146097 % 36524 % 1461) 365
  have l1 := Nat.mod_lt n (show 0 < 146097 by decide)
  have l2 := Nat.mod_lt (n % 146097) (show 0 < 36524 by decide)
  have l3 := Nat.mod_lt (n % 146097 % 36524) (show 0 < 1461 by decide)
  have l4 := Nat.mod_lt (n % 146097 % 36524 % 1461) (show 0 < 365 by decide)
  generalize n % 146097 % 36524 % 1461 % 365 = r at *
  generalize n % 146097 % 36524 % 1461 / 365 = d at *
  generalize n % 146097 % 36524 % 1461 = r3 at *
  generalize n % 146097 % 36524 / 1461 = c at *
  generalize n % 146097 % 36524 = r2 at *
  generalize n % 146097 / 36524 = b at *
  generalize n % 146097 = r1 at *
  generalize n / 146097 = a at *
  by_cases hz : d = 4 ∨ b = 4
  · rw [if_pos hz]
    have hy : IsLeap (a * 400 + b * 100 + c * 4 + d) := by
      unfold IsLeap
      omega
    have hs := years_sum (a * 400 + b * 100 + c * 4 + d - 1)
    have hc : c ≤ 24 := by omega
    have hq : (a * 400 + b * 100 + c * 4 + d - 1) / 4 = a * 100 + b * 25 + c - (if d = 4 then 0 else 1) ∧
        (a * 400 + b * 100 + c * 4 + d - 1) / 100 = a * 4 + b - (if d = 4 then 0 else 1) ∧
        (a * 400 + b * 100 + c * 4 + d - 1) / 400 = a := by
      rcases hz with rfl | rfl
      · have : b ≤ 3 := by omega
        rw [if_pos rfl]
        omega
      · have : c = 0 := by omega
        have : d = 0 := by omega
        subst c d
        rw [if_neg (by decide)]
        omega
    rw [hq.1, hq.2.1, hq.2.2] at hs
    have h31 : monthDays (a * 400 + b * 100 + c * 4 + d) 12 = 31 := rfl
    refine ⟨by omega, (by decide : 1 ≤ 12), (by decide : 12 ≤ 12), (by decide : 1 ≤ 31), by rw [h31]; exact Nat.le_refl 31, ?_⟩
    show dayNumber (a * 400 + b * 100 + c * 4 + d) 12 31 = n
    unfold dayNumber
    have hm : ((List.range (12 - 1)).map fun i => monthDays (a * 400 + b * 100 + c * 4 + d) (i + 1)).sum = 335 := by
      have : (fun i => monthDays (a * 400 + b * 100 + c * 4 + d) (i + 1)) = fun i => monthDays 4 (i + 1) := by
        funext i
        exact monthDays_congr (iff_of_true hy (by decide)) _
      rw [this]
      rfl
    rw [hm]
    generalize ((List.range (a * 400 + b * 100 + c * 4 + d - 1)).map fun i => yearDays (i + 1)).sum = s at *
    rcases hz with rfl | rfl
    · rw [if_pos rfl] at hs
      omega
    · have : d = 0 := by omega
      subst d
      rw [if_neg (by decide)] at hs
      omega
  · rw [if_neg hz]
    have hs := years_sum (a * 400 + b * 100 + c * 4 + d)
    have hc : c ≤ 24 := by omega
    have hd : d ≤ 3 := by omega
    have hb : b ≤ 3 := by omega
    rw [show (a * 400 + b * 100 + c * 4 + d) / 4 = a * 100 + b * 25 + c by omega,
      show (a * 400 + b * 100 + c * 4 + d) / 100 = a * 4 + b by omega,
      show (a * 400 + b * 100 + c * 4 + d) / 400 = a by omega] at hs
    have hr : r < yearDays (a * 400 + b * 100 + c * 4 + d + 1) := by
      unfold yearDays
      split <;> omega
    obtain ⟨g1, g2, g3, g4, g5⟩ := months_ok _ r hr
    refine ⟨Nat.le_add_left 1 _, g1, g2, g3, g4, ?_⟩
    unfold dayNumber
    rw [Nat.add_assoc, g5, Nat.add_sub_cancel]
    clear g1 g2 g3 g4 g5 hr
    generalize ((List.range (a * 400 + b * 100 + c * 4 + d)).map fun i => yearDays (i + 1)).sum = s at *
    omega

theorem sum_range_lt (f : Nat → Nat) {n k : Nat} (h : n < k) :
    ((List.range n).map f).sum + f n ≤ ((List.range k).map f).sum := by
  induction k with
  | zero => omega
  | succ k ih =>
    rw [sum_range_succ]
    rcases Nat.lt_succ_iff_lt_or_eq.1 h with h | rfl
    · have := ih h
      omega
    · exact Nat.le_refl _

theorem year_sum (y : Nat) : ((List.range 12).map fun i => monthDays y (i + 1)).sum = yearDays y := by
  have hl : IsLeap y ↔ IsLeap (if IsLeap y then 4 else 1) := by
    by_cases h : IsLeap y
    · rw [if_pos h]
      exact iff_of_true h (by decide)
    · rw [if_neg h]
      exact iff_of_false h (by decide)
  have : (fun i => monthDays y (i + 1)) = fun i => monthDays (if IsLeap y then 4 else 1) (i + 1) := by
    funext i
    exact monthDays_congr hl _
  rw [this]
  unfold yearDays
  by_cases h : IsLeap y
  · rw [if_pos h, if_pos h]
    rfl
  · rw [if_neg h, if_neg h]
    rfl

/-- No two dates have the same number. -/
theorem dayNumber_inj {y m d y' m' d' : Nat} (hy : 1 ≤ y) (hm : 1 ≤ m) (hm' : m ≤ 12) (hd : 1 ≤ d) (hd' : d ≤ monthDays y m)
    (ky : 1 ≤ y') (km : 1 ≤ m') (km' : m' ≤ 12) (kd : 1 ≤ d') (kd' : d' ≤ monthDays y' m')
    (h : dayNumber y m d = dayNumber y' m' d') : y = y' ∧ m = m' ∧ d = d' := by
  unfold dayNumber at h
  have b1 : ((List.range (m - 1)).map fun i => monthDays y (i + 1)).sum + monthDays y m ≤ yearDays y := by
    have := sum_range_lt (fun i => monthDays y (i + 1)) (n := m - 1) (k := 12) (by omega)
    rwa [year_sum, show m - 1 + 1 = m by omega] at this
  have b2 : ((List.range (m' - 1)).map fun i => monthDays y' (i + 1)).sum + monthDays y' m' ≤ yearDays y' := by
    have := sum_range_lt (fun i => monthDays y' (i + 1)) (n := m' - 1) (k := 12) (by omega)
    rwa [year_sum, show m' - 1 + 1 = m' by omega] at this
  have hyy : y = y' := by
    rcases Nat.lt_trichotomy y y' with hlt | heq | hlt
    · have := sum_range_lt (fun i => yearDays (i + 1)) (n := y - 1) (k := y' - 1) (by omega)
      rw [show y - 1 + 1 = y by omega] at this
      omega
    · exact heq
    · have := sum_range_lt (fun i => yearDays (i + 1)) (n := y' - 1) (k := y - 1) (by omega)
      rw [show y' - 1 + 1 = y' by omega] at this
      omega
  subst hyy
  have hmm : m = m' := by
    rcases Nat.lt_trichotomy m m' with hlt | heq | hlt
    · have := sum_range_lt (fun i => monthDays y (i + 1)) (n := m - 1) (k := m' - 1) (by omega)
      rw [show m - 1 + 1 = m by omega] at this
      omega
    · exact heq
    · have := sum_range_lt (fun i => monthDays y (i + 1)) (n := m' - 1) (k := m - 1) (by omega)
      rw [show m' - 1 + 1 = m' by omega] at this
      omega
  subst hmm
  exact ⟨rfl, rfl, by omega⟩

theorem epoch_ok : dayNumber 1970 1 1 = epochDays := by decide +kernel

end Verif.Bor
