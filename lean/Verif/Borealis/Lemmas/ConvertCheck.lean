import Verif.Borealis.Lemmas.ConvertBfiq
import Verif.Borealis.Lemmas.Versions
/-!
# Lemmas on the convertibility checks
-/
namespace Verif.Bor
open Verif

/-! ## Version numbers -/

theorem pySplit_two {c : Char} {s : PyStr} (h : c ∈ s) : ∃ a b l, pySplit c s = a :: b :: l := by
  induction s with
  | nil => simp at h
  | cons d s ih =>
    rw [pySplit.eq_def]
    simp only
    split
    · cases hs : pySplit c s with
      | nil => exact absurd hs (pySplit_ne_nil c s)
      | cons b l => exact ⟨_, _, _, rfl⟩
    · rename_i hd
      obtain ⟨a, b, l, hs⟩ := ih (by simpa [Ne.symm hd] using h)
      rw [hs]
      exact ⟨_, _, _, rfl⟩

theorem pySplit_one {c : Char} {s : PyStr} (h : c ∉ s) : pySplit c s = [s] := by
  induction s with
  | nil => rfl
  | cons d s ih =>
    simp only [List.mem_cons, not_or] at h
    rw [pySplit.eq_def]
    simp only
    rw [if_neg (Ne.symm h.1), ih h.2]

theorem revisions_iff {h : PyStr} : (∃ p, revisions h = .ok p) ↔ HasVersion h := by
  unfold revisions HasVersion
  split
  · simp
  · rename_i u
    rw [pySplit_head]
    by_cases hd : '.' ∈ ('v' :: u).takeWhile (· ≠ '-')
    · obtain ⟨a, b, l, hs⟩ := pySplit_two hd
      rw [hs]
      simp only [Except.ok.injEq, exists_eq', ne_eq, reduceCtorEq, not_false_eq_true, true_and, true_iff]
      exact fun _ => hd
    · rw [pySplit_one hd]
      constructor
      · rintro ⟨p, hp⟩; cases hp
      · rintro ⟨-, h⟩; exact absurd (h rfl) hd
  · rename_i c u hc
    cases h with
    | nil => simp_all
    | cons c u =>
      simp only [Except.ok.injEq, exists_eq', ne_eq, reduceCtorEq, not_false_eq_true, List.head?_cons,
        Option.some.injEq, true_and, true_iff]
      intro h
      exact absurd h (by intro h; subst h; simp_all)

theorem revisions_error {h : PyStr} (hh : ¬ HasVersion h) : revisions h = .error .indexError := by
  unfold revisions
  split
  · rfl
  · rename_i u
    unfold HasVersion at hh
    have hd : '.' ∉ ('v' :: u).takeWhile (· ≠ '-') := fun hd => hh ⟨by simp, fun _ => hd⟩
    rw [pySplit_head, pySplit_one hd]
  · rename_i h1 h2
    refine absurd ?_ hh
    refine ⟨h1, fun hv => ?_⟩
    cases h with
    | nil => simp at hv
    | cons c u =>
      simp only [List.head?_cons, Option.some.injEq] at hv
      subst hv
      exact absurd rfl (h2 u)

theorem oldVersion_false {h : PyStr} {p : Revision × Revision} (hp : revisions h = .ok p) :
    oldVersion p = .ok false := by
  unfold revisions at hp
  split at hp
  · cases hp
  · split at hp
    · cases hp; rfl
    · cases hp
  · cases hp; rfl

/-! ## Sorting -/

theorem insertNat_perm (n : Nat) (l : List Nat) : (insertNat n l).Perm (n :: l) := by
  induction l with
  | nil => exact List.Perm.refl _
  | cons m l ih =>
    unfold insertNat
    split
    · exact List.Perm.refl _
    · exact (List.Perm.cons m ih).trans (List.Perm.swap n m l)

theorem sortNat_perm (l : List Nat) : (sortNat l).Perm l := by
  induction l with
  | nil => exact List.Perm.refl _
  | cons n l ih => exact (insertNat_perm n _).trans (List.Perm.cons n ih)

theorem insertNat_ascending {n : Nat} {l : List Nat} (h : Ascending l) : Ascending (insertNat n l) := by
  induction l with
  | nil => exact ⟨by simp, trivial⟩
  | cons m l ih =>
    unfold insertNat
    split
    · rename_i hle
      refine ⟨fun b hb => ?_, h⟩
      rcases List.mem_cons.1 hb with rfl | hb
      · exact hle
      · exact Nat.le_trans hle (h.1 b hb)
    · refine ⟨fun b hb => ?_, ih h.2⟩
      rcases List.mem_cons.1 ((insertNat_perm n l).mem_iff.1 hb) with rfl | hb
      · omega
      · exact h.1 b hb

theorem sortNat_ascending (l : List Nat) : Ascending (sortNat l) := by
  induction l with
  | nil => trivial
  | cons n l ih => exact insertNat_ascending ih

theorem ascending_unique {l l' : List Nat} (h : Ascending l) (h' : Ascending l') (hp : l.Perm l') : l = l' := by
  induction l generalizing l' with
  | nil => exact hp.nil_eq
  | cons a l ih =>
    cases l' with
    | nil => exact hp.eq_nil
    | cons b l' =>
      have hab : a = b := by
        have h1 : a ∈ b :: l' := hp.mem_iff.1 (by simp)
        have h2 : b ∈ a :: l := hp.mem_iff.2 (by simp)
        rcases List.mem_cons.1 h1 with h1 | h1
        · exact h1
        · rcases List.mem_cons.1 h2 with h2 | h2
          · exact h2.symm
          · exact Nat.le_antisymm (h.1 b h2) (h'.1 a h1)
      subst hab
      rw [ih h.2 h'.2 hp.cons_inv]

/-! ## The check of one record -/

theorem expected_iff {ps bs : List Nat} {t l : Nat} (hf : ∀ p ∈ ps, p * (t / l) + 1 < 2 ^ 32) :
    bs = expectedBlanked false ps (t / l) bs ↔ Blanked ps t l bs := by
  have h1 : pulseSamples ps (t / l) = atPulses ps t l := by
    unfold pulseSamples atPulses
    refine List.map_congr_left fun p hp => ?_
    have := hf p hp
    exact Nat.mod_eq_of_lt (by omega)
  have h2 : nextSamples (atPulses ps t l) = (atPulses ps t l).map (· + 1) := by
    unfold nextSamples
    refine List.map_congr_left fun n hn => ?_
    unfold atPulses at hn
    obtain ⟨p, hp, rfl⟩ := List.mem_map.1 hn
    exact Nat.mod_eq_of_lt (hf p hp)
  unfold expectedBlanked Blanked
  simp only [h1, h2, Bool.false_eq_true, if_false]
  split
  · rename_i h
    simp [h]
  · rename_i h
    constructor
    · intro hb
      refine .inr ⟨?_, ?_⟩
      · rw [hb]; exact sortNat_ascending _
      · rw [hb]; exact sortNat_perm _
    · rintro (hb | ⟨ha, hp⟩)
      · exact absurd hb.symm h
      · exact ascending_unique ha (sortNat_ascending _) (hp.trans (sortNat_perm _).symm)

theorem u32s_numbers (l : List Nat) : (numbers l).u32s = .ok l := by
  unfold Val.u32s
  rw [numbers_dims]
  rfl

theorem sampleSpacing_eq {r : Rec} {t l : Nat}
    (ht : Dict.get? r (py! "tau_spacing") = some (.np .u32 (.int t)))
    (hl : Dict.get? r (py! "tx_pulse_len") = some (.np .u32 (.int l))) :
    sampleSpacing r = if l = 0 then (if t = 0 then .error .valueError else .error .overflowError)
      else .ok (t / l) := by
  unfold sampleSpacing
  rw [bind_of_ok (field_iff.2 ht), bind_of_ok (x := (Val.np .u32 (.int t)).int) (a := (t : Int)) rfl, bind_of_ok (field_iff.2 hl),
    bind_of_ok (x := (Val.np .u32 (.int l)).int) (a := (l : Int)) rfl, if_neg (by omega)]
  by_cases h0 : l = 0
  · subst h0
    by_cases h1 : t = 0
    · subst h1; rfl
    · rw [if_pos (by rfl : ((0 : Nat) : Int) = 0), if_neg (by omega), if_pos rfl, if_neg h1]
  · rw [if_neg (by omega), if_neg h0]
    simp

theorem blankedCheck_eq {r : Rec} {ps bs : List Nat} {t l : Nat} {h : PyStr} (hr : BlankedRec r ps bs t l)
    (hh : IsText (Dict.get? r (py! "borealis_git_hash")) h) (hv : HasVersion h) :
    blankedCheck r =
      if bs = expectedBlanked false ps (t / l) bs then .ok () else .error .notConvertible := by
  obtain ⟨p, hp⟩ := revisions_iff.2 hv
  have hpos := hr.pos
  unfold blankedCheck
  rw [bind_of_ok (by rw [sampleSpacing_eq hr.tau hr.len, if_neg (by omega)]), bind_of_ok (field_iff.2 hh),
    bind_of_ok (x := (Val.py .str (.str h)).text) (a := h) rfl, bind_of_ok hp, bind_of_ok (oldVersion_false hp), bind_of_ok (field_iff.2 hr.pulses),
    bind_of_ok (u32s_numbers ps), bind_of_ok (field_iff.2 hr.blanked), bind_of_ok (u32s_numbers bs)]

theorem phaseCheck_eq {ops : Ops} {r : Rec} {a : NdArr} {n : Nat}
    (ha : Dict.get? r (py! "pulse_phase_offset") = some (.arr a)) (hs : a.shape = [n]) (hw : a.WF) :
    phaseCheck ops r = if a.data.all ops.isZero then .ok () else .error .notConvertible := by
  have hlen : a.data.length = n := by
    have := hw
    unfold NdArr.WF at this
    rw [this, hs]
    simp [prod]
  have hz : allZero ops a = .ok (a.data.all ops.isZero) := by
    unfold allZero
    rw [hs]
    simp only
    split
    · rename_i h0
      rw [h0] at hlen
      rw [List.eq_nil_of_length_eq_zero hlen]
      rfl
    · rfl
  unfold phaseCheck
  rw [bind_of_ok (field_iff.2 ha), bind_of_ok (x := (Val.arr a).arr?) (a := a) rfl, bind_of_ok hz]

end Verif.Bor
