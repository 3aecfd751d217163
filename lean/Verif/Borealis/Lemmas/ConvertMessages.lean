import Verif.Borealis.Model.ConvertMessages
import Verif.Borealis.Lemmas.ConvertCheck
/-!
# Lemmas on the texts of refused conversions
-/
namespace Verif.Bor
open Verif

/-- Without the text. -/
def dropText {α : Type} : Except Said α → Except Err α
  | .ok a => .ok a
  | .error e => .error e.kind

theorem dropText_untoldE {α : Type} (x : Except Err α) : dropText (untoldE x) = x := by
  cases x <;> rfl

theorem dropText_bind {α β : Type} (x : Except Said α) (f : α → Except Said β) :
    dropText (x >>= f) = dropText x >>= fun a => dropText (f a) := by
  cases x <;> rfl

theorem blankedCheckM_drop (shown : Val → PyStr) (t : Target) (n : PyStr) (r : Rec) :
    dropText (blankedCheckM shown t n r) = blankedCheck r := by
  unfold blankedCheckM blankedCheck
  simp only [dropText_bind, dropText_untoldE, bind_assoc]
  congr 1; funext s
  congr 1; funext v
  congr 1; funext h
  congr 1; funext p
  congr 1; funext old
  congr 1; funext p
  congr 1; funext ps
  congr 1; funext b
  congr 1; funext bs
  split <;> rfl

theorem phaseCheckM_drop (shown : Val → PyStr) (ops : Ops) (n : PyStr) (r : Rec) :
    dropText (phaseCheckM shown ops n r) = phaseCheck ops r := by
  unfold phaseCheckM phaseCheck
  simp only [dropText_bind, dropText_untoldE]
  congr 1; funext v
  congr 1; funext a
  congr 1; funext z
  split <;> rfl

theorem checkTargetM_drop (shown : Val → PyStr) (ops : Ops) (t : Target) (rs : Records) :
    dropText (checkTargetM shown ops t rs) = checkTarget ops t rs := by
  cases t with
  | iqdat =>
    show dropText (checkIqdatM shown ops rs) = checkIqdat ops rs
    induction rs with
    | nil => rfl
    | cons p rs ih =>
      obtain ⟨n, r⟩ := p
      simp only [checkIqdatM, checkIqdat, dropText_bind, blankedCheckM_drop, phaseCheckM_drop, ih]
  | rawacf =>
    show dropText (checkRawacfM shown rs) = checkRawacf rs
    induction rs with
    | nil => rfl
    | cons p rs ih =>
      obtain ⟨n, r⟩ := p
      simp only [checkRawacfM, checkRawacf, dropText_bind, blankedCheckM_drop, ih]

theorem ok_of_drop {α : Type} {x : Except Said α} {a : α} (h : dropText x = .ok a) : x = .ok a := by
  cases x with
  | ok b => cases h; rfl
  | error e => cases h

theorem bindS {α β : Type} {x : Except Said α} {f : α → Except Said β} {a : α} (h : x = .ok a) : (x >>= f) = f a := by rw [h]; rfl

theorem untoldE_ok {α : Type} {x : Except Err α} {a : α} (h : x = .ok a) : untoldE x = .ok a := by rw [h]; rfl

theorem blankedCheckM_eq (shown : Val → PyStr) (tg : Target) (n : PyStr) {r : Rec} {ps bs : List Nat} {t l : Nat} {h : PyStr}
    (hr : BlankedRec r ps bs t l) (hh : IsText (Dict.get? r (py! "borealis_git_hash")) h) (hv : HasVersion h) :
    blankedCheckM shown tg n r = if bs = expectedBlanked false ps (t / l) bs then .ok ()
      else .error ⟨.notConvertible, some (convertText tg (blankedText tg n (shown (numbers bs)) (shown (numbers ps)) (t / l)))⟩ := by
  obtain ⟨p, hp⟩ := revisions_iff.2 hv
  have hpos := hr.pos
  unfold blankedCheckM
  have hs : sampleSpacing r = .ok (t / l) := by rw [sampleSpacing_eq hr.tau hr.len, if_neg (by omega)]
  have ht : (do (← field r (py! "borealis_git_hash")).text) = .ok h := by rw [bind_of_ok (field_iff.2 hh)]; rfl
  have ho : (do oldVersion (← revisions h)) = .ok false := by rw [bind_of_ok hp]; exact oldVersion_false hp
  rw [bindS (untoldE_ok hs), bindS (untoldE_ok ht), bindS (untoldE_ok ho), bindS (untoldE_ok (field_iff.2 hr.pulses)), bindS (untoldE_ok (u32s_numbers ps)),
    bindS (untoldE_ok (field_iff.2 hr.blanked)), bindS (untoldE_ok (u32s_numbers bs))]

theorem phaseCheckM_eq (shown : Val → PyStr) {ops : Ops} (nm : PyStr) {r : Rec} {a : NdArr} {n : Nat}
    (ha : Dict.get? r (py! "pulse_phase_offset") = some (.arr a)) (hs : a.shape = [n]) (hw : a.WF) :
    phaseCheckM shown ops nm r = if a.data.all ops.isZero then .ok ()
      else .error ⟨.notConvertible, some (convertText .iqdat (phaseText nm (shown (.arr a))))⟩ := by
  have hz : allZero ops a = .ok (a.data.all ops.isZero) := by
    have h := phaseCheck_eq (ops := ops) ha hs hw
    unfold phaseCheck at h
    rw [bind_of_ok (field_iff.2 ha), bind_of_ok (x := (Val.arr a).arr?) (a := a) rfl] at h
    cases hz : allZero ops a with
    | error e =>
      rw [hz] at h
      unfold allZero at hz
      rw [hs] at hz
      simp only [prod] at hz
      split at hz
      · cases hz
      · simp at hz
    | ok b =>
      rw [hz] at h
      cases b <;> cases hb : a.data.all ops.isZero <;> rw [hb] at h <;> first | rfl | cases h
  unfold phaseCheckM
  rw [bindS (untoldE_ok (field_iff.2 ha)), bindS (untoldE_ok (x := (Val.arr a).arr?) (a := a) rfl), bindS (untoldE_ok hz)]

theorem word_end {n n' : PyStr} {x y : PyStr} (h : ' ' ∉ n) (h' : ' ' ∉ n') (he : n ++ ' ' :: x = n' ++ ' ' :: y) : n = n' ∧ x = y := by
  induction n generalizing n' with
  | nil =>
    cases n' with
    | nil => exact ⟨rfl, (List.cons.inj he).2⟩
    | cons c n' => exact absurd (List.cons.inj he).1 (by rintro rfl; simp at h')
  | cons c n ih =>
    cases n' with
    | nil => exact absurd (List.cons.inj he).1 (by rintro rfl; simp at h)
    | cons d n' =>
      obtain ⟨rfl, he'⟩ := List.cons.inj he
      obtain ⟨rfl, hx⟩ := ih (fun hm => h (List.mem_cons_of_mem _ hm)) (fun hm => h' (List.mem_cons_of_mem _ hm)) he'
      exact ⟨rfl, hx⟩

end Verif.Bor
