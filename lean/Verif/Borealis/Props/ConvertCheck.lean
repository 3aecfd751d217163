import Verif.Borealis.Lemmas.ConvertCheck
import Verif.Borealis.SampleConvert
/-!
# C46: which records can be converted
-/
namespace Verif.Bor
open Verif

/-- **C46.** A record passes the check of blanked samples iff these are the pulse samples, or in ascending order the
pulse samples and the one after each.  Every other record is reported as not convertible.  The version
makes no difference, although the code means it to. -/
theorem C46_blanked {r : Rec} {ps bs : List Nat} {t l : Nat} {h : PyStr} (hr : BlankedRec r ps bs t l)
    (hh : IsText (Dict.get? r (py! "borealis_git_hash")) h) (hv : HasVersion h) :
    (Blanked ps t l bs → blankedCheck r = .ok ()) ∧
    (¬ Blanked ps t l bs → blankedCheck r = .error .notConvertible) := by
  rw [blankedCheck_eq hr hh hv]
  refine ⟨fun hb => if_pos ((expected_iff hr.fits).2 hb), fun hb => if_neg fun he => hb ((expected_iff hr.fits).1 he)⟩

/-- **C46.** A record passes the check of phase offsets iff all are zero. -/
theorem C46_phases {ops : Ops} {r : Rec} {a : NdArr} {n : Nat}
    (ha : Dict.get? r (py! "pulse_phase_offset") = some (.arr a)) (hs : a.shape = [n]) (hw : a.WF) :
    ((∀ e ∈ a.data, ops.isZero e = true) → phaseCheck ops r = .ok ()) ∧
    ((∃ e ∈ a.data, ops.isZero e ≠ true) → phaseCheck ops r = .error .notConvertible) := by
  rw [phaseCheck_eq ha hs hw]
  refine ⟨fun h => if_pos (List.all_eq_true.2 h), fun ⟨e, he, hz⟩ => if_neg fun h => hz (List.all_eq_true.1 h e he)⟩

/-- **C46.** A rawacf file is accepted iff all of its records have allowed blanked samples, and is otherwise
reported as not convertible. -/
theorem C46_rawacf (ops : Ops) (rs : Records) (B : Rec → Prop) (h : ∀ p ∈ rs, Checkable p.2 (B p.2)) :
    ((∀ p ∈ rs, B p.2) → checkTarget ops .rawacf rs = .ok ()) ∧
    ((∃ p ∈ rs, ¬ B p.2) → checkTarget ops .rawacf rs = .error .notConvertible) := by
  show ((∀ p ∈ rs, B p.2) → checkRawacf rs = .ok ()) ∧ (_ → checkRawacf rs = .error .notConvertible)
  induction rs with
  | nil => exact ⟨fun _ => rfl, fun ⟨_, h, _⟩ => by simp at h⟩
  | cons p rs ih =>
    obtain ⟨n, r⟩ := p
    have ih := ih fun p hp => h p (List.mem_cons_of_mem _ hp)
    obtain ⟨ps, bs, t, l, hash, hr, hh, hv, hB⟩ := h (n, r) (by simp)
    obtain ⟨h1, h2⟩ := C46_blanked hr hh hv
    simp only [checkRawacf]
    constructor
    · intro hall
      rw [bind_of_ok (h1 (hB.1 (hall (n, r) (by simp))))]
      exact ih.1 fun p hp => hall p (List.mem_cons_of_mem _ hp)
    · rintro ⟨p, hp, hn⟩
      by_cases hb : B r
      · rw [bind_of_ok (h1 (hB.1 hb))]
        rcases List.mem_cons.1 hp with rfl | hp
        · exact absurd hb hn
        · exact ih.2 ⟨p, hp, hn⟩
      · rw [h2 (fun h => hb (hB.2 h))]
        rfl

/-- **C46.** A bfiq file is accepted iff all of its records have allowed blanked samples and no phase offsets, and
is otherwise reported as not convertible. -/
theorem C46_bfiq (ops : Ops) (rs : Records) (B Z : Rec → Prop) (h : ∀ p ∈ rs, Checkable p.2 (B p.2))
    (hz : ∀ p ∈ rs, PhasesRec ops p.2 (Z p.2)) :
    ((∀ p ∈ rs, B p.2 ∧ Z p.2) → checkTarget ops .iqdat rs = .ok ()) ∧
    ((∃ p ∈ rs, ¬ (B p.2 ∧ Z p.2)) → checkTarget ops .iqdat rs = .error .notConvertible) := by
  show ((∀ p ∈ rs, B p.2 ∧ Z p.2) → checkIqdat ops rs = .ok ()) ∧ (_ → checkIqdat ops rs = .error .notConvertible)
  induction rs with
  | nil => exact ⟨fun _ => rfl, fun ⟨_, h, _⟩ => by simp at h⟩
  | cons p rs ih =>
    obtain ⟨n, r⟩ := p
    have ih := ih (fun p hp => h p (List.mem_cons_of_mem _ hp)) (fun p hp => hz p (List.mem_cons_of_mem _ hp))
    obtain ⟨ps, bs, t, l, hash, hr, hh, hv, hB⟩ := h (n, r) (by simp)
    obtain ⟨a, m, ha, hs, hw, hZ⟩ := hz (n, r) (by simp)
    obtain ⟨h1, h2⟩ := C46_blanked hr hh hv
    obtain ⟨h3, h4⟩ := C46_phases (ops := ops) ha hs hw
    simp only [checkIqdat]
    constructor
    · intro hall
      obtain ⟨hb, hz⟩ := hall (n, r) (by simp)
      rw [bind_of_ok (h1 (hB.1 hb)), bind_of_ok (h3 (hZ.1 hz))]
      exact ih.1 fun p hp => hall p (List.mem_cons_of_mem _ hp)
    · rintro ⟨p, hp, hn⟩
      by_cases hb : B r
      · rw [bind_of_ok (h1 (hB.1 hb))]
        by_cases hz : Z r
        · rw [bind_of_ok (h3 (hZ.1 hz))]
          rcases List.mem_cons.1 hp with rfl | hp
          · exact absurd ⟨hb, hz⟩ hn
          · exact ih.2 ⟨p, hp, hn⟩
        · rw [h4 (by
            refine Classical.byContradiction fun hne => hz (hZ.2 fun e he => ?_)
            exact Classical.byContradiction fun h => hne ⟨e, he, h⟩)]
          rfl
      · rw [h2 (fun h => hb (hB.2 h))]
        rfl

/-- **C46.** What is not accepted by the check is not converted. -/
theorem C46_first {cfg : NpCfg} {ops : Ops} {t : Target} {slice : Val} {origin : PyStr} {factor : Int} {rs : Records}
    {e : Err} (h : checkTarget ops t rs = .error e) : convertToDmap cfg ops t slice origin factor rs = .error e := by
  unfold convertToDmap
  rw [h]

/-- **C46** is violated by records without a version: `IndexError` instead of the conversion error. -/
theorem C46_violation_no_version {r : Rec} {ps bs : List Nat} {t l : Nat} {h : PyStr} (hr : BlankedRec r ps bs t l)
    (hh : IsText (Dict.get? r (py! "borealis_git_hash")) h) (hv : ¬ HasVersion h) :
    blankedCheck r = .error .indexError := by
  have hpos := hr.pos
  unfold blankedCheck
  rw [bind_of_ok (by rw [sampleSpacing_eq hr.tau hr.len, if_neg (by omega)]), bind_of_ok (field_iff.2 hh),
    bind_of_ok (x := (Val.py .str (.str h)).text) (a := h) rfl, revisions_error hv]
  rfl

/-- **C46** is violated by records with pulses of length zero: `ValueError` or `OverflowError` instead of the
conversion error. -/
theorem C46_violation_zero_length {r : Rec} {t : Nat}
    (ht : Dict.get? r (py! "tau_spacing") = some (.np .u32 (.int t)))
    (hl : Dict.get? r (py! "tx_pulse_len") = some (.np .u32 (.int 0))) :
    blankedCheck r = .error (if t = 0 then .valueError else .overflowError) := by
  unfold blankedCheck
  rw [sampleSpacing_eq (l := 0) ht hl, if_pos rfl]
  split <;> rfl

/-- **C46** is violated by records with phase offsets for each sequence and pulse: `ValueError` instead of the
conversion error, even if all are zero. -/
theorem C46_violation_phases {ops : Ops} {r : Rec} {a : NdArr} {n m : Nat}
    (ha : Dict.get? r (py! "pulse_phase_offset") = some (.arr a)) (hs : a.shape = [n + 1, m]) (hm : m ≠ 1) :
    phaseCheck ops r = .error .valueError := by
  unfold phaseCheck
  rw [bind_of_ok (field_iff.2 ha), bind_of_ok (x := (Val.arr a).arr?) (a := a) rfl]
  have : allZero ops a = .error .valueError := by
    unfold allZero
    rw [hs]
    simp [prod, hm]
  rw [this]
  rfl

theorem sample_blanked (v : Version) (tail : PyStr) :
    BlankedRec (sampleBfiq v tail) [0, 9, 12] [0, 1, 72, 73, 96, 97] 2400 300 ∧
    BlankedRec (sampleRawacf v tail) [0, 9, 12] [0, 1, 72, 73, 96, 97] 2400 300 := by
  constructor <;> exact ⟨by cases v <;> rfl, by cases v <;> rfl, by cases v <;> rfl, by cases v <;> rfl, by decide, by decide⟩

example : IsText (Dict.get? (sampleBfiq .v05 (py! "-12-gabc")) (py! "borealis_git_hash")) (py! "v0.5-12-gabc") ∧
    HasVersion (py! "v0.5-12-gabc") ∧ Blanked [0, 9, 12] 2400 300 [0, 1, 72, 73, 96, 97] ∧
    ¬ Blanked [0, 9, 12] 2400 300 [0, 1, 72, 73, 96] := by
  refine ⟨rfl, ?_, ?_, ?_⟩
  · unfold HasVersion; decide
  · refine .inr ⟨by simp [Ascending], ?_⟩
    decide
  · rintro (h | ⟨-, h⟩)
    · revert h; decide
    · revert h; decide

example : blankedCheck (sampleBfiq .v05 (py! "-12-gabc")) = .ok () ∧
    blankedCheck ((sampleBfiq .v05 []).set (py! "blanked_samples") (numbers [0, 72, 96])) = .ok () ∧
    blankedCheck ((sampleBfiq .v05 []).set (py! "blanked_samples") (numbers [0, 72, 1, 73, 96, 97])) =
      .error .notConvertible ∧
    blankedCheck ((sampleBfiq .v05 []).set (py! "borealis_git_hash") (.py .str (.str (py! "v1")))) = .error .indexError ∧
    blankedCheck ((sampleBfiq .v05 []).set (py! "tx_pulse_len") (.np .u32 (.int 0))) = .error .overflowError := by
  decide +kernel

example : Checkable (sampleBfiq .v06 []) True ∧ PhasesRec sampleOps (sampleBfiq .v06 []) True ∧
    PhasesRec sampleOps ((sampleBfiq .v06 []).set (py! "pulse_phase_offset") (.arr ⟨.f32, [2], [.flt 0, .flt 5]⟩))
      False := by
  refine ⟨⟨_, _, _, _, _, (sample_blanked .v06 []).1, rfl, by unfold HasVersion; decide, ?_⟩,
    ⟨_, _, rfl, rfl, rfl, ?_⟩, ⟨_, _, rfl, rfl, rfl, ?_⟩⟩
  · exact ⟨fun _ => .inr ⟨by simp [Ascending], by decide⟩, fun _ => trivial⟩
  · simp [sampleOps]
  · simp [sampleOps]

example : checkTarget sampleOps .iqdat [(py! "1", sampleBfiq .v06 []), (py! "2", sampleBfiq .v04 [])] = .ok () ∧
    checkTarget sampleOps .iqdat [(py! "1", sampleBfiq .v06 []), (py! "2", (sampleBfiq .v06 []).set
      (py! "pulse_phase_offset") (.arr ⟨.f32, [2], [.flt 0, .flt 5]⟩))] = .error .notConvertible ∧
    checkTarget sampleOps .iqdat [(py! "2", (sampleBfiq .v06 []).set
      (py! "pulse_phase_offset") (.arr ⟨.f32, [2, 3], List.replicate 6 (.flt 0)⟩))] = .error .valueError := by
  decide +kernel

end Verif.Bor
