import Verif.Borealis.Lemmas.ConvertMessages
import Verif.Borealis.Props.ConvertCheck
/-!
# C76: a refused conversion names the record and the field at fault
-/
namespace Verif.Bor
open Verif

/-- What files of the target are called. -/
def Target.word : Target → PyStr
  | .iqdat => py! "iqdat"
  | .rawacf => py! "rawacf"

/-- What files that are converted to the target are called. -/
def Target.sourceWord : Target → PyStr
  | .iqdat => py! "bfiq"
  | .rawacf => py! "rawacf"

/-- The text of a refusal because of a field of a record. -/
def refusal (t : Target) (name field : PyStr) (why : List PyStr) : PyStr :=
  [py! "The file cannot be converted to SDARN DMap ", t.word, py! " due to the following error: Increased complexity: Borealis ",
    t.sourceWord, py! " file record ", name, py! " ", field, py! " "].flatten ++ why.flatten

/-- What is said of `blanked_samples`. -/
def blankedReason (shown : Val → PyStr) (ps bs : List Nat) (t l : Nat) : List PyStr :=
  [shown (numbers bs), py! " is not correct for pulses array converted to sample number ", shown (numbers ps), py! " * ",
    Nat.toDigits 10 (t / l), py! "."]

/-- A record that the conversion accepts. -/
def Accepted (ops : Ops) (t : Target) (r : Rec) : Prop :=
  Checkable r True ∧ (t = .iqdat → PhasesRec ops r True)

theorem refusal_blanked (shown : Val → PyStr) (tg : Target) (n : PyStr) (ps bs : List Nat) (t l : Nat) :
    convertText tg (blankedText tg n (shown (numbers bs)) (shown (numbers ps)) (t / l)) =
      refusal tg n (py! "blanked_samples") (blankedReason shown ps bs t l) := by
  cases tg <;> simp [convertText, blankedText, refusal, blankedReason, Target.word, Target.sourceWord]

theorem refusal_phases (n s : PyStr) :
    convertText .iqdat (phaseText n s) = refusal .iqdat n (py! "pulse_phase_offset") [s, py! " contains non-zero values."] := by
  simp [convertText, phaseText, refusal, Target.word, Target.sourceWord]

theorem accepted_skip (shown : Val → PyStr) {ops : Ops} {t : Target} {before rs : Records} (h : ∀ p ∈ before, Accepted ops t p.2) :
    checkTargetM shown ops t (before ++ rs) = checkTargetM shown ops t rs := by
  induction before with
  | nil => rfl
  | cons p before ih =>
    obtain ⟨n, r⟩ := p
    have ih := ih fun p hp => h p (List.mem_cons_of_mem _ hp)
    obtain ⟨⟨ps, bs, tt, l, hash, hr, hh, hv, hB⟩, hz⟩ := h (n, r) (by simp)
    have h1 : blankedCheckM shown t n r = .ok () := by
      rw [blankedCheckM_eq shown t n hr hh hv, if_pos ((expected_iff hr.fits).2 (hB.1 trivial))]
    cases t with
    | iqdat =>
      obtain ⟨a, m, ha, hs, hw, hZ⟩ := hz rfl
      have h2 : phaseCheckM shown ops n r = .ok () := by
        rw [phaseCheckM_eq shown n ha hs hw, if_pos (List.all_eq_true.2 (hZ.1 trivial))]
      show (blankedCheckM shown .iqdat n r >>= fun _ => phaseCheckM shown ops n r >>= fun _ => checkIqdatM shown ops (before ++ rs)) = _
      rw [bindS h1, bindS h2]
      exact ih
    | rawacf =>
      show (blankedCheckM shown .rawacf n r >>= fun _ => checkRawacfM shown (before ++ rs)) = _
      rw [bindS h1]
      exact ih

/-- The conversion with texts is the conversion. -/
theorem C76_agrees (shown : Val → PyStr) (cause : PyStr) (cfg : NpCfg) (ops : Ops) (t : Target) (slice : Val) (origin : PyStr)
    (factor : Int) (rs : Records) :
    dropText (convertToDmapM shown cause cfg ops t slice origin factor rs) = convertToDmap cfg ops t slice origin factor rs := by
  unfold convertToDmapM convertToDmap
  have h := checkTargetM_drop shown ops t rs
  cases hc : checkTargetM shown ops t rs with
  | error e => rw [hc] at h; rw [← h]; rfl
  | ok u =>
    rw [hc] at h
    rw [← h]
    dsimp only [dropText]
    cases convertAll cfg ops t slice origin factor rs with
    | error e => rfl
    | ok ds =>
      dsimp only
      cases dict2dmap ds <;> rfl

/-- **C76.** The first record whose blanked samples are not allowed is named, with the samples, the pulses and the number of
samples between them, whatever the records after it hold. -/
theorem C76_blanked (shown : Val → PyStr) (cause : PyStr) (cfg : NpCfg) {ops : Ops} {tg : Target} (slice : Val) (origin : PyStr) (factor : Int)
    {before after : Records} {n : PyStr} {r : Rec} {ps bs : List Nat} {t l : Nat} {h : PyStr} (hb : ∀ p ∈ before, Accepted ops tg p.2)
    (hr : BlankedRec r ps bs t l) (hh : IsText (Dict.get? r (py! "borealis_git_hash")) h) (hv : HasVersion h)
    (hn : ¬ Blanked ps t l bs) :
    convertToDmapM shown cause cfg ops tg slice origin factor (before ++ (n, r) :: after) =
      .error ⟨.notConvertible, some (refusal tg n (py! "blanked_samples") (blankedReason shown ps bs t l))⟩ := by
  have h1 : blankedCheckM shown tg n r =
      .error ⟨.notConvertible, some (refusal tg n (py! "blanked_samples") (blankedReason shown ps bs t l))⟩ := by
    rw [blankedCheckM_eq shown tg n hr hh hv, if_neg (fun he => hn ((expected_iff hr.fits).1 he)), refusal_blanked]
  unfold convertToDmapM
  rw [accepted_skip shown hb]
  cases tg with
  | iqdat =>
    show (match (blankedCheckM shown .iqdat n r >>= fun _ => phaseCheckM shown ops n r >>= fun _ => checkIqdatM shown ops after) with
      | .error e => _ | .ok () => _) = _
    rw [h1]
    rfl
  | rawacf =>
    show (match (blankedCheckM shown .rawacf n r >>= fun _ => checkRawacfM shown after) with
      | .error e => _ | .ok () => _) = _
    rw [h1]
    rfl

/-- **C76.** The first record with a phase offset that is not zero is named, with the offsets. -/
theorem C76_phases (shown : Val → PyStr) (cause : PyStr) (cfg : NpCfg) {ops : Ops} (slice : Val) (origin : PyStr) (factor : Int)
    {before after : Records} {n : PyStr} {r : Rec} {a : NdArr} {m : Nat} (hb : ∀ p ∈ before, Accepted ops .iqdat p.2)
    (hr : Checkable r True) (ha : Dict.get? r (py! "pulse_phase_offset") = some (.arr a)) (hs : a.shape = [m]) (hw : a.WF)
    (hz : ∃ e ∈ a.data, ops.isZero e ≠ true) :
    convertToDmapM shown cause cfg ops .iqdat slice origin factor (before ++ (n, r) :: after) =
      .error ⟨.notConvertible, some (refusal .iqdat n (py! "pulse_phase_offset") [shown (.arr a), py! " contains non-zero values."])⟩ := by
  obtain ⟨ps, bs, t, l, h, hr, hh, hv, hB⟩ := hr
  have h1 : blankedCheckM shown .iqdat n r = .ok () := by
    rw [blankedCheckM_eq shown .iqdat n hr hh hv, if_pos ((expected_iff hr.fits).2 (hB.1 trivial))]
  have h2 : phaseCheckM shown ops n r =
      .error ⟨.notConvertible, some (refusal .iqdat n (py! "pulse_phase_offset") [shown (.arr a), py! " contains non-zero values."])⟩ := by
    rw [phaseCheckM_eq shown n ha hs hw, if_neg, refusal_phases]
    obtain ⟨e, he, hne⟩ := hz
    exact fun h => hne (List.all_eq_true.1 h e he)
  unfold convertToDmapM
  rw [accepted_skip shown hb]
  show (match (blankedCheckM shown .iqdat n r >>= fun _ => phaseCheckM shown ops n r >>= fun _ => checkIqdatM shown ops after) with
    | .error e => _ | .ok () => _) = _
  rw [bindS h1, h2]
  rfl

/-- **C76.** The target, the record and the field can be read from the text; names of records have no spaces. -/
theorem C76_told {t t' : Target} {n n' f f' : PyStr} {w w' : List PyStr} (hn : ' ' ∉ n) (hn' : ' ' ∉ n') (hf : ' ' ∉ f) (hf' : ' ' ∉ f')
    (h : refusal t n f w = refusal t' n' f' w') : t = t' ∧ n = n' ∧ f = f' ∧ w.flatten = w'.flatten := by
  have ht : t = t' := by
    cases t <;> cases t' <;> first | rfl | (simp [refusal, Target.word, Target.sourceWord] at h)
  subst ht
  unfold refusal at h
  simp only [List.flatten_cons, List.flatten_nil, List.append_nil, List.append_assoc, List.append_cancel_left_eq] at h
  obtain ⟨rfl, h1⟩ := word_end hn hn' h
  obtain ⟨rfl, h2⟩ := word_end hf hf' h1
  exact ⟨rfl, rfl, rfl, h2⟩

/-- **C76** is violated by what goes wrong in the conversion itself: no record is named, only the cause is passed on. -/
theorem C76_violation_cause (shown : Val → PyStr) (cause : PyStr) (cfg : NpCfg) {ops : Ops} {t : Target} {slice : Val} {origin : PyStr}
    {factor : Int} {rs : Records} (hc : checkTarget ops t rs = .ok ())
    (h : ∀ l, convertToDmap cfg ops t slice origin factor rs ≠ .ok l) :
    convertToDmapM shown cause cfg ops t slice origin factor rs = .error ⟨.notConvertible, some
      ([py! "The file cannot be converted to SDARN DMap ", t.word, py! " due to the following error: ", cause].flatten)⟩ := by
  have hM : checkTargetM shown ops t rs = .ok () := ok_of_drop (by rw [checkTargetM_drop, hc])
  have ht : convertText t cause = [py! "The file cannot be converted to SDARN DMap ", t.word, py! " due to the following error: ", cause].flatten := by
    cases t <;> simp [convertText, Target.word]
  rw [← ht]
  unfold convertToDmap at h
  rw [hc] at h
  dsimp only at h
  unfold convertToDmapM
  rw [hM]
  dsimp only
  cases hA : convertAll cfg ops t slice origin factor rs with
  | error e => rfl
  | ok ds =>
    rw [hA] at h
    dsimp only at h ⊢
    cases hD : dict2dmap ds with
    | error e => rfl
    | ok recs =>
      rw [hD] at h
      exact absurd rfl (h recs)

/-- **C76** is violated by the name of the file, which no refusal tells: files with the same records are refused in the same words. -/
theorem C76_violation_file (shown : Val → PyStr) (cause : PyStr) (cfg : NpCfg) {ops : Ops} {t : Target} {slice slice' : Val} {origin origin' : PyStr}
    {factor factor' : Int} {rs : Records} {e : Err} (hc : checkTarget ops t rs = .error e) :
    convertToDmapM shown cause cfg ops t slice origin factor rs = convertToDmapM shown cause cfg ops t slice' origin' factor' rs := by
  have h := checkTargetM_drop shown ops t rs
  unfold convertToDmapM
  cases hM : checkTargetM shown ops t rs with
  | error e => rfl
  | ok u => rw [hM, hc] at h; cases h

/-- Shows one-dimensional arrays of integers as NumPy does short ones. -/
def sampleShown : Val → PyStr
  | .arr a => py! "[" ++ ((a.data.map fun | .int n => decText n | _ => py! "0.").intersperse (py! " ")).flatten ++ py! "]"
  | _ => []

theorem sample_accepted : Accepted sampleOps .iqdat (sampleBfiq .v06 []) :=
  ⟨⟨_, _, _, _, _, (sample_blanked .v06 []).1, rfl, by unfold HasVersion; decide, fun _ => .inr ⟨by simp [Ascending], by decide⟩, fun _ => trivial⟩,
    fun _ => ⟨_, _, rfl, rfl, rfl, by simp [sampleOps]⟩⟩

example : BlankedRec ((sampleBfiq .v06 []).set (py! "blanked_samples") (numbers [0, 72])) [0, 9, 12] [0, 72] 2400 300 ∧
    ¬ Blanked [0, 9, 12] 2400 300 [0, 72] := by
  refine ⟨⟨rfl, rfl, rfl, rfl, by decide, by decide⟩, ?_⟩
  rintro (h | ⟨-, h⟩)
  · revert h; decide
  · revert h; decide

example : convertToDmapM sampleShown [] numpy2 sampleOps .iqdat (.np .u32 (.int 0)) (py! "20200101.sas.h5") 1
    [(py! "1577836800000", sampleBfiq .v06 []), (py! "1577836803000", (sampleBfiq .v06 []).set (py! "blanked_samples") (numbers [0, 72])),
      (py! "1577836806000", [])] =
    .error ⟨.notConvertible, some (py! "The file cannot be converted to SDARN DMap iqdat due to the following error: Increased complexity: Borealis bfiq file record 1577836803000 blanked_samples [0 72] is not correct for pulses array converted to sample number [0 9 12] * 8.")⟩ := by
  decide +kernel

example : convertToDmapM sampleShown [] numpy2 sampleOps .iqdat (.np .u32 (.int 0)) (py! "20200101.sas.h5") 1
    [(py! "1577836800000", sampleBfiq .v06 []), (py! "1577836803000", (sampleBfiq .v06 []).set (py! "pulse_phase_offset")
      (.arr ⟨.u32, [2], [.int 0, .int 5]⟩))] =
    .error ⟨.notConvertible, some (py! "The file cannot be converted to SDARN DMap iqdat due to the following error: Increased complexity: Borealis bfiq file record 1577836803000 pulse_phase_offset [0 5] contains non-zero values.")⟩ := by
  decide +kernel

/-- A record of a station that is not known passes the check and is not converted: `KeyError` of `code_to_stid`. -/
example : let rs := [(py! "1577836800000", (sampleRawacf .v06 []).set (py! "station") (.py .str (.str (py! "xyz"))))]
    checkTarget sampleOps .rawacf rs = .ok () ∧
    convertToDmapM sampleShown (py! "'xyz'") numpy2 sampleOps .rawacf (.np .u32 (.int 0)) (py! "20200101.sas.h5") 1 rs =
      .error ⟨.notConvertible, some (py! "The file cannot be converted to SDARN DMap rawacf due to the following error: 'xyz'")⟩ := by
  decide +kernel

end Verif.Bor
