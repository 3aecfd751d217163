import Verif.Borealis.Lemmas.ConvertEncode
import Verif.Borealis.Lemmas.ConvertQuiet
/-!
# C54: converted files
-/
namespace Verif.Bor
open Verif Verif.Spec

theorem dict2dmap_same {ds : List PlainRec} {recs : List Verif.Rec} {mr : Nat} (hd : dict2dmap ds = .ok recs)
    (h : ∀ d ∈ ds, ∃ r, plainToRec d = .ok r ∧ Encodable mr r ∧ SameRecord d (plainRec r)) :
    (∀ r ∈ recs, Encodable mr r) ∧ Pairs SameRecord ds (recs.map plainRec) := by
  induction ds generalizing recs with
  | nil => cases hd; exact ⟨by simp, .nil⟩
  | cons d ds ih =>
    rw [dict2dmap] at hd
    obtain ⟨r, h1, hd⟩ := bind_ok hd
    obtain ⟨rs, h2, hd⟩ := bind_ok hd
    cases hd
    obtain ⟨r', h3, h4, h5⟩ := h d List.mem_cons_self
    rw [h1] at h3
    cases h3
    obtain ⟨h6, h7⟩ := ih h2 fun d hd => h d (List.mem_cons_of_mem _ hd)
    refine ⟨?_, .cons h5 h7⟩
    intro x hx
    rcases List.mem_cons.1 hx with rfl | hx
    · exact h4
    · exact h6 x hx

/-- **C54.** The records that the conversion of a Borealis file yields are written without an exception, and
reading the file gives the converted records: as many, with the same fields in the same order, of the same
values.  Rounding to single precision gives no signalling NaN, which writing would turn into a quiet one
(`C54_quiet`). -/
theorem C54_roundtrip (cfg : NpCfg) (hcfg : 3 ≤ cfg.maxDims) {ops : Ops} {t : Target} {slice : Val} {origin : PyStr}
    {factor : Int} {rs : Records} {ds : List PlainRec} (hp : PlainDates ops) (hq : QuietOps ops) (hw : ∀ p ∈ rs, WFRec p.2)
    (hr : ∀ p ∈ rs, Writable ⟨slice, p.1, p.2, origin, factor⟩) (hn : ∀ p ∈ rs, NotEmpty t p.2)
    (hc : checkTarget ops t rs = .ok ()) (h : convertAll cfg ops t slice origin factor rs = .ok ds) (hne : ds ≠ [])
    (hb : ∀ d ∈ ds, recordBytes d < 2 ^ 31) (fs : FileSys) {fn : PyStr} (hfn : fn ≠ []) :
    ∃ recs w w' fs' bs out, convertToDmap cfg ops t slice origin factor rs = .ok recs ∧
      SD.darnWriter (dmapInput recs) fn = .ok w ∧ SD.darnWrite t.fileType w fs fn = (.ok (), w', fs') ∧
      fs' fn = some bs ∧ (∀ n, n ≠ fn → fs' n = fs n) ∧ SD.readDarn cfg t.fileType bs = .ok out ∧
      Pairs SameRecord ds out := by
  obtain ⟨recs, h1, h2, h3⟩ := C45_file hw hc h
  obtain ⟨h4, h5⟩ := dict2dmap_same (mr := cfg.maxDims) h2 fun d hd => by
    obtain ⟨n, r, l, e1, e2, e3⟩ := convertAll_mem h d hd
    exact converted_encodable hcfg (hw _ e1) (hr _ e1) (hn _ e1) hp e2 e3 (converted_quiet hq e2 e3) (hb d hd)
  have hne' : recs ≠ [] := by
    rintro rfl
    cases ds with
    | nil => exact hne rfl
    | cons d ds => cases h5
  obtain ⟨w, w', fs', bs, e1, e2, e3, e4, e5⟩ := SD.C27_roundtrip cfg t.fileType hne' h4 h3 fs (fn0 := fn) (fn := fn)
    (fn1 := fn) (by simp [hfn]) hfn
  exact ⟨recs, w, w', fs', bs, _, h1, e1, e2, e3, e4, e5, h5⟩

/-! ## Samples -/

theorem sample_writable (r : Rec) (n : PyStr) (hn : PlainText n)
    (ht : ∃ v t, IsText (Dict.get? r (py! "borealis_git_hash")) (Version.name v ++ t) ∧ VersionTail t)
    (hx : ∀ k ∈ [py! "borealis_git_hash", py! "experiment_name", py! "experiment_comment", py! "slice_comment"],
      ∃ t, IsText (Dict.get? r k) t ∧ PlainText t)
    (hp : Dict.get? r (py! "pulses") = some (numbers [0, 9, 12]))
    (hl : ∃ a, Dict.get? r (py! "lags") = some (.arr a) ∧ a.shape = [3, 2]) :
    Writable ⟨.np .u32 (.int 0), n, r, py! "20200101.sas.h5", 1⟩ where
  tag := ht
  texts := hx
  origin := by show PlainText (py! "20200101.sas.h5"); unfold PlainText; decide
  name := hn
  pulses := ⟨3, ⟨_, hp, rfl⟩, by decide⟩
  lags := by obtain ⟨a, h1, h2⟩ := hl; exact ⟨a, 3, 2, h1, h2, by decide, by decide⟩

theorem sample_dates : PlainDates sampleOps := by
  intro e x h
  cases h
  unfold PlainText
  decide

theorem sample_quiet : QuietOps sampleOps := by
  intro e
  cases e with
  | flt n => exact quiet32_not _
  | _ => exact (by decide : ¬ IsSNaN 0)

/-- A record of each kind. -/
def sampleOf : Target → Version → Rec
  | .iqdat, v => sampleBfiq v []
  | .rawacf, v => sampleRawacf v []

/-- Two records of each kind are converted, written and read. -/
example (t : Target) (fs : FileSys) : ∃ recs w w' fs' bs out, ∃ ds : List PlainRec,
    convertToDmap numpy2 sampleOps t (.np .u32 (.int 0)) (py! "20200101.sas.h5") 1
      [(py! "1", sampleOf t .v06), (py! "2", sampleOf t .v05)] = .ok recs ∧
    SD.darnWriter (dmapInput recs) (py! "f") = .ok w ∧ SD.darnWrite t.fileType w fs (py! "f") = (.ok (), w', fs') ∧
    fs' (py! "f") = some bs ∧ SD.readDarn numpy2 t.fileType bs = .ok out ∧ ds.length = 4 ∧ Pairs SameRecord ds out := by
  have hd : ((convertAll numpy2 sampleOps t (.np .u32 (.int 0)) (py! "20200101.sas.h5") 1
      [(py! "1", sampleOf t .v06), (py! "2", sampleOf t .v05)]).map fun ds =>
        decide (ds.length = 4) && ds.all fun d => decide (recordBytes d < 2 ^ 31)) = .ok true := by
    cases t <;> decide +kernel
  cases h : convertAll numpy2 sampleOps t (.np .u32 (.int 0)) (py! "20200101.sas.h5") 1
      [(py! "1", sampleOf t .v06), (py! "2", sampleOf t .v05)] with
  | error e => rw [h] at hd; cases hd
  | ok ds =>
    rw [h] at hd
    simp only [Except.map, Except.ok.injEq, Bool.and_eq_true, decide_eq_true_eq, List.all_eq_true] at hd
    obtain ⟨hl, hb⟩ := hd
    obtain ⟨recs, w, w', fs', bs, out, h1, h2, h3, h4, -, h5, h6⟩ := C54_roundtrip numpy2 (by decide) (t := t) sample_dates sample_quiet
      (by
        intro p hp
        simp only [List.mem_cons, List.not_mem_nil, or_false] at hp
        rcases hp with rfl | rfl <;> cases t <;> exact wfRec_of (by rfl))
      (by
        intro p hp
        simp only [List.mem_cons, List.not_mem_nil, or_false] at hp
        rcases hp with rfl | rfl
        · refine sample_writable _ _ (by show PlainText (py! "1"); unfold PlainText; decide) ⟨.v06, [], by cases t <;> rfl, .inl rfl⟩ ?_
            (by cases t <;> rfl) ⟨_, by cases t <;> rfl, rfl⟩
          intro k hk
          simp only [List.mem_cons, List.not_mem_nil, or_false] at hk
          rcases hk with rfl | rfl | rfl | rfl <;>
            exact ⟨_, by cases t <;> rfl, by unfold PlainText; decide⟩
        · refine sample_writable _ _ (by show PlainText (py! "2"); unfold PlainText; decide) ⟨.v05, [], by cases t <;> rfl, .inl rfl⟩ ?_
            (by cases t <;> rfl) ⟨_, by cases t <;> rfl, rfl⟩
          intro k hk
          simp only [List.mem_cons, List.not_mem_nil, or_false] at hk
          rcases hk with rfl | rfl | rfl | rfl <;>
            exact ⟨_, by cases t <;> rfl, by unfold PlainText; decide⟩)
      (by
        intro p hp
        simp only [List.mem_cons, List.not_mem_nil, or_false] at hp
        rcases hp with rfl | rfl <;> cases t
        · exact ⟨_, _, _, _, _, _, sampleBfiq_rec .v06 [], by decide, by decide, by decide⟩
        · exact ⟨_, _, _, _, _, _, sampleRawacf_rec .v06 [], by decide, by decide⟩
        · exact ⟨_, _, _, _, _, _, sampleBfiq_rec .v05 [], by decide, by decide, by decide⟩
        · exact ⟨_, _, _, _, _, _, sampleRawacf_rec .v05 [], by decide, by decide⟩)
      (by cases t <;> decide +kernel) h (by rintro rfl; cases hl) hb fs (fn := py! "f") (by decide)
    exact ⟨recs, w, w', fs', bs, out, ds, h1, h2, h3, h4, h5, hl, h6⟩

end Verif.Bor
