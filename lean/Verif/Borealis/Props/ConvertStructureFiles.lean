import Verif.Borealis.Props.ConvertStructure
import Verif.Borealis.Props.ConvertCheck
import Verif.Borealis.Props.Dispatch
import Verif.Borealis.Props.FileRoundTrip
/-!
# C66: conversion of restructured files
-/
namespace Verif.Bor
open Verif

theorem rawacf_no_ppo (v : Version) : ¬ Listed (formatOf v .rawacf).siteSingleTypes ppoName ∧
    ¬ Listed (formatOf v .rawacf).siteArrayTypes ppoName := by
  have h : ppoName ∉ (formatOf v .rawacf).siteSingleTypes.keys ∧ ppoName ∉ (formatOf v .rawacf).siteArrayTypes.keys := by
    cases v <;> decide +kernel
  exact ⟨fun e => h.1 (listed_iff.1 e), fun e => h.2 (listed_iff.1 e)⟩

/-- **C66** For files: the records of a slice are written to a site file, which `BorealisRestructure` turns into an array
file.  Readers that are not told the structure find it.  The two files are converted in the same way, except for the
name of the file in `combf`: to the same DMAP records, or with the same exception.

Partial: for the records of C38; bfiq with one phase offset for each pulse only, see `C66_files_violation`. -/
theorem C66_files_partial (cfg : NpCfg) (ops : Ops) (h : H5Cfg) (hfit : h.Fits) (tkey : Elt → Except Err PyStr) (fs : FSys)
    (a b : PyStr) (comp comp' : Option PyStr) (hcomp : FilterOK h comp) (hcomp' : FilterOK h comp') (v : Version) (ft : FType)
    (t : Target) (ht : allowedConversion ft = some t) (hno : ¬ (v = .v07 ∧ ft = .bfiq)) (o : Ppo) (c : Common) (rs : Records)
    (hs : SliceRecords tkey v ft o c rs) (hppo : ft = .bfiq → ∀ p ∈ rs, PpoLikePulses p.2)
    (ha : fs.at a = none) (hb : fs.at b = none) (hab : fs.node a ≠ fs.node b) :
    ∃ fs1 fs2 first last recs recs', siteWrite h fs a (.records rs) ft.name comp = (.ok (), fs1) ∧
      borealisRestructure h tkey fs1 a b ft.name (py! "array") comp' = (.ok (), fs2) ∧
      borealisRead fs2 a ft.name none = .ok (.site first) ∧ borealisRead fs2 b ft.name none = .ok (.array last) ∧
      (∀ inp slice factor, convertHandler cfg ops tkey t inp slice factor (.array last) =
        convertHandler cfg ops tkey t inp slice factor (.site first)) ∧
      (Handler.site first).records tkey = .ok recs ∧ (Handler.array last).records tkey = .ok recs' ∧
      ∀ sl factor, RelOr (AllPairs (SameBut (py! "combf"))) (convertAll cfg ops t sl a factor recs)
        (convertAll cfg ops t sl b factor recs') := by
  have htr : ft ≠ .rawrf := by rintro rfl; cases ht
  obtain ⟨F, G, rs1, s, A2, rd, out, hw1, hbr2, hp, hh, hv, hs1, hkF, hk1, hsame1, hpA, hrd, hrv, hrc, hrecs, hok, hR, hts, hcut⟩ :=
    slice_files h hfit tkey fs a b comp comp' hcomp hcomp' v ft htr hno o c rs hs ha hb hab
  have hF1 : ((fs.put a (.h5 F)).put b (.h5 G)).at a = some (.h5 F) := by
    rw [at_put_ne _ (show (fs.put a (.h5 F)).node a ≠ (fs.put a (.h5 F)).node b from hab)]
    exact at_put ..
  have hlike : ∀ n r, (n, r) ∈ rs1 → PpoLikePulses r := by
    intro n r hm
    cases ft with
    | bfiq =>
      obtain ⟨r0, h1, h2⟩ := hsame1 n r hm
      exact ppoLikePulses_same h2 (hppo rfl _ (Dict.mem_of_get? h1))
    | rawacf =>
      intro w hw
      exact absurd ⟨⟨w, hw⟩, not_or.2 (rawacf_no_ppo v)⟩ ((hs1.types _ hm).known ppoName)
    | rawrf => cases ht
    | antennasIq => cases ht
  have hfirst : siteRead ((fs.put a (.h5 F)).put b (.h5 G)) a ft.name = .ok ⟨ft, v, sortStrs F.keys, rs1⟩ :=
    siteRead_of htr hF1 hh hv hp.read (ppoSiteFix_id hlike) (checkRecords_ok_iff.2 fun n r hm =>
      (checkRecord_ok_iff (C34_site_tables v ft htr) r).2 (conforms_numpy (hs1.types _ hm)))
  have hrft : rd.ftype = ft := (arrayRead_ok hrd).choose_spec.choose_spec.choose_spec.2.1.symm
  have hsv : AllRec SameValues out rs1 := hR.imp fun _ _ _ _ e k _ => sameFields_get e k
  have hrecs' : (Handler.array rd).records tkey = .ok out := by
    show recordsOf tkey (formatOf rd.version rd.ftype) rd.content = .ok out
    rw [hrv, hrft, hrc]
    exact hrecs
  refine ⟨_, _, ⟨ft, v, sortStrs F.keys, rs1⟩, rd, rs1, out, hw1, hbr2, ?_, ?_, ?_, rfl, hrecs', ?_⟩
  · unfold borealisRead
    rw [parseFType_iff.2 rfl]
    simp only
    refine (C48_accepts_partial _ a ft.name (.inl fun f hf => ?_) _).2 (.inr ⟨_, rfl, hfirst⟩)
    rw [hF1] at hf
    cases hf
    intro hm
    exact absurd (hp.root _ hm) (by decide +kernel)
  · unfold borealisRead
    rw [parseFType_iff.2 rfl]
    simp only
    exact (C48_reader _ b ft.name).1 rd hrd
  · intro inp slice factor
    exact C66_values cfg ops tkey t inp slice factor hrecs' rfl hsv
  · intro sl factor
    rw [convertAll_same hsv]
    exact C66_name ..

/-! ## Phase offsets for each sequence -/

theorem borealisRead_congr {fs fs' : FSys} {p : PyStr} (h : fs.at p = fs'.at p) (ft : PyStr) (st : Option PyStr) :
    borealisRead fs p ft st = borealisRead fs' p ft st := by
  have ho : fs.openR p = fs'.openR p := by
    unfold FSys.openR
    rw [h]
  have h1 : ∀ ft, siteRead fs p ft = siteRead fs' p ft := by
    intro ft
    unfold siteRead
    rw [ho]
  have h2 : ∀ ft, arrayRead fs p ft = arrayRead fs' p ft := by
    intro ft
    unfold arrayRead
    rw [ho]
  unfold borealisRead returnReader
  simp only [h1, h2]

/-- Records with phase offsets for each sequence and pulse are not converted to iqdat. -/
theorem phases_refused {cfg : NpCfg} {ops : Ops} {sl : Val} {inp : PyStr} {factor : Int} {rs : Records} {p : PyStr × Rec}
    (hp : p ∈ rs) {a : NdArr} {n m : Nat} (ha : Dict.get? p.2 (py! "pulse_phase_offset") = some (.arr a))
    (hs : a.shape = [n + 1, m]) (hm : m ≠ 1) (l : List Verif.Rec) : convertToDmap cfg ops .iqdat sl inp factor rs ≠ .ok l := by
  have hc : ∀ rs : Records, p ∈ rs → checkIqdat ops rs ≠ .ok () := by
    intro rs
    induction rs with
    | nil => exact nofun
    | cons q rs ih =>
      intro hq e
      obtain ⟨_, -, e⟩ := bind_ok e
      obtain ⟨⟨⟩, e1, e⟩ := bind_ok e
      rcases List.mem_cons.1 hq with rfl | hq
      · rw [C46_violation_phases ha hs hm] at e1
        cases e1
      · exact ih hq e
  intro e
  unfold convertToDmap at e
  cases hx : checkTarget ops .iqdat rs with
  | error _ => rw [hx] at e; cases e
  | ok _ => exact hc rs hp hx

/-- Two bfiq records of v0.6 with phase offsets for each of 2 and 3 sequences and each of 2 pulses. -/
def convertibleBfiq : Records :=
  (typedRecords .v06 .bfiq .perSeq 2 1).map fun p => (p.1, update p.2
    [(py! "tau_spacing", .np .u32 (.int 5)), (py! "blanked_samples", vec .u32 [.int 5, .int 6, .int 10, .int 11]),
     (py! "station", .py .str (.str (py! "sas"))),
     (py! "antenna_arrays_order", .arr ⟨.npStr, [2], [.str (py! "main"), .str (py! "intf")]⟩)])

theorem convertibleBfiq_ok : SliceRecords sampleKey .v06 .bfiq .perSeq sampleCommon convertibleBfiq :=
  sliceRecordsB_sound (by decide +kernel)

theorem convertibleBfiq_offsets : ∀ p ∈ convertibleBfiq,
    ∃ a n m, Dict.get? p.2 ppoName = some (.arr a) ∧ a.shape = [n + 1, m] ∧ m ≠ 1 := by
  have h : (convertibleBfiq.all fun p => match Dict.get? p.2 ppoName with
    | some (.arr a) => decide (2 ≤ a.shape.length ∧ a.shape = [(a.shape.headD 0 - 1) + 1, 2])
    | _ => false) = true := by decide +kernel
  intro p hp
  have h := List.all_eq_true.1 h p hp
  split at h
  · rename_i a e
    exact ⟨a, _, 2, e, (of_decide_eq_true h).2, by decide⟩
  · cases h

/-- The site file of these records is converted to three DMAP records. -/
theorem convertibleBfiq_site : ∃ x l, borealisRead
      (siteWrite sampleH5 noFiles (py! "a") (.records convertibleBfiq) FType.bfiq.name none).2 (py! "a") FType.bfiq.name none = .ok x ∧
    convertHandler numpy2 sampleOps sampleKey .iqdat (py! "a") none 1 x = .ok l ∧ l.length = 3 := by
  have h : okAnd (borealisRead (siteWrite sampleH5 noFiles (py! "a") (.records convertibleBfiq) FType.bfiq.name none).2 (py! "a")
      FType.bfiq.name none) (fun x => okAnd (convertHandler numpy2 sampleOps sampleKey .iqdat (py! "a") none 1 x)
        fun l => l.length == 3) = true := by decide +kernel
  revert h
  cases borealisRead (siteWrite sampleH5 noFiles (py! "a") (.records convertibleBfiq) FType.bfiq.name none).2 (py! "a")
      FType.bfiq.name none with
  | error e => exact nofun
  | ok x =>
    intro h
    simp only [okAnd] at h
    cases hx : convertHandler numpy2 sampleOps sampleKey .iqdat (py! "a") none 1 x with
    | error e => rw [hx] at h; cases h
    | ok l => exact ⟨x, l, rfl, hx, by rw [hx] at h; simpa [okAnd] using h⟩

/-- **C66** is violated by bfiq files of v0.6 with phase offsets for each sequence and pulse.  The reader of site files replaces
the offsets by zeros and the site file is converted, without the offsets.  The array file restructured from it keeps them and
is never converted. -/
theorem C66_files_violation : ∃ rs fs1 fs2 first last l,
    SliceRecords sampleKey .v06 .bfiq .perSeq sampleCommon rs ∧
    siteWrite sampleH5 noFiles (py! "a") (.records rs) (py! "bfiq") none = (.ok (), fs1) ∧
    borealisRestructure sampleH5 sampleKey fs1 (py! "a") (py! "b") (py! "bfiq") (py! "array") none = (.ok (), fs2) ∧
    borealisRead fs2 (py! "a") (py! "bfiq") none = .ok first ∧ borealisRead fs2 (py! "b") (py! "bfiq") none = .ok last ∧
    convertHandler numpy2 sampleOps sampleKey .iqdat (py! "a") none 1 first = .ok l ∧ l.length = 3 ∧
    ∀ cfg ops inp slice factor l, convertHandler cfg ops sampleKey .iqdat inp slice factor last ≠ .ok l := by
  have hs := convertibleBfiq_ok
  obtain ⟨F, G, rs1, s, A2, rd, out, hw1, hbr2, hp, hh, hv, hs1, hkF, hk1, hsame1, hpA, hrd, hrv, hrc, hrecs, hok, hR, hts, hcut⟩ :=
    slice_files sampleH5 sampleH5_fits sampleKey noFiles (py! "a") (py! "b") none none nofun nofun .v06 .bfiq (by decide) (by decide)
      .perSeq sampleCommon convertibleBfiq hs rfl rfl (by decide)
  obtain ⟨x, l, hx, hl, hlen⟩ := convertibleBfiq_site
  refine ⟨convertibleBfiq, _, _, x, .array rd, l, hs, hw1, hbr2, ?_, ?_, hl, hlen, ?_⟩
  · rw [hw1] at hx
    rw [← hx]
    exact borealisRead_congr (at_put_ne _ (show (noFiles.put (py! "a") (.h5 F)).node (py! "a") ≠ _ from by
      show noFiles.node (py! "a") ≠ noFiles.node (py! "b")
      decide)) ..
  · show borealisRead _ _ FType.bfiq.name none = _
    unfold borealisRead
    rw [parseFType_iff.2 rfl]
    simp only
    exact (C48_reader _ _ FType.bfiq.name).1 rd hrd
  · intro cfg ops inp slice factor l' e
    have hrft : rd.ftype = .bfiq := (arrayRead_ok hrd).choose_spec.choose_spec.choose_spec.2.1.symm
    have hrecs' : (Handler.array rd).records sampleKey = .ok out := by
      show recordsOf sampleKey (formatOf rd.version rd.ftype) rd.content = .ok out
      rw [hrv, hrft, hrc]
      exact hrecs
    unfold convertHandler at e
    rw [bind_of_ok hrecs'] at e
    obtain ⟨sl, -, e⟩ := bind_ok e
    cases hR with
    | nil => exact absurd hk1.symm (by decide +kernel)
    | @cons n r r' rs rs' hr _ =>
      obtain ⟨r0, h1, h2⟩ := hsame1 n r' (List.mem_cons_self ..)
      obtain ⟨a, k, m, ha, hsh, hm⟩ := convertibleBfiq_offsets _ (Dict.mem_of_get? h1)
      refine phases_refused (List.mem_cons_self ..) (a := a) ?_ hsh hm _ e
      exact (sameFields_get hr ppoName).trans ((sameFields_get h2 ppoName).symm.trans ha)

/-! ## Samples -/

/-- Two rawacf records in a site file, and in an array file. -/
example : SliceRecords sampleKey .v06 .rawacf .none sampleCommon convertibleSlice ∧ sampleH5.Fits ∧
    noFiles.at (py! "a") = none ∧ noFiles.at (py! "b") = none ∧ noFiles.node (py! "a") ≠ noFiles.node (py! "b") :=
  ⟨convertibleSlice_ok, sampleH5_fits, rfl, rfl, by decide⟩

end Verif.Bor
