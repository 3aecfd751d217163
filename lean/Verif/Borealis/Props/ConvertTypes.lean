import Verif.Borealis.Lemmas.ConvertSamples
/-!
# C44, C45: fields and types of converted records
-/
namespace Verif.Bor
open Verif

/-! ## C45 -/

/-- **C45.** A converted record becomes a DMAP record that conforms to the SuperDARN format, so that the
field checks of `write_iqdat` and `write_rawacf` accept it: no field is missing, unknown or of a wrong type. -/
theorem C45_conforms {cfg : NpCfg} {ops : Ops} {t : Target} {s : Source} {ds : List PlainRec} (hw : WFRec s.fields)
    (h : convertRecord cfg ops t s = .ok ds) :
    ∀ d ∈ ds, ∃ r, plainToRec d = .ok r ∧ SD.Conforms t.fileType r := by
  intro d hd
  obtain ⟨h1, -⟩ := convertRecord_fits hw h hd
  obtain ⟨r, h2, h3⟩ := plainToRec_ok h1
  exact ⟨r, h2, target_conforms t h3⟩

/-- **C45.** When all records are convertible and converted, the conversion of the file succeeds, and all its
DMAP records conform. -/
theorem C45_file {cfg : NpCfg} {ops : Ops} {t : Target} {slice : Val} {origin : PyStr} {factor : Int} {rs : Records}
    {ds : List PlainRec} (hw : ∀ p ∈ rs, WFRec p.2) (hc : checkTarget ops t rs = .ok ())
    (h : convertAll cfg ops t slice origin factor rs = .ok ds) :
    ∃ recs, convertToDmap cfg ops t slice origin factor rs = .ok recs ∧ dict2dmap ds = .ok recs ∧
      ∀ r ∈ recs, SD.Conforms t.fileType r := by
  have key : ∀ d ∈ ds, d.map (fun p => (p.1, fmtOf p.2)) = (targetTable t).map (fun p => (p.1, some p.2)) := by
    intro d hd
    obtain ⟨n, r, l, h1, h2, h3⟩ := convertAll_mem h d hd
    exact (convertRecord_fits (hw _ h1) h2 h3).1
  obtain ⟨recs, h1⟩ := dict2dmap_ok fun d hd => by
    obtain ⟨r, h2, -⟩ := plainToRec_ok (key d hd)
    exact ⟨r, h2⟩
  refine ⟨recs, ?_, h1, fun r hr => ?_⟩
  · unfold convertToDmap
    simp only [hc, h, h1]
  · obtain ⟨d, hd, h2⟩ := dict2dmap_mem h1 r hr
    exact plain_conforms (key d hd) h2

/-- **C45.** A bfiq record that passes the Borealis field checks, has data of its dimensions and whatever else
`Convertible` says is converted, in every version of the format. -/
theorem C45_bfiq (cfg : NpCfg) {ops : Ops} {s : Source} {a : NdArr} {norm : Val} {beams : List Elt} {na nq ns : Nat}
    {v : Version}
    (hc : ConformsRecord (formatOf v .bfiq).siteSingleTypes (formatOf v .bfiq).siteArrayTypes s.fields)
    (hr : RealRec s.fields) (hk : Convertible ops s.slice s.fields beams.length)
    (hb : BfiqRec s.fields a norm beams na nq ns) (hna : na < 2 ^ 31) :
    ∃ ds, convertBfiq cfg ops s = .ok ds ∧ ds.length = beams.length := by
  obtain ⟨ds, h⟩ := convertBfiq_succeeds (cfg := cfg) hc hr hk hb hna
  obtain ⟨rev, o, -, -, -, h'⟩ := convertBfiq_ok hb h
  exact ⟨ds, h, by rw [mapE_length h', enumFrom_length]⟩

/-- **C45.** A rawacf record that passes the Borealis field checks, has correlations of its dimensions, at least
one lag and at most 16 antennas, and whatever else `Convertible` says is converted, in every version of the format. -/
theorem C45_rawacf (cfg : NpCfg) {ops : Ops} {s : Source} {m x : NdArr} {norm : Val} {beams : List Elt} {nr nl : Nat}
    {v : Version}
    (hc : ConformsRecord (formatOf v .rawacf).siteSingleTypes (formatOf v .rawacf).siteArrayTypes s.fields)
    (hr : RealRec s.fields) (hk : Convertible ops s.slice s.fields beams.length)
    (hb : RawacfRec s.fields m x norm beams nr nl) (hl : 0 < nl)
    (hi : ∀ w, Dict.get? s.fields (py! "intf_acfs") = some w →
      ∃ a, w = .arr a ∧ a.data.length = beams.length * (nr * nl))
    (hp : ∀ w, Dict.get? s.fields (py! "tx_antenna_phases") = some w → ∃ a n, w = .arr a ∧ a.shape = [n] ∧ n ≤ 16) :
    ∃ ds, convertRawacf cfg ops s = .ok ds ∧ ds.length = beams.length := by
  obtain ⟨ds, h⟩ := convertRawacf_succeeds (cfg := cfg) hc hr hk hb hl hi hp
  obtain ⟨rev, o, -, h'⟩ := convertRawacf_ok hb h
  exact ⟨ds, h, by rw [mapE_length h', enumFrom_length]⟩

/-- **C45** is violated for rawacf records without cross correlations, which the code provides for (`xcf` is then
zero): the conversion of a record with beams fails. -/
theorem C45_violation_no_xcfs {cfg : NpCfg} {ops : Ops} {s : Source} {ds : List PlainRec}
    (hx : Dict.get? s.fields (py! "xcfs") = none) (h : convertRawacf cfg ops s = .ok ds) : ds = [] := by
  unfold convertRawacf at h
  obtain ⟨dims, -, h⟩ := bind_ok h
  obtain ⟨_, -, h⟩ := bind_ok h
  obtain ⟨v, -, h⟩ := bind_ok h
  obtain ⟨main, -, h⟩ := bind_ok h
  obtain ⟨norm, -, h⟩ := bind_ok h
  obtain ⟨intf, -, h⟩ := bind_ok h
  obtain ⟨xcfs, h3, h⟩ := bind_ok h
  unfold shapedField at h3
  rw [hx] at h3
  cases h3
  obtain ⟨_, -, h⟩ := bind_ok h
  obtain ⟨_, -, h⟩ := bind_ok h
  obtain ⟨rev, -, h⟩ := bind_ok h
  obtain ⟨_, -, h⟩ := bind_ok h
  obtain ⟨beams, -, h⟩ := bind_ok h
  split at h
  · cases ds with
    | nil => rfl
    | cons d ds =>
      obtain ⟨p, -, h⟩ := mapE_mem h List.mem_cons_self
      unfold rawacfRecord at h
      obtain ⟨l0, -, h⟩ := bind_ok h
      obtain ⟨lm, -, h⟩ := bind_ok h
      obtain ⟨li, -, h⟩ := bind_ok h
      obtain ⟨lx, h5, h⟩ := bind_ok h
      cases h5
      obtain ⟨v, h6, -⟩ := entry_get (k := py! "xcfd") h rfl
      cases h6
  · cases h

example : ∃ ds, convertRecord numpy1 sampleOps .iqdat (sampleSource (sampleBfiq .v06 (py! ".1-61-gc13ab34"))) = .ok ds ∧
    ds.length = 2 ∧ ∀ d ∈ ds, ∃ r, plainToRec d = .ok r ∧ SD.Conforms .iqdat r := by
  have ht : VersionTail (py! ".1-61-gc13ab34") := .inr ⟨_, .inl rfl⟩
  obtain ⟨ds, h, hl⟩ := C45_bfiq numpy1 (s := sampleSource (sampleBfiq .v06 (py! ".1-61-gc13ab34")))
    (sampleBfiq_conforms .v06 _) (sampleBfiq_real .v06 _) (sampleBfiq_convertible .v06 ht) (sampleBfiq_rec .v06 _)
    (by decide)
  exact ⟨ds, h, hl, C45_conforms (t := .iqdat) (wfRec_of (by decide +kernel)) h⟩

example : ∃ ds, convertRecord numpy2 sampleOps .rawacf (sampleSource (sampleRawacf .v07 [])) = .ok ds ∧
    ds.length = 2 ∧ ∀ d ∈ ds, ∃ r, plainToRec d = .ok r ∧ SD.Conforms .rawacf r := by
  obtain ⟨ds, h, hl⟩ := C45_rawacf numpy2 (s := sampleSource (sampleRawacf .v07 []))
    (sampleRawacf_conforms .v07 _) (sampleRawacf_real .v07 _) (sampleRawacf_convertible .v07 (.inl rfl))
    (sampleRawacf_rec .v07 _) (by decide)
    (fun w hw => ⟨sampleAcfs 200, (Option.some.inj (hw.symm.trans rfl) : w = _), rfl⟩)
    (fun w hw => ⟨⟨.c64, [2], [.flt 0, .flt 0]⟩, 2, (Option.some.inj (hw.symm.trans rfl) : w = _), rfl, by decide⟩)
  exact ⟨ds, h, hl, C45_conforms (t := .rawacf) (wfRec_of (by decide +kernel)) h⟩

example : (convertToDmap numpy2 sampleOps .iqdat (.np .u32 (.int 0)) (py! "20200101.sas.h5") 1
      [(py! "1577836800000", sampleBfiq .v06 []), (py! "1577836803000", sampleBfiq .v06 [])]).map List.length =
    .ok 4 := by decide +kernel

example : convertRawacf numpy2 sampleOps (sampleSource ((sampleRawacf .v07 []).filter fun p => p.1 ≠ py! "xcfs")) =
    .error .keyError := by decide +kernel

/-! ## C44 -/

/-- **C44.** All values of a converted record are in the range of their types; arrays have as many elements as
their shapes say. -/
theorem C44_fits {cfg : NpCfg} {ops : Ops} {t : Target} {s : Source} {ds : List PlainRec} (hw : WFRec s.fields)
    (h : convertRecord cfg ops t s = .ok ds) : ∀ d ∈ ds, ∀ p ∈ d, FitsType p.2 :=
  fun _ hd => (convertRecord_fits hw h hd).2

example : ∀ ds, convertRecord numpy1 sampleOps .iqdat (sampleSource (sampleBfiq .v06 [])) = .ok ds →
    ∀ d ∈ ds, ∀ p ∈ d, FitsType p.2 :=
  fun _ h => C44_fits (wfRec_of (by decide +kernel)) h

/-- **C44.** The version bytes of a record with a version tag are 0 and the number after the dot, which DMAP chars
can hold. -/
theorem C44_version {cfg : NpCfg} {ops : Ops} {t : Target} {s : Source} {ds : List PlainRec}
    (h : convertRecord cfg ops t s = .ok ds) {v : Version} {tail : PyStr} (ht : VersionTail tail)
    (hv : IsText (Dict.get? s.fields (py! "borealis_git_hash")) (v.name ++ tail)) :
    ∀ d ∈ ds, intField d (py! "radar.revision.major") = some 0 ∧
      ∃ n : Nat, intField d (py! "radar.revision.minor") = some (n : Int) ∧ n < 10 ∧
        v.name = py! "v0." ++ Nat.toDigits 10 n := by
  intro d hd
  obtain ⟨rev, beam, b, txpow, nrang, l, ⟨hh, u, h1, h2, h3⟩, h4, -⟩ := convertRecord_common h hd
  rw [hv] at h1
  cases h1
  cases h2
  obtain ⟨m, h5, h6, h7⟩ := revisions_tag v ht
  rw [h5] at h3
  cases h3
  obtain ⟨x, h8, h9⟩ := entry_i8 (k := py! "radar.revision.major") h4 rfl
  obtain ⟨y, h10, h11⟩ := entry_i8 (k := py! "radar.revision.minor") h4 rfl
  rw [(revision_digit cfg (by decide)).1] at h8
  rw [(revision_digit cfg (List.mem_cons_of_mem _ h7)).1] at h10
  cases h8
  cases h10
  refine ⟨h9, _, h11, ?_, ?_⟩
  · have := (revision_digit cfg (List.mem_cons_of_mem '0' h7)).2
    omega
  · rw [h6]
    have : ∀ m ∈ ['2', '3', '4', '5', '6', '7'],
        ['v', '0', '.', m] = py! "v0." ++ Nat.toDigits 10 (m.toNat - 48) := by decide +kernel
    exact this m h7

/-- **C44** is violated for hashes that are not tags: NumPy 1 makes version bytes of -1 out of 255, which DMAP
chars cannot hold, and NumPy 2 fails. -/
theorem C44_violation_untagged {cfg : NpCfg} {ops : Ops} {t : Target} {s : Source} {ds : List PlainRec}
    {c : Char} {u : PyStr} (hc : c ≠ 'v') (hh : IsText (Dict.get? s.fields (py! "borealis_git_hash")) (c :: u))
    (h : convertRecord cfg ops t s = .ok ds) {d : PlainRec} (hd : d ∈ ds) :
    cfg.intWraps = true ∧ intField d (py! "radar.revision.major") = some (-1) ∧
    intField d (py! "radar.revision.minor") = some (-1) := by
  obtain ⟨rev, beam, b, txpow, nrang, l, ⟨hh', u', h1, h2, h3⟩, h4, -⟩ := convertRecord_common h hd
  rw [hh] at h1
  cases h1
  cases h2
  have hrev : rev = (.num 255, .num 255) := by
    unfold revisions at h3
    split at h3
    · rename_i he; cases he
    · rename_i he; cases he; exact absurd rfl hc
    · cases h3; rfl
  subst hrev
  obtain ⟨x, h8, h9⟩ := entry_i8 (k := py! "radar.revision.major") h4 rfl
  obtain ⟨y, h10, h11⟩ := entry_i8 (k := py! "radar.revision.minor") h4 rfl
  have hx : ∀ x, Revision.i8 cfg (.num 255) = .ok x → cfg.intWraps = true ∧ x = -1 := by
    intro x hx
    cases hw : cfg.intWraps with
    | true =>
      refine ⟨rfl, ?_⟩
      simp [Revision.i8, pyIntTo, npIntCast, hw, toSigned] at hx
      exact hx.symm
    | false =>
      simp [Revision.i8, pyIntTo, npIntCast, hw] at hx
  obtain ⟨hw, rfl⟩ := hx x h8
  obtain ⟨-, rfl⟩ := hx y h10
  exact ⟨hw, h9, h11⟩

/-- **C44** is violated by numbers that do not fit, which are wrapped silently: a frequency of at least 32768 kHz
becomes negative. -/
theorem C44_violation_frequency {cfg : NpCfg} {ops : Ops} {t : Target} {s : Source} {ds : List PlainRec} {n : Int}
    (hf : Dict.get? s.fields (py! "freq") = some (.np .u32 (.int n))) (h : convertRecord cfg ops t s = .ok ds) :
    ∀ d ∈ ds, (0 ≤ n → n < 2 ^ 15 → intField d (py! "tfreq") = some n) ∧
      (2 ^ 15 ≤ n → n < 2 ^ 16 → intField d (py! "tfreq") = some (n - 2 ^ 16)) := by
  intro d hd
  obtain ⟨rev, beam, b, txpow, nrang, l, -, h4, h5⟩ := convertRecord_common h hd
  have hk : Dict.get? (commonFields cfg ops s rev beam b txpow nrang ++ l) (py! "tfreq") =
      some (s.i16 cfg ops (py! "freq")) := by rw [← h5.tfreq]; rfl
  obtain ⟨x, h8, h9⟩ := entry_i16 h4 hk
  rw [bind_of_ok (field_iff.2 hf)] at h8
  cases h8
  rw [h9]
  refine ⟨fun h1 h2 => ?_, fun h1 h2 => ?_⟩
  · rw [wrapInt_eq (by unfold signedOk; omega)]
  · congr 1
    unfold wrapInt toSigned
    simp only [Nat.reducePow] at *
    omega

example : IsText (Dict.get? (sampleBfiq .v06 (py! "-61-gc13ab34")) (py! "borealis_git_hash"))
      (Version.name .v06 ++ py! "-61-gc13ab34") ∧ VersionTail (py! "-61-gc13ab34") :=
  ⟨rfl, .inr ⟨_, .inr rfl⟩⟩

example : ((convertRecord numpy1 sampleOps .iqdat (sampleSource
      ((sampleBfiq .v06 []).set (py! "borealis_git_hash") (.py .str (.str (py! "gc13ab34")))))).map fun l =>
      l.map fun d => intField d (py! "radar.revision.major")) = .ok [some (-1), some (-1)] ∧
    convertRecord numpy2 sampleOps .iqdat (sampleSource
      ((sampleBfiq .v06 []).set (py! "borealis_git_hash") (.py .str (.str (py! "gc13ab34"))))) = .error .overflowError := by
  decide +kernel

example : ((convertRecord numpy2 sampleOps .rawacf (sampleSource
      ((sampleRawacf .v06 []).set (py! "freq") (.np .u32 (.int 40000))))).map fun l =>
      l.map fun d => intField d (py! "tfreq")) = .ok [some (-25536), some (-25536)] := by
  decide +kernel

end Verif.Bor
